import Verif.Basic
/-!
# Names with one code

Letters that Daitch-Mokotoff Soundex and Double Metaphone can code in two ways.
-/

namespace Verif.Spec

/-- The number of letters of a text in capitals that Daitch-Mokotoff Soundex can code in two ways: C, J, and R before S
or Z. -/
def twoWays : Str → Nat
  | [] => 0
  | c :: rest =>
    (if c = 'C' ∨ c = 'J' ∨ c = 'R' ∧ (rest.head? = some 'S' ∨ rest.head? = some 'Z') then 1 else 0) + twoWays rest

/-- An ASCII text in capitals, without white space. -/
def unspaced (s : Str) : Str := (s.filter fun c => !isAsciiWs c).map asciiUpper

/-- A word in capitals that Double Metaphone reads in one way: without C, G, J, S, W, Z, LL and TH, and not ending in
IER. -/
def OneReading (word : Str) : Prop :=
  (∀ c ∈ word, c ∉ c!"CGJSWZ") ∧ ¬ c!"LL" <:+: word ∧ ¬ c!"TH" <:+: word ∧ ¬ c!"IER" <:+ word

end Verif.Spec
