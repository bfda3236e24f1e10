import Verif.Spec.Common
/-!
# Declarative definition of the Match Rating code

Nothing here refers to the model of the code.
-/

namespace Verif.Spec

/-- The punctuation that is ignored: hyphen, ampersand, apostrophe, full stop, comma. -/
def mraPunct (c : Char) : Bool := c!"-&'.,".contains c

/-- Removal of diacritics, by base letter. -/
def mraPlain (c : Char) : Char :=
  if c!"ÀÁÂÃÄÅ".contains c then 'A'
  else if c!"àáâãäå".contains c then 'a'
  else if c!"Çç".contains c then (if c = 'Ç' then 'C' else 'c')
  else if c!"ÈÉÊË".contains c then 'E'
  else if c!"èéêë".contains c then 'e'
  else if c!"ÌÍÎÏ".contains c then 'I'
  else if c!"ìíîï".contains c then 'i'
  else if c!"Ññ".contains c then (if c = 'Ñ' then 'N' else 'n')
  else if c!"ÒÓÔÕÖŐ".contains c then 'O'
  else if c!"òóôõöő".contains c then 'o'
  else if c!"ÙÚÛÜŰ".contains c then 'U'
  else if c!"ùúûüű".contains c then 'u'
  else if c!"ÝŶŸ".contains c then 'Y'
  else if c!"ýŷÿ".contains c then 'y'
  else c

/-- The cleaned name: upper case, without punctuation, white space and diacritics. -/
def mraClean (U : Unicode) (s : Str) : Str :=
  ((U.strUpper s).filter fun c => !mraPunct c && !U.isWhitespace c).map mraPlain

/-- The characters of an ASCII name that Match Rating does not ignore, in upper case. -/
def mraAsciiKept (s : Str) : Str := (s.filter fun c => !mraPunct c && !isAsciiWs c).map asciiUpper

/-- All vowels but a leading one are dropped. -/
def mraSkeleton (w : Str) : Str := w.take 1 ++ (w.drop 1).filter fun c => !c!"AEIOUaeiou".contains c

/-- Every pair of equal adjacent consonants becomes one (pairs are formed from the left, so three
equal consonants become two). -/
def mraPairs : Str → Str
  | [] => []
  | [a] => [a]
  | a :: b :: r =>
    if a = b ∧ c!"BCDFGHJKLMNPQRSTVWXYZ".contains a then a :: mraPairs r else a :: mraPairs (b :: r)

/-- The reduced name. -/
def mraReduced (U : Unicode) (s : Str) : Str := mraPairs (U.strUpper (mraSkeleton (mraClean U s)))

/-- `code` is the first three and the last three bytes of `r` if `r` is longer than six bytes, and
`r` otherwise. -/
def MraCut (r code : Str) : Prop :=
  (byteLen r ≤ 6 ∧ code = r) ∨
  (6 < byteLen r ∧ ∃ a m b, r = a ++ m ++ b ∧ byteLen a = 3 ∧ byteLen b = 3 ∧ code = a ++ b)

/-! ## The comparison of two codes -/

/-- Neither of the two positions belongs to a pair. -/
def mraFree (pairs : List (Nat × Nat)) (p : Nat × Nat) : Bool := pairs.all fun q => q.1 != p.1 && q.2 != p.2

/-- Pairs two positions if neither is taken and they hold the same letter. -/
def mraPair (a b : Str) (p : Nat × Nat) (pairs : List (Nat × Nat)) : List (Nat × Nat) :=
  if mraFree pairs p && a[p.1]? == b[p.2]? then p :: pairs else pairs

/-- The pairs after `k` rounds; each looks at the next position from the left, then from the right. -/
def mraMatches (a b : Str) : (k : Nat) → List (Nat × Nat)
  | 0 => []
  | k + 1 => mraPair a b (a.length - 1 - k, b.length - 1 - k) (mraPair a b (k, k) (mraMatches a b k))

/-- The rating: six minus the number of letters of the longer code that are not in a pair. -/
def mraRating (a b : Str) : Nat := 6 - (max a.length b.length - (mraMatches a b (min a.length b.length)).length)

/-- The minimum rating for codes with a total of `n` letters. -/
def mraMinimum (n : Nat) : Nat := if n < 5 then 5 else if n < 8 then 4 else if n < 12 then 3 else if n < 13 then 2 else 1

/-- Two codes are similar: their lengths differ by at most two, and the rating reaches the minimum. -/
def mraSimilar (a b : Str) : Bool :=
  decide (a.length ≤ b.length + 2 ∧ b.length ≤ a.length + 2 ∧ mraMinimum (a.length + b.length) ≤ mraRating a b)

/-! Codes with letters of several bytes: the lengths are counted in bytes. -/

/-- The letters of a code that are not at the given places. -/
def mraAlone (code : Str) (places : List Nat) : Str :=
  (code.zipIdx.filter fun p => !places.contains p.2).map fun p => p.1

/-- The rating, in bytes: six minus the longer of the two rests that are not in a pair. -/
def mraByteRating (a b : Str) : Nat :=
  let pairs := mraMatches a b (min a.length b.length)
  6 - max (byteLen (mraAlone a (pairs.map fun p => p.1))) (byteLen (mraAlone b (pairs.map fun p => p.2)))

/-- Similar codes, in bytes. -/
def mraByteSimilar (a b : Str) : Bool :=
  decide (byteLen a ≤ byteLen b + 2 ∧ byteLen b ≤ byteLen a + 2 ∧ mraMinimum (byteLen a + byteLen b) ≤ mraByteRating a b)

end Verif.Spec
