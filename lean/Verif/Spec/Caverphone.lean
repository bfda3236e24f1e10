import Verif.Basic
/-!
# Specification of the Caverphone codes

A word in lower case is read letter by letter.  Each letter is silent, is a vowel or sounds like one of the letters of
the code; this depends on what precedes it and on what follows it.
-/

namespace Verif.Spec.Caverphone

/-- What a letter sounds like. -/
inductive Sound where
  | silent
  | vowel
  | letter (c : Char)
deriving DecidableEq, Repr

open Sound

/-- The two versions of the algorithm. -/
inductive Version where
  | v1
  | v2
deriving DecidableEq, Repr

/-- The text starts with one of the given words. -/
def starts (text : Str) (words : List Str) : Bool := words.any fun w => w.isPrefixOf text

/-- Letters that sound like a vowel inside a word: a, e, i, o, u, in the second version also y and j. -/
def vocal : Version → Str
  | .v1 => c!"aeiou"
  | .v2 => c!"aeiouyj"

/-- Starts with a vowel. -/
def vowelAhead (v : Version) (text : Str) : Bool := starts text ((vocal v).map fun c => [c])

/-- The beginnings after which gh sounds like f. -/
def tough : Version → List Str
  | .v1 => [c!"cou", c!"rou", c!"tou", c!"enou"]
  | .v2 => [c!"cou", c!"rou", c!"tou", c!"enou", c!"trou"]

/-- A gh may sound like k after these letters (the nearest is the first one): the nearest is a vowel, not the first
letter of the word, and does not follow a gh that sounds like k. -/
def hardAfter (v : Version) : Str → Bool
  | c :: 'h' :: 'g' :: before =>
    (vocal v).contains c && !(hardAfter v before && !(tough v).contains before.reverse)
  | c :: _ :: _ => (vocal v).contains c
  | _ => false

section
variable (v : Version) (before after : Str)

/-- gh -/
def soundGH : Sound :=
  if hardAfter v before.reverse && vowelAhead v (after.drop 1) && !(tough v).contains before then letter 'K' else silent

/-- w, r and l, which are heard before a vowel.  In the second version they sound like a vowel at the end. -/
def soundW : Sound :=
  if vowelAhead v after || starts after [c!"y"] || starts after [c!"h"] && (vowelAhead v (after.drop 1) || starts after [c!"hy"])
  then letter 'W'
  else if v = .v2 ∧ after = [] then vowel else silent
def soundR : Sound :=
  if vowelAhead v after || starts after [c!"y"] || v = .v2 ∧ after = c!"w" then letter 'R'
  else if v = .v2 ∧ after = [] then vowel else silent
def soundL : Sound :=
  if vowelAhead v after || starts after [c!"y"] || v = .v2 ∧ (after = c!"w" ∨ after = c!"r") then letter 'L'
  else if v = .v2 ∧ after = [] then vowel else silent

/-- y and j -/
def soundY : Sound :=
  match v with
  | .v1 => if starts after [c!"a", c!"e", c!"i", c!"o", c!"u"] then letter 'Y' else silent
  | .v2 =>
    if before = [] then if starts after [c!"a", c!"e", c!"i", c!"o", c!"u"] then letter 'Y' else letter 'A'
    else vowel

/-- The sound of a letter. -/
def sound (c : Char) : Sound :=
  match c with
  | 'a' | 'e' | 'i' | 'o' | 'u' => if before = [] then letter 'A' else vowel
  | 'b' => if after = [] ∧ before.getLast? = some 'm' then silent else letter 'P'
  | 'c' => if starts after [c!"q"] then silent else if starts after [c!"i", c!"e", c!"y"] then letter 'S' else letter 'K'
  | 'd' => if starts after [c!"g"] then silent else letter 'T'
  | 'f' | 'v' => letter 'F'
  | 'g' =>
    if before = [] && starts after [c!"n"] then silent
    else if starts after [c!"h"] then soundGH v before after
    else letter 'K'
  | 'h' =>
    if before = [] then letter 'A'
    else if ((tough v).map (· ++ c!"g")).contains before then letter 'F'
    else silent
  | 'j' | 'y' => soundY v before after
  | 'k' | 'q' | 'x' => letter 'K'
  | 'l' => soundL v after
  | 'm' => letter 'M'
  | 'n' => letter 'N'
  | 'p' => if starts after [c!"h"] then letter 'F' else letter 'P'
  | 'r' => soundR v after
  | 's' | 'z' => letter 'S'
  | 't' => if starts after [c!"ch"] then silent else if starts after [c!"io", c!"ia"] then letter 'S' else letter 'T'
  | 'w' => soundW v after
  | c => letter c

end

/-- The sounds of a word, from a place on. -/
def soundsFrom (v : Version) : (before : Str) → (after : Str) → List Sound
  | _, [] => []
  | before, c :: after => sound v before after c :: soundsFrom v (before ++ [c]) after

/-- Adjacent letters with the same consonant sound are heard once. -/
def once : List Sound → List Sound
  | a :: b :: rest => if a = b ∧ a ∈ c!"STPKFMN".map letter then once (b :: rest) else a :: once (b :: rest)
  | rest => rest

/-- What is written for a sound. -/
def written : Sound → Str
  | letter c => [c]
  | _ => []

/-- The code of a word, before it is filled up and cut. The second version ignores a final e, and writes a final
vowel as A. -/
def code : Version → Str → Str
  | .v1, word => (once (soundsFrom .v1 [] word)).flatMap written
  | .v2, word =>
    let word := if word.getLast? = some 'e' then word.dropLast else word
    let heard := (once (soundsFrom .v2 [] word)).filter (· ≠ silent)
    heard.flatMap written ++ if heard.getLast? = some vowel then c!"A" else []

end Verif.Spec.Caverphone
