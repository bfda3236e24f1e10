import Verif.Spec.Common
/-!
# Declarative definition of the Metaphone code

The code of every letter as a function of the letters before it (nearest first) and after it.
Nothing here refers to the model of the code.
-/

namespace Verif.Spec

/-- The word starts with a character of `l`. -/
def startsIn (w l : Str) : Bool :=
  match w with
  | c :: _ => l.contains c
  | [] => false

/-- The word starts with a vowel (in either case). -/
def startsVowel (w : Str) : Bool := startsIn w c!"AEIOUaeiou"

/-- The code of the letter `c`. -/
def metaLetter (before : Str) (c : Char) (after : Str) : Str :=
  if c!"AEIOU".contains c then (if before = [] then [c] else [])
  else if c = 'B' then (if c!"M" <+: before ∧ after = [] then [] else ['B'])
  else if c = 'C' then
    (if c!"S" <+: before ∧ startsIn after c!"EIY" then []
     else if c!"IA" <+: after then ['X']
     else if startsIn after c!"EIY" then ['S']
     else if c!"H" <+: after then
       (if c!"S" <+: before then ['K']
        else if before = [] ∧ 3 ≤ after.length ∧ startsVowel (after.drop 1) then ['K']
        else ['X'])
     else ['K'])
  else if c = 'D' then (if c!"G" <+: after ∧ startsIn (after.drop 1) c!"EIY" then ['J'] else ['T'])
  else if c = 'G' then
    (if c!"H" <+: after ∧ ¬ startsVowel (after.drop 1) then []
     else if before ≠ [] ∧ c!"N" <+: after then []
     else if startsIn after c!"EIY" then ['J']
     else ['K'])
  else if c = 'H' then (if startsVowel after ∧ ¬ startsIn before c!"CSPTG" then ['H'] else [])
  else if c!"FJLMNR".contains c then [c]
  else if c = 'K' then (if c!"C" <+: before then [] else ['K'])
  else if c = 'P' then (if c!"H" <+: after then ['F'] else ['P'])
  else if c = 'Q' then ['K']
  else if c = 'S' then
    (if c!"H" <+: after ∨ c!"IO" <+: after ∨ c!"IA" <+: after then ['X'] else ['S'])
  else if c = 'T' then
    (if c!"IA" <+: after ∨ c!"IO" <+: after then ['X']
     else if c!"CH" <+: after then []
     else if c!"H" <+: after then ['0']
     else ['T'])
  else if c = 'V' then ['F']
  else if c = 'W' ∨ c = 'Y' then (if startsVowel after then [c] else [])
  else if c = 'X' then ['K', 'S']
  else if c = 'Z' then ['S']
  else []

/-- `before` ends in a D that was coded J together with the two letters after it (it is not a
doubled D). -/
def plainD (before : Str) : Bool := c!"D".isPrefixOf before && !c!"DD".isPrefixOf before

/-- The letter was absorbed by a preceding `DGE`, `DGI` or `DGY` group. -/
def metaAbsorbed (before : Str) (c : Char) (after : Str) : Bool :=
  (c == 'G' && startsIn after c!"EIY" && plainD before) ||
  (c!"EIY".contains c && c!"GD".isPrefixOf before && plainD (before.drop 1))

/-- The codes of all letters; a letter equal to its predecessor is silent, except C. -/
def metaCodes (before : Str) : Str → Str
  | [] => []
  | c :: after =>
    (if metaAbsorbed before c after ∨ (c ≠ 'C' ∧ [c] <+: before) then []
     else metaLetter before c after) ++ metaCodes (c :: before) after

/-- Rewriting of the first letters. -/
def metaInitial (w : Str) : Str :=
  if c!"KN" <+: w ∨ c!"GN" <+: w ∨ c!"PN" <+: w ∨ c!"AE" <+: w ∨ c!"WR" <+: w then w.drop 1
  else if c!"WH" <+: w then c!"W" ++ w.drop 2
  else if c!"X" <+: w then c!"S" ++ w.drop 1
  else w

/-- The unlimited Metaphone code of an upper-case word: a single character stands for itself. -/
def metaphone (w : Str) : Str := if w.length = 1 then w else metaCodes [] (metaInitial w)

/-! ## Texts beyond ASCII

Where the code compares a part of the word with C…, G…, S… or T…, it counts the letters before this place
in characters, but skips as many *bytes*: in words with letters beyond ASCII it looks at another place,
and panics if this is inside a letter. -/

/-- The word from byte `i` on, unless it is inside a letter. -/
def fromByte (w : Str) (i : Nat) : Option Str := (splitAtByte i w).map (·.2)

/-- The code of the letter `c` of the word `w`; `none` is a panic. Only B, C, G, S and T differ from
`metaLetter`: a final B after M is silent only in ASCII words. -/
def metaLetterAt (w before : Str) (c : Char) (after : Str) : Option Str :=
  if c = 'B' then some (if c!"M" <+: before ∧ after = [] ∧ AsciiStr w then [] else ['B'])
  else if c = 'C' then
    (if c!"S" <+: before ∧ startsIn after c!"EIY" then some []
     else
       let other :=
        if startsIn after c!"EIY" then ['S']
        else if c!"H" <+: after then
          (if c!"S" <+: before then ['K']
           else if before = [] ∧ 3 ≤ after.length ∧ startsVowel (after.drop 1) then ['K']
           else ['X'])
        else ['K']
       if byteLen w < before.length + 3 then some other
       else (fromByte w before.length).map fun part => if c!"CIA" <+: part then ['X'] else other)
  else if c = 'G' then
    (if c!"H" <+: after ∧ ¬ startsVowel (after.drop 1) then some []
     else
       let other := if startsIn after c!"EIY" then ['J'] else ['K']
       if before = [] then some other
       else (fromByte w before.length).map fun part => if c!"GN" <+: part then [] else other)
  else if c = 'S' then
    (fromByte w before.length).map fun part =>
      if c!"SH" <+: part ∨ c!"SIO" <+: part ∨ c!"SIA" <+: part then ['X'] else ['S']
  else if c = 'T' then
    (fromByte w before.length).map fun part =>
      if c!"TIA" <+: part ∨ c!"TIO" <+: part then ['X']
      else if c!"TCH" <+: part then []
      else if c!"TH" <+: part then ['0']
      else ['T']
  else some (metaLetter before c after)

/-- The codes of all letters. -/
def metaPieces (w : Str) (before : Str) : Str → List (Option Str)
  | [] => []
  | c :: after =>
    (if metaAbsorbed before c after ∨ (c ≠ 'C' ∧ [c] <+: before) then some []
     else metaLetterAt w before c after) :: metaPieces w (c :: before) after

/-- Writes codes until the limit is reached; `none` if a panic comes first. -/
def writePieces (limit : Option Nat) (code : Str) : List (Option Str) → Option Str
  | [] => some code
  | p :: ps =>
    if limit = some code.length then some code
    else
      match p with
      | none => none
      | some x =>
        writePieces limit (match limit with
          | some n => (code ++ x).take n
          | none => code ++ x) ps

/-- The Metaphone code of any upper-case text that is not a single byte; `none` is a panic. -/
def metaphoneAny (limit : Option Nat) (text : Str) : Option Str :=
  writePieces limit [] (metaPieces (metaInitial text) [] (metaInitial text))

end Verif.Spec
