import Verif.Spec.Common
/-!
# Declarative definition of the Cologne phonetics code

The table of the Kölner Phonetik: the code of a letter depends on the letter, on the letter before
it, on the character right after it and on whether it is in onset position (only H before it).
-/

namespace Verif.Spec

/-- `o` is one of the characters of `l`. -/
def oneOf (o : Option Char) (l : Str) : Bool :=
  match o with
  | some c => l.contains c
  | none => false

/-- The table. `'-'` stands for the silent H, which separates equal codes. -/
def cologneCode (onset : Bool) (prev next : Option Char) (c : Char) : Str :=
  if c!"AEIJOUY".contains c then ['0']
  else if c = 'H' then ['-']
  else if c = 'B' then ['1']
  else if c = 'P' then (if next = some 'H' then ['3'] else ['1'])
  else if c = 'D' ∨ c = 'T' then (if oneOf next c!"CSZ" then ['8'] else ['2'])
  else if c!"FVW".contains c then ['3']
  else if c!"GKQ".contains c then ['4']
  else if c = 'C' then
    (if onset then (if oneOf next c!"AHKLOQRUX" then ['4'] else ['8'])
     else if oneOf prev c!"SZ" then ['8']
     else if oneOf next c!"AHKOQUX" then ['4']
     else ['8'])
  else if c = 'X' then (if oneOf prev c!"CKQ" then ['8'] else ['4', '8'])
  else if c = 'L' then ['5']
  else if c = 'M' ∨ c = 'N' then ['6']
  else if c = 'R' then ['7']
  else if c = 'S' ∨ c = 'Z' then ['8']
  else []

/-- The codes of all letters of a word; `before` are the letters already read, nearest first.
Characters other than A–Z have no code and are not "letters before", but do count as the character
right after a letter. -/
def cologneCodes (before : Str) : Str → Str
  | [] => []
  | c :: rest =>
    if isAsciiUpper c then
      cologneCode (before.all (· == 'H')) before.head? rest.head? c ++ cologneCodes (c :: before) rest
    else cologneCodes before rest

/-- Collapse runs, drop the silent marks, drop '0' except in first position. -/
def cologneFinish (codes : Str) : Str :=
  match (collapse codes).filter (· ≠ '-') with
  | [] => []
  | d :: ds => d :: ds.filter (· ≠ '0')

/-- Ä, Ö, Ü without dots. -/
def unUmlaut (c : Char) : Char :=
  if c = 'Ä' then 'A' else if c = 'Ö' then 'O' else if c = 'Ü' then 'U' else c

/-- The upper-cased, umlaut-folded word. -/
def cologneWord (U : Unicode) (s : Str) : Str := (U.strUpper s).map unUmlaut

/-- The Cologne code. -/
def cologne (U : Unicode) (s : Str) : Str := cologneFinish (cologneCodes [] (cologneWord U s))

end Verif.Spec
