import Verif.Model.Lib
/-!
# Model of `src/metaphone.rs`
-/

namespace Verif

/-- `Metaphone` (metaphone.rs:39-41). -/
structure Metaphone where
  maxCodeLength : Option Nat
deriving DecidableEq

namespace Metaphone

/-- `Metaphone::new` (metaphone.rs:50-52). -/
def new (maxCodeLength : Option Nat) : Metaphone := { maxCodeLength }

/-- `Default` (metaphone.rs:77-83). -/
def default : Metaphone := { maxCodeLength := some 4 }

/-- `Metaphone::is_vowel` (metaphone.rs:54-57). -/
def isVowelAt (text : Str) (index : Nat) : Bool := isVowel (text[index]?.map asciiLower) false

/-- `is_previous_char` (metaphone.rs:59-61). -/
def isPreviousChar (text : Str) (index : Nat) (ch : Char) : Bool :=
  decide (index > 0) && text[index - 1]? == some ch

/-- `is_next_char` (metaphone.rs:63-65). -/
def isNextChar (text : Str) (index : Nat) (ch : Char) : Bool := text[index + 1]? == some ch

/-- `region_match` (metaphone.rs:67-69): `index` is a character index but is used as a byte offset
in `text[index..]`. -/
def regionMatch (text : Str) (index : Nat) (test : Str) : Res Bool :=
  if index + byteLen test - 1 < byteLen text then do
    let r ← sliceFrom text index
    return startsWith r test
  else return false

/-- `is_last_char` (metaphone.rs:71-73). -/
def isLastChar (wdsz n : Nat) : Bool := n + 1 == wdsz

/-- `FRONTV.contains(ch)` (metaphone.rs:22). -/
def isFrontV (ch : Option Char) : Bool :=
  match ch with
  | some c => c!"EIY".contains c
  | none => false

/-- `VARSON.contains(ch)` (metaphone.rs:23). -/
def isVarson (ch : Option Char) : Bool :=
  match ch with
  | some c => c!"CSPTG".contains c
  | none => false

/-- Case 'C' (metaphone.rs:150-176): the characters pushed. -/
def caseC (l : Str) (wdsz index : Nat) : Res Str := do
  let next := l[index + 1]?
  if isPreviousChar l index 'S' && !isLastChar wdsz index && isFrontV next then return []
  else if ← regionMatch l index c!"CIA" then return ['X']
  else if !isLastChar wdsz index && isFrontV next then return ['S']
  else if isPreviousChar l index 'S' && isNextChar l index 'H' then return ['K']
  else if isNextChar l index 'H' then
    if index == 0 && wdsz > 3 && isVowelAt l 2 then return ['K'] else return ['X']
  else return ['K']

/-- Case 'D' (metaphone.rs:177-189): characters pushed and the new `skip`. -/
def caseD (l : Str) (wdsz index : Nat) : Str × Nat :=
  if !isLastChar wdsz (index + 1) && isNextChar l index 'G' && isFrontV l[index + 2]? then
    (['J'], 2)
  else (['T'], 0)

/-- Case 'G' (metaphone.rs:190-213). -/
def caseG (l : Str) (wdsz index : Nat) : Res Str := do
  let silent ←
    if (isLastChar wdsz (index + 1) && isNextChar l index 'H') ||
        (!isLastChar wdsz (index + 1) && isNextChar l index 'H' && !isVowelAt l (index + 2)) then
      pure true
    else if index > 0 then
      if ← regionMatch l index c!"GN" then pure true else regionMatch l index c!"GNED"
    else pure false
  if silent then return []
  else if !isPreviousChar l index 'G' && !isLastChar wdsz index && isFrontV l[index + 1]? then
    return ['J']
  else return ['K']

/-- Case 'H' (metaphone.rs:214-224). -/
def caseH (l : Str) (wdsz index : Nat) : Str :=
  if isLastChar wdsz index || (decide (index > 0) && isVarson l[index - 1]?) then []
  else if isVowelAt l (index + 1) then ['H']
  else []

/-- Case 'S' (metaphone.rs:237-246). -/
def caseS (l : Str) (index : Nat) : Res Str := do
  if ← regionMatch l index c!"SH" then return ['X']
  else if ← regionMatch l index c!"SIO" then return ['X']
  else if ← regionMatch l index c!"SIA" then return ['X']
  else return ['S']

/-- Case 'T' (metaphone.rs:247-259). -/
def caseT (l : Str) (index : Nat) : Res Str := do
  if ← regionMatch l index c!"TIA" then return ['X']
  else if ← regionMatch l index c!"TIO" then return ['X']
  else if ← regionMatch l index c!"TCH" then return []
  else if ← regionMatch l index c!"TH" then return ['0']
  else return ['T']

/-- The `match symb` (metaphone.rs:141-273): the characters pushed on `code` and the value given to
`skip` (0 unless it is set). The arms do not read `code`. -/
def symbol (l : Str) (wdsz index : Nat) (symb : Char) : Res (Str × Nat) :=
  if c!"AEIOU".contains symb then .ok (if index = 0 then [symb] else [], 0)
  else if symb = 'B' then
    .ok (if !isPreviousChar l index 'M' || !isLastChar wdsz index then [symb] else [], 0)
  else if symb = 'C' then do return (← caseC l wdsz index, 0)
  else if symb = 'D' then .ok (caseD l wdsz index)
  else if symb = 'G' then do return (← caseG l wdsz index, 0)
  else if symb = 'H' then .ok (caseH l wdsz index, 0)
  else if c!"FJLMNR".contains symb then .ok ([symb], 0)
  else if symb = 'K' then
    .ok (if index == 0 || !isPreviousChar l index 'C' then [symb] else [], 0)
  else if symb = 'P' then .ok (if isNextChar l index 'H' then ['F'] else [symb], 0)
  else if symb = 'Q' then .ok (['K'], 0)
  else if symb = 'S' then do return (← caseS l index, 0)
  else if symb = 'T' then do return (← caseT l index, 0)
  else if symb = 'V' then .ok (['F'], 0)
  else if symb = 'W' ∨ symb = 'Y' then
    .ok (if !isLastChar wdsz index && isVowelAt l (index + 1) then [symb] else [], 0)
  else if symb = 'X' then .ok (['K', 'S'], 0)
  else if symb = 'Z' then .ok (['S'], 0)
  else .ok ([], 0)

/-- Truncation at the end of an iteration (metaphone.rs:277-281). -/
def truncate (max : Option Nat) (code : Str) : Res Str :=
  match max with
  | some m => if byteLen code > m then sliceTo code m else .ok code
  | none => .ok code

/-- One letter that is not skipped (metaphone.rs:136-275): a repeated letter other than C is ignored. -/
def step (l : Str) (wdsz index : Nat) (symb : Char) : Res (Str × Nat) :=
  if symb = 'C' ∨ ¬ isPreviousChar l index symb then symbol l wdsz index symb else .ok ([], 0)

/-- The `for` loop (metaphone.rs:130-285). -/
def loop (max : Option Nat) (l : Str) (wdsz : Nat) :
    (rest : Str) → (index : Nat) → (skip : Nat) → (code : Str) → Res Str
  | [], _, _, code => .ok code
  | symb :: rest, index, skip, code =>
    if skip = 0 then
      if max = some (byteLen code) then .ok code
      else do
        let (pushed, skip) ← step l wdsz index symb
        let code ← truncate max (code ++ pushed)
        loop max l wdsz rest (index + 1) skip code
    else loop max l wdsz rest (index + 1) (skip - 1) code

/-- The initial transformations (metaphone.rs:93-125); the slices `inwd[1..]`, `inwd[2..]` follow
one or two ASCII characters. -/
def initial (inwd : Str) : Str :=
  match inwd with
  | [] => []
  | c :: rest =>
    let next := rest.head?
    if c = 'K' ∨ c = 'G' ∨ c = 'P' then if next = some 'N' then rest else inwd
    else if c = 'A' then if next = some 'E' then rest else inwd
    else if c = 'W' then
      if next = some 'R' then rest
      else if next = some 'H' then 'W' :: rest.drop 1
      else inwd
    else if c = 'X' then 'S' :: rest
    else inwd

/-- `Metaphone::encode` (metaphone.rs:86-288). -/
def encode (U : Unicode) (m : Metaphone) (value : Str) : Res Str :=
  let inwd := U.strUpper value
  if byteLen inwd = 1 then .ok inwd
  else
    let l := initial inwd
    loop m.maxCodeLength l (byteLen l) l 0 0 []

end Metaphone

end Verif
