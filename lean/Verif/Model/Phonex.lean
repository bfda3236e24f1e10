import Verif.Model.Lib
/-!
# Model of `src/phonex.rs`
-/

namespace Verif

/-- `Phonex` (phonex.rs:34-37). -/
structure Phonex where
  maxCodeLength : Nat
deriving DecidableEq

namespace Phonex

/-- `Phonex::new` (phonex.rs:45-47). -/
def new (maxCodeLength : Nat) : Phonex := { maxCodeLength }

/-- `Default` (phonex.rs:144-148). -/
def default : Phonex := { maxCodeLength := 4 }

/-- `while input.ends_with('S') { input.pop(); }` (phonex.rs:53-55). -/
def popS (input : Str) : Str := (input.reverse.dropWhile (· == 'S')).reverse

/-- `input.replace_range(..1, rep)`: panics unless byte 1 is a character boundary within the text (phonex.rs:61-90). -/
def replaceRange1 (input rep : Str) : Res Str := do
  let r ← sliceFrom input 1
  return rep ++ r

/-- The rules on the first two characters (phonex.rs:59-65). -/
def firstTwo (input : Str) : Res Str :=
  if input.take 2 = c!"KN" then replaceRange1 input c!"N"
  else if input.take 2 = c!"PH" then replaceRange1 input c!"F"
  else if input.take 2 = c!"WR" then replaceRange1 input c!"R"
  else .ok input

/-- `String::remove(0)`: panics on an empty string (phonex.rs:71). -/
def remove0 (input : Str) : Res Str :=
  match input with
  | [] => .error .index
  | _ :: r => .ok r

/-- Removal of a leading H (phonex.rs:69-72). -/
def dropH (input : Str) : Res Str :=
  if input.head? = some 'H' then remove0 input else .ok input

/-- Replacement of the first character (phonex.rs:81-92). -/
def replaceFirst (input : Str) : Res Str :=
  match input.head? with
  | some 'E' | some 'I' | some 'O' | some 'U' | some 'Y' => replaceRange1 input c!"A"
  | some 'P' => replaceRange1 input c!"B"
  | some 'V' => replaceRange1 input c!"F"
  | some 'K' | some 'Q' => replaceRange1 input c!"C"
  | some 'J' => replaceRange1 input c!"G"
  | some 'Z' => replaceRange1 input c!"S"
  | _ => .ok input

/-- `preprocess` (phonex.rs:49-95). -/
def preprocess (U : Unicode) (value : Str) : Res Str := do
  let input := popS (soundexClean U value)
  let input ← firstTwo input
  let input ← dropH input
  replaceFirst input

/-- `Phonex::is_vowel` (phonex.rs:97-102). -/
def isVowelP (c : Option Char) : Bool :=
  match c with
  | some c => isVowel (some (asciiLower c)) true
  | none => false

/-- `transcode` (phonex.rs:104-141). -/
def transcode (curr : Char) (next : Option Char) (isLastChar : Bool) : Option Char × Bool :=
  if c!"BPFV".contains curr then (some '1', false)
  else if c!"CSKGJQXZ".contains curr then (some '2', false)
  else if c!"DT".contains curr then (if next = some 'C' then none else some '3', false)
  else if curr = 'L' then (if isVowelP next || isLastChar then some '4' else none, false)
  else if c!"MN".contains curr then (some '5', next == some 'D' || next == some 'G')
  else if curr = 'R' then (if isVowelP next || isLastChar then some '6' else none, false)
  else (some '0', false)

/-- The variables of the loop of `encode` (phonex.rs:160-164). -/
structure St where
  result : Str
  code : Char
  last : Char
  lastPush : Char
deriving DecidableEq, Repr

/-- `result` empty and the three characters '0' (phonex.rs:160-164). -/
def St.init : St := { result := [], code := '0', last := '0', lastPush := '0' }

/-- The body of the loop (phonex.rs:172-208) for the character `curr` at index `i` followed by
`next`. Returns the new variables and whether the next character was consumed. -/
def step (i : Nat) (curr : Char) (next : Option Char) (st : St) : St × Bool :=
  let (result, lastPush) := if i = 0 then (st.result ++ [curr], curr) else (st.result, st.lastPush)
  let (newCode, skipNextChar) := transcode curr next next.isNone
  let code := newCode.getD st.code
  let i := if skipNextChar then i + 1 else i
  let (result, lastPush) :=
    if st.last ≠ code ∧ code ≠ '0' ∧ i ≠ 0 then (result ++ [code], code) else (result, lastPush)
  let last := if i = 0 then code else lastPush
  ({ result, code, last, lastPush }, skipNextChar)

/-- The loop (phonex.rs:166-209). `skip` says that the next character is consumed unread
(`chars.next()` in line 192). -/
def loop (max : Nat) : Str → (i : Nat) → (skip : Bool) → St → St
  | [], _, _, st => st
  | _ :: rest, i, true, st => loop max rest (i + 1) false st
  | curr :: rest, i, false, st =>
    if byteLen st.result = max then st
    else
      let r := step i curr rest.head? st
      loop max rest (i + 1) r.2 r.1

/-- `while result.len() < max { result.push('0') }` (phonex.rs:212-214). -/
def pad (max : Nat) (result : Str) : Str :=
  result ++ List.replicate (max - byteLen result) '0'

/-- `Phonex::encode` (phonex.rs:153-217). -/
def encode (U : Unicode) (p : Phonex) (value : Str) : Res Str := do
  let input ← preprocess U value
  let result ← stringWithCapacity p.maxCodeLength
  return pad p.maxCodeLength (loop p.maxCodeLength input 0 false { St.init with result }).result

end Phonex

end Verif
