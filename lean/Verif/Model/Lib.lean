import Verif.Basic
/-!
# Model of `src/lib.rs` and of the helper functions of `src/helper.rs`
-/

namespace Verif

/-! ## lib.rs -/

/-- `Encoder::is_encoded_equals`, the default method (lib.rs:193-198).  `encode` is the encoder's
own method; the two calls happen in this order, so a panic of the first one comes first. -/
def isEncodedEquals (encode : Str → Res Str) (first second : Str) : Res Bool := do
  let f ← encode first
  let s ← encode second
  return f == s

/-- The loop of `SoundexCommons::difference` (lib.rs:269-274). -/
def differenceLoop : List (Char × Char) → Nat → Nat
  | [], result => result
  | (ch1, ch2) :: rest, result =>
    if ch1 = ch2 then differenceLoop rest (result + 1) else differenceLoop rest result

/-- `SoundexCommons::difference` (lib.rs:261-277). -/
def difference (encode : Str → Res Str) (value1 value2 : Str) : Res Nat := do
  let value1 ← encode value1
  let value2 ← encode value2
  if value1.isEmpty || value2.isEmpty then
    return 0
  else
    return differenceLoop (value1.zip value2) 0

/-- `SoundexUtils::soundex_clean` (lib.rs:202-208). -/
def soundexClean (U : Unicode) (value : Str) : Str :=
  (value.filter U.isAlphabetic).flatMap U.toUpper

/-- The `ParseError` payload of `PhoneticError::ParseRuleError` (lib.rs, `errors`): the fields
that `build_error` fills in (lib.rs:91-99). -/
structure ParseError where
  lineNumber : Nat
  filename : Option Str
  lineContent : Str
  description : Str
deriving DecidableEq, Repr

/-- `build_error` (lib.rs:125-144): the line content is the text up to the first '\n'. -/
def buildError (lineNumber : Nat) (filename : Option Str) (remains description : Str) :
    ParseError :=
  { lineNumber, filename, lineContent := remains.takeWhile (· != '\n'), description }

/-! ## helper.rs -/

/-- Loop of `replace_compact_all_to_uppercase` (helper.rs:23-45) with the `previous` variable. -/
def compactLoop (chars : List Char) : Option Char → Str → Str
  | _, [] => []
  | previous, ch :: rest =>
    if chars.contains ch then
      match previous with
      | some prev =>
        if prev ≠ ch then asciiUpper ch :: compactLoop chars (some ch) rest
        else compactLoop chars (some prev) rest
      | none => asciiUpper ch :: compactLoop chars (some ch) rest
    else ch :: compactLoop chars none rest

/-- `replace_compact_all_to_uppercase` (helper.rs:23-45). -/
def replaceCompactAllToUppercase (string : Str) (chars : List Char) : Str :=
  compactLoop chars none string

/-- `replace_end` (helper.rs:48-53).  The byte offset `len - pattern.len()` is a boundary because
the string ends with `pattern`, so this is removal of the last `pattern.length` characters. -/
def replaceEnd (string pattern to : Str) : Str :=
  if endsWith string pattern then string.take (string.length - pattern.length) ++ to else string

/-- `is_vowel` (helper.rs:56-61). -/
def isVowel (c : Option Char) (includeY : Bool) : Bool :=
  match c with
  | some ch => (ch == 'a' || ch == 'e' || ch == 'i' || ch == 'o' || ch == 'u') || (includeY && ch == 'y')
  | none => false

/-- `replace_char` (helper.rs:63-68); `i` is the index of the next character. -/
def replaceCharFrom (f : Nat → Char → Char) (i : Nat) : Str → Str
  | [] => []
  | c :: cs => f i c :: replaceCharFrom f (i + 1) cs

/-- `replace_char` (helper.rs:63-68). -/
def replaceChar (string : Str) (f : Nat → Char → Char) : Str := replaceCharFrom f 0 string

/-- `remove_all_non_letter` (helper.rs:70-75). -/
def removeAllNonLetter (U : Unicode) (string : Str) : Str := string.filter U.isLowercase

end Verif
