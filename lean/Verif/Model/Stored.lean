import Verif.Model.Soundex
import Verif.Model.Metaphone
import Verif.Model.DoubleMetaphone
import Verif.Model.Nysiis
import Verif.Model.Phonex
import Verif.Model.CharSequence
import Verif.Model.BMLanguages
/-!
# Model of the derived `Serialize` and `Deserialize` implementations (serde)

Values are written to and read from serde's data model, in a self-describing format: a struct is
written as a map from the names of its fields and may be read from a map or from a sequence, a
variant is written by name.  How a format spells the data (JSON, ...) is not modelled, and a failed
read is `none`: the text of the error belongs to the format.
-/

namespace Verif.Stored
open Verif BM

/-- serde's data model, as far as the derived implementations use it
(e.g. soundex.rs:74-78, beider_morse/languages.rs:12-20). -/
inductive Data where
  | unit
  | bool (b : Bool)
  | num (n : Nat)
  | char (c : Char)
  | str (s : Str)
  | none
  | some (d : Data)
  | seq (l : List Data)
  | map (entries : List (Str × Data))
  | variant (name : Str) (content : Data)

/-- `usize::deserialize`, on a 64-bit target (metaphone.rs:40, phonex.rs:36). -/
def readUsize : Data → Option Nat
  | .num n => if n ≤ usizeMax then some n else none
  | _ => none

/-- `bool::deserialize` (soundex.rs:77, nysiis.rs:67). -/
def readBool : Data → Option Bool
  | .bool b => some b
  | _ => none

/-- `char::deserialize`: a character, or a string of one character (soundex.rs:76). -/
def readChar : Data → Option Char
  | .char c => some c
  | .str [c] => some c
  | _ => none

/-- `String::deserialize`: a string, or a single character (double_metaphone.rs:37-38). -/
def readStr : Data → Option Str
  | .str s => some s
  | .char c => some [c]
  | _ => none

/-- `Option::deserialize` (metaphone.rs:40, lib.rs:94). -/
def readOption {α : Type} (read : Data → Option α) : Data → Option (Option α)
  | .none => some none
  | .unit => some none
  | .some d => (read d).map some
  | _ => none

/-- Elements of a sequence, read one after the other (soundex.rs:76, beider_morse/languages.rs:19). -/
def readSeq {α : Type} (read : Data → Option α) : Data → Option (List α)
  | .seq l => l.mapM read
  | _ => none

/-- `<[char; 26]>::deserialize`: exactly 26 characters (soundex.rs:76, refined_soundex.rs:42). -/
def readMapping (d : Data) : Option Mapping :=
  match readSeq readChar d with
  | some v => (toArray26 v).toOption
  | none => none

/-- The values for one field among the entries of a map: a field that occurs twice is an error,
one that does not occur is `some none` (derived `visit_map`, e.g. soundex.rs:74). -/
def field (entries : List (Str × Data)) (name : Str) : Option (Option Data) :=
  match entries.filter (fun e => e.1 == name) with
  | [] => some none
  | [e] => some (some e.2)
  | _ => none

/-- The values for the fields of a struct: from a map, where other entries are ignored, or from a
sequence, in the order of the declaration (derived `visit_map`/`visit_seq`, e.g. soundex.rs:74). -/
def fieldsOf (names : List Str) : Data → Option (List (Option Data))
  | .map entries => names.mapM (field entries)
  | .seq l => if l.length = names.length then some (l.map some) else none
  | _ => none

/-- A field that must be present (derived `missing_field`, e.g. soundex.rs:74). -/
def requiredField {α : Type} (read : Data → Option α) : Option Data → Option α
  | some d => read d
  | none => none

/-- A field of type `Option`: `None` if it is missing (derived `missing_field`, metaphone.rs:38-41). -/
def optionalField {α : Type} (read : Data → Option α) : Option Data → Option (Option α)
  | some d => readOption read d
  | none => some none

/-- `<[char; 26]>::serialize` (soundex.rs:76, refined_soundex.rs:42). -/
def storeMapping (m : Mapping) : Data := .seq (m.val.map .char)

/-- `Option::serialize` (metaphone.rs:40, lib.rs:94). -/
def storeOption {α : Type} (store : α → Data) : Option α → Data
  | none => .none
  | some x => .some (store x)

/-- `Serialize for Soundex` (soundex.rs:74-78). -/
def storeSoundex (s : Soundex) : Data :=
  .map [(c!"mapping", storeMapping s.mapping), (c!"special_case_h_w", .bool s.specialCaseHW)]

/-- `Deserialize for Soundex` (soundex.rs:74-78). -/
def readSoundex (d : Data) : Option Soundex :=
  match fieldsOf [c!"mapping", c!"special_case_h_w"] d with
  | some [m, h] => do
    let mapping ← requiredField readMapping m
    let specialCaseHW ← requiredField readBool h
    return { mapping, specialCaseHW }
  | _ => none

/-- `Serialize for RefinedSoundex` (refined_soundex.rs:40-43). -/
def storeRefinedSoundex (s : RefinedSoundex) : Data := .map [(c!"mapping", storeMapping s.mapping)]

/-- `Deserialize for RefinedSoundex` (refined_soundex.rs:40-43). -/
def readRefinedSoundex (d : Data) : Option RefinedSoundex :=
  match fieldsOf [c!"mapping"] d with
  | some [m] => do
    let mapping ← requiredField readMapping m
    return { mapping }
  | _ => none

/-- `Serialize for Metaphone` (metaphone.rs:38-41). -/
def storeMetaphone (m : Metaphone) : Data :=
  .map [(c!"max_code_length", storeOption .num m.maxCodeLength)]

/-- `Deserialize for Metaphone` (metaphone.rs:38-41). -/
def readMetaphone (d : Data) : Option Metaphone :=
  match fieldsOf [c!"max_code_length"] d with
  | some [m] => do
    let maxCodeLength ← optionalField readUsize m
    return { maxCodeLength }
  | _ => none

/-- `Serialize for DoubleMetaphone` (double_metaphone.rs:160-163). -/
def storeDoubleMetaphone (m : DoubleMetaphone) : Data :=
  .map [(c!"max_code_length", storeOption .num m.maxCodeLength)]

/-- `Deserialize for DoubleMetaphone` (double_metaphone.rs:160-163). -/
def readDoubleMetaphone (d : Data) : Option DoubleMetaphone :=
  match fieldsOf [c!"max_code_length"] d with
  | some [m] => do
    let maxCodeLength ← optionalField readUsize m
    return { maxCodeLength }
  | _ => none

/-- `Serialize for DoubleMetaphoneResult` (double_metaphone.rs:35-40). -/
def storeDMResult (r : DMResult) : Data :=
  .map [(c!"primary", .str r.primary), (c!"alternate", .str r.alternate),
    (c!"max_length", storeOption .num r.maxLength)]

/-- `Deserialize for DoubleMetaphoneResult` (double_metaphone.rs:35-40). -/
def readDMResult (d : Data) : Option DMResult :=
  match fieldsOf [c!"primary", c!"alternate", c!"max_length"] d with
  | some [p, a, m] => do
    let primary ← requiredField readStr p
    let alternate ← requiredField readStr a
    let maxLength ← optionalField readUsize m
    return { primary, alternate, maxLength }
  | _ => none

/-- `Serialize for Nysiis` (nysiis.rs:65-68). -/
def storeNysiis (n : Nysiis) : Data := .map [(c!"strict", .bool n.strict)]

/-- `Deserialize for Nysiis` (nysiis.rs:65-68). -/
def readNysiis (d : Data) : Option Nysiis :=
  match fieldsOf [c!"strict"] d with
  | some [s] => do
    let strict ← requiredField readBool s
    return { strict }
  | _ => none

/-- `Serialize for Phonex` (phonex.rs:34-37). -/
def storePhonex (p : Phonex) : Data := .map [(c!"max_code_length", .num p.maxCodeLength)]

/-- `Deserialize for Phonex` (phonex.rs:34-37). -/
def readPhonex (d : Data) : Option Phonex :=
  match fieldsOf [c!"max_code_length"] d with
  | some [m] => do
    let maxCodeLength ← requiredField readUsize m
    return { maxCodeLength }
  | _ => none

/-- `Serialize for ParseError` (lib.rs:89-99). -/
def storeParseError (e : ParseError) : Data :=
  .map [(c!"line_number", .num e.lineNumber), (c!"filename", storeOption .str e.filename),
    (c!"line_content", .str e.lineContent), (c!"description", .str e.description)]

/-- `Deserialize for ParseError` (lib.rs:89-99). -/
def readParseError (d : Data) : Option ParseError :=
  match fieldsOf [c!"line_number", c!"filename", c!"line_content", c!"description"] d with
  | some [n, f, l, t] => do
    let lineNumber ← requiredField readUsize n
    let filename ← optionalField readStr f
    let lineContent ← requiredField readStr l
    let description ← requiredField readStr t
    return { lineNumber, filename, lineContent, description }
  | _ => none

/-- `Serialize for CharSequence` (helper.rs:83-87). -/
def storeCharSequence (c : CharSequence) : Data :=
  .map [(c!"inner", .str c.inner), (c!"len_in_char", .num c.lenInChar)]

/-- `<&str>::deserialize`, from a format that lends its text (helper.rs:85). -/
def readBorrowed : Data → Option Str
  | .str s => some s
  | _ => none

/-- `Deserialize for CharSequence` (helper.rs:83-87). -/
def readCharSequence (d : Data) : Option CharSequence :=
  match fieldsOf [c!"inner", c!"len_in_char"] d with
  | some [i, l] => do
    let inner ← requiredField readBorrowed i
    let lenInChar ← requiredField readUsize l
    return { inner, lenInChar }
  | _ => none

/-- `Serialize for NameType`: the variants are renamed (beider_morse/mod.rs:89-102). -/
def storeNameType : NameType → Data
  | .ashkenazi => .variant c!"ash" .unit
  | .generic => .variant c!"gen" .unit
  | .sephardic => .variant c!"sep" .unit

/-- `Deserialize for NameType` (beider_morse/mod.rs:89-102). -/
def readNameType : Data → Option NameType
  | .variant name .unit =>
    if name = c!"ash" then some .ashkenazi
    else if name = c!"gen" then some .generic
    else if name = c!"sep" then some .sephardic
    else none
  | _ => none

/-- `Serialize for RuleType` (beider_morse/rule.rs:27-33). -/
def storeRuleType : RuleType → Data
  | .approx => .variant c!"Approx" .unit
  | .exact => .variant c!"Exact" .unit

/-- `Deserialize for RuleType` (beider_morse/rule.rs:27-33). -/
def readRuleType : Data → Option RuleType
  | .variant name .unit =>
    if name = c!"Approx" then some .approx
    else if name = c!"Exact" then some .exact
    else none
  | _ => none

/-- `Serialize for LanguageSet` (beider_morse/languages.rs:12-20). -/
def storeLanguageSet : LanguageSet → Data
  | .any => .variant c!"Any" .unit
  | .noLanguages => .variant c!"NoLanguages" .unit
  | .someLanguages s => .variant c!"SomeLanguages" (.seq (s.map .str))

/-- `Deserialize for LanguageSet`: the languages are inserted one by one
(beider_morse/languages.rs:12-20). -/
def readLanguageSet : Data → Option LanguageSet
  | .variant name content =>
    if name = c!"Any" then (match content with | .unit => some .any | _ => none)
    else if name = c!"NoLanguages" then (match content with | .unit => some .noLanguages | _ => none)
    else if name = c!"SomeLanguages" then
      (readSeq readStr content).map fun l => .someLanguages (setOfList strCmp l)
    else none
  | _ => none

end Verif.Stored
