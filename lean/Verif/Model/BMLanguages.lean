import Verif.Model.RulesParser
/-!
# Model of `src/beider_morse/languages.rs` and of the enumerations of `mod.rs` and `rule.rs`

A `BTreeSet` is the list of its elements in increasing order, as iteration gives them.
-/

namespace Verif
namespace BM

/-! ## Ordered sets -/

/-- `BTreeSet::insert`: an equal element is kept (beider_morse/engine.rs:71, 177 and languages.rs:191). -/
def setInsert {α : Type} (cmp : α → α → Ordering) (x : α) : List α → List α
  | [] => [x]
  | y :: ys =>
    match cmp x y with
    | .lt => x :: y :: ys
    | .eq => y :: ys
    | .gt => y :: setInsert cmp x ys

/-- `BTreeSet::replace`: an equal element is replaced (beider_morse/engine.rs:175). -/
def setReplace {α : Type} (cmp : α → α → Ordering) (x : α) : List α → List α
  | [] => [x]
  | y :: ys =>
    match cmp x y with
    | .lt => x :: y :: ys
    | .eq => x :: ys
    | .gt => y :: setReplace cmp x ys

/-- `BTreeSet::get` (beider_morse/engine.rs:172). -/
def setGet? {α : Type} (cmp : α → α → Ordering) (x : α) (s : List α) : Option α :=
  s.find? fun y => cmp x y == .eq

/-- `collect::<BTreeSet<_>>()` of items that are equal only if they are the same
(beider_morse/languages.rs:98, lang.rs:127-128). -/
def setOfList {α : Type} (cmp : α → α → Ordering) (l : List α) : List α :=
  l.foldl (fun s x => setInsert cmp x s) []

/-- `String::cmp`: the order of the UTF-8 bytes, which is the lexicographic order of the characters
(beider_morse/languages.rs:19, the keys of the set). -/
def strCmp : Str → Str → Ordering
  | [], [] => .eq
  | [], _ :: _ => .lt
  | _ :: _, [] => .gt
  | a :: as, b :: bs => if a = b then strCmp as bs else compare a.toNat b.toNat

/-- `BTreeSet<String>` (beider_morse/languages.rs:19). -/
abbrev StrSet := List Str

namespace StrSet

/-- `BTreeSet::intersection` (beider_morse/languages.rs:46-50, lang.rs:51). -/
def inter (a b : StrSet) : StrSet := a.filter fun l => b.contains l

/-- `BTreeSet::union` (beider_morse/languages.rs:63-67). -/
def union (a b : StrSet) : StrSet := b.foldl (fun s x => setInsert strCmp x s) a

/-- `BTreeSet::difference` (beider_morse/lang.rs:53). -/
def diff (a b : StrSet) : StrSet := a.filter fun l => !b.contains l

end StrSet

/-! ## Language sets -/

/-- `LanguageSet` (languages.rs:12-20). -/
inductive LanguageSet where
  | any
  | noLanguages
  | someLanguages (languages : StrSet)
deriving DecidableEq, Repr

namespace LanguageSet

/-- `is_empty` (languages.rs:24-30). -/
def isEmpty : LanguageSet → Bool
  | any => false
  | noLanguages => true
  | someLanguages languages => languages.isEmpty

/-- `is_singleton` (languages.rs:33-39). -/
def isSingleton : LanguageSet → Bool
  | any => false
  | noLanguages => false
  | someLanguages languages => languages.length == 1

/-- `restrict_to` (languages.rs:42-56). -/
def restrictTo (self other : LanguageSet) : LanguageSet :=
  match self, other with
  | _, any => self
  | _, noLanguages => other
  | someLanguages l1, someLanguages l2 => someLanguages (l1.inter l2)
  | any, _ => other
  | noLanguages, _ => self

/-- `merge` (languages.rs:59-73). -/
def merge (self other : LanguageSet) : LanguageSet :=
  match self, other with
  | _, any => other
  | _, noLanguages => self
  | someLanguages l1, someLanguages l2 => someLanguages (l1.union l2)
  | any, _ => self
  | noLanguages, _ => other

/-- `any` (languages.rs:77-83). -/
def first : LanguageSet → Option Str
  | any => none
  | noLanguages => none
  | someLanguages languages => languages.head?

/-- `From<BTreeSet<String>>` (languages.rs:86-94). -/
def ofSet (languages : StrSet) : LanguageSet :=
  if languages.isEmpty then noLanguages else someLanguages languages

/-- `From<Vec<&str>>` (languages.rs:96-100). -/
def ofVec (languages : List Str) : LanguageSet := someLanguages (setOfList strCmp languages)

/-- `Display` (languages.rs:102-116). -/
def display : LanguageSet → Str
  | any => c!"ANY_LANGUAGE"
  | noLanguages => c!"NO_LANGUAGES"
  | someLanguages languages => joinWith c!"," languages

end LanguageSet

/-! ## Enumerations -/

/-- `BMError` (mod.rs:32-71).  `badContextRegex` holds the message of the `regex` error. -/
inductive BMError where
  | unknownNameType (name : Str)
  | unknownRuleType (name : Str)
  | parseConfiguration (message : Str)
  | wrongFilename (message : Str)
  | wrongPhoneme (message : Str)
  | badContextRegex (message : Str)
deriving DecidableEq, Repr

/-- `Display` of `BMError` (beider_morse/mod.rs:38-64, the `error` attributes). -/
def BMError.display : BMError → Str
  | unknownNameType n => c!"Unknown NameType " ++ n
  | unknownRuleType n => c!"Unknown RuleType " ++ n
  | parseConfiguration m => c!"Error reading files " ++ m
  | wrongFilename m => c!"Wrong file name : " ++ m
  | wrongPhoneme m => c!"Wrong phoneme : " ++ m
  | badContextRegex m => m

/-- `PhoneticError` (lib.rs:95-105). -/
inductive PhoneticError where
  | parseRuleError (e : ParseError)
  | bmError (e : BMError)
deriving DecidableEq, Repr

/-- `NameType` (mod.rs:89-102). -/
inductive NameType where
  | ashkenazi
  | generic
  | sephardic
deriving DecidableEq, Repr

namespace NameType

/-- `enum_iterator::all::<NameType>()` (beider_morse/rule.rs:308, lang.rs:75, 156). -/
def all : List NameType := [ashkenazi, generic, sephardic]

/-- `Display` (mod.rs:110-119). -/
def display : NameType → Str
  | ashkenazi => c!"ash"
  | generic => c!"gen"
  | sephardic => c!"sep"

/-- `language_filename` (mod.rs:105-107). -/
def languageFilename (n : NameType) : Str := n.display ++ c!"_languages.txt"

/-- `FromStr` (mod.rs:121-132). -/
def ofStr (value : Str) : Except BMError NameType :=
  if value = c!"ash" then .ok ashkenazi
  else if value = c!"gen" then .ok generic
  else if value = c!"sep" then .ok sephardic
  else .error (.unknownNameType value)

/-- `TryFrom<OsString>` (mod.rs:134-150), on a file name that is valid UTF-8. -/
def ofFilename (value : Str) : Except BMError NameType :=
  if value = languageFilename ashkenazi then .ok ashkenazi
  else if value = languageFilename generic then .ok generic
  else if value = languageFilename sephardic then .ok sephardic
  else .error (.unknownNameType value)

end NameType

/-- `RuleType` (rule.rs:26-33). -/
inductive RuleType where
  | approx
  | exact
deriving DecidableEq, Repr

/-- `PrivateRuleType` (rule.rs:37-44). -/
inductive PrivateRuleType where
  | approx
  | exact
  | rules
deriving DecidableEq, Repr

namespace PrivateRuleType

/-- `enum_iterator::all::<PrivateRuleType>()` (beider_morse/rule.rs:312). -/
def all : List PrivateRuleType := [approx, exact, rules]

/-- `From<RuleType>` (rule.rs:46-53). -/
def ofRuleType : RuleType → PrivateRuleType
  | .approx => approx
  | .exact => exact

/-- `Display` (rule.rs:55-64). -/
def display : PrivateRuleType → Str
  | approx => c!"approx"
  | exact => c!"exact"
  | rules => c!"rules"

/-- `FromStr` (rule.rs:66-77). -/
def ofStr (value : Str) : Except BMError PrivateRuleType :=
  if value = c!"approx" then .ok approx
  else if value = c!"exact" then .ok exact
  else if value = c!"rules" then .ok rules
  else .error (.unknownRuleType value)

end PrivateRuleType

/-! ## The list of languages of a name type -/

/-- The loop of `parse_liste` (languages.rs:164-205).  `fuel` bounds the number of iterations. -/
def listLoop : (fuel : Nat) → (remains : Str) → (lineNumber : Nat) → StrSet →
    Res (Except PhoneticError StrSet)
  | 0, _, _, _ => .error .diverge
  | fuel + 1, remains, lineNumber, result =>
    if remains.isEmpty then .ok (.ok result)
    else
      let lineNumber := lineNumber + 1
      match Parser.endOfLine remains with
      | some (_, rm) => listLoop fuel rm lineNumber result
      | none =>
        match Parser.multilineComment remains with
        | some (ln, rm) => listLoop fuel rm (lineNumber + (ln - 1)) result
        | none =>
          match Parser.language remains with
          | some (l, rm) => listLoop fuel rm lineNumber (setInsert strCmp l result)
          | none => .ok (.error (.parseRuleError
              (buildError lineNumber none remains c!"Can't parse line for languages")))

/-- `parse_liste` (languages.rs:164-205). -/
def parseList (list : Str) : Res (Except PhoneticError StrSet) := listLoop (list.length + 1) list 0 []

/-- A directory: the names of its entries and their contents (`none` if it cannot be read), and the
message of the error when reading fails
(beider_morse/languages.rs:147-160, lang.rs:158-160, rule.rs:336-341; the file system is a parameter). -/
structure Directory where
  entries : List Str
  read : Str → Option Str
  ioError : Str → Str

/-- `Languages` (languages.rs:118-121). -/
abbrev Languages := Assoc NameType StrSet

/-- The loop of `TryFrom<&PathBuf> for Languages` (languages.rs:151-158). -/
def languagesLoop (dir : Directory) : List Str → Languages → Res (Except PhoneticError Languages)
  | [], map => .ok (.ok map)
  | name :: rest, map =>
    match NameType.ofFilename name with
    | .error _ => languagesLoop dir rest map
    | .ok nameType =>
      match dir.read name with
      | none => .ok (.error (.bmError (.parseConfiguration (dir.ioError name))))
      | some content => do
        match ← parseList content with
        | .error e => return .error e
        | .ok languages => languagesLoop dir rest (map.insert nameType languages)

/-- `TryFrom<&PathBuf> for Languages` (languages.rs:144-162). -/
def languagesOfDir (dir : Directory) : Res (Except PhoneticError Languages) :=
  languagesLoop dir dir.entries []

/-- `Default for Languages` (languages.rs:129-142). -/
def defaultLanguages : Languages :=
  [(.ashkenazi, [c!"any"]), (.generic, [c!"any"]), (.sephardic, [c!"any"])]

end BM
end Verif
