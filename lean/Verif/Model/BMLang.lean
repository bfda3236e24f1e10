import Verif.Model.BMLanguages
import Verif.Model.BMRegex
/-!
# Model of `src/beider_morse/lang.rs`
-/

namespace Verif
namespace BM

/-- `LangRule` (lang.rs:12-18); a compiled regex is represented by its pattern. -/
structure LangRule where
  lineNumber : Nat
  acceptOnMatch : Bool
  languages : StrSet
  pattern : Str
deriving DecidableEq, Repr

/-- `Lang` (lang.rs:36-41). -/
structure Lang where
  languages : StrSet
  rules : List LangRule
deriving DecidableEq, Repr

/-- `Lang::default` (derived) (beider_morse/lang.rs:37-41, 76). -/
def Lang.default : Lang := { languages := [], rules := [] }

/-- The loop of `guess_languages` (lang.rs:48-56). -/
def guessLoop (R : RegexEngine) (input : Str) (langs : StrSet) (rules : List LangRule) : StrSet :=
  rules.foldl (fun langs rule =>
    if R.isMatch rule.pattern input then
      if rule.acceptOnMatch then langs.inter rule.languages else langs.diff rule.languages
    else langs) langs

/-- `guess_languages` (lang.rs:44-63). -/
def Lang.guessLanguages (U : Unicode) (R : RegexEngine) (self : Lang) (input : Str) : LanguageSet :=
  let input := U.strLower input
  let langs := guessLoop R input self.languages self.rules
  match LanguageSet.ofSet langs with
  | .noLanguages => .any
  | result => result

/-- The loop of `parse_lang` (lang.rs:102-145).  `fuel` bounds the number of iterations. -/
def langLoop (R : RegexEngine) (filename : Option Str) : (fuel : Nat) → (remains : Str) →
    (lineNumber : Nat) → List LangRule → Res (Except PhoneticError (List LangRule))
  | 0, _, _, _ => .error .diverge
  | fuel + 1, remains, lineNumber, rules =>
    if remains.isEmpty then .ok (.ok rules)
    else
      let lineNumber := lineNumber + 1
      match Parser.endOfLine remains with
      | some (_, rm) => langLoop R filename fuel rm lineNumber rules
      | none =>
        match Parser.multilineComment remains with
        | some (ln, rm) => langLoop R filename fuel rm (lineNumber + (ln - 1)) rules
        | none =>
          match Parser.lang remains with
          | some ((pattern, langs, accept), rm) =>
            match R.error pattern with
            | some message => .ok (.error (.parseRuleError (buildError lineNumber filename rm message)))
            | none =>
              langLoop R filename fuel rm lineNumber (rules ++ [{
                lineNumber, acceptOnMatch := accept
                languages := setOfList strCmp (splitOnChar '+' langs), pattern }])
          | none => .ok (.error (.parseRuleError
              (buildError lineNumber none remains c!"Can't parse line for language detection")))

/-- `parse_lang` (lang.rs:93-151). -/
def parseLang (R : RegexEngine) (filename : Option Str) (content : Str) (languages : StrSet) :
    Res (Except PhoneticError Lang) := do
  match ← langLoop R filename (content.length + 1) content 0 [] with
  | .error e => return .error e
  | .ok rules => return .ok { languages, rules }

/-- `Langs` (lang.rs:66-69). -/
abbrev Langs := Assoc NameType Lang

/-- The loop of `build_langs` (lang.rs:156-164). The file name in errors is the name inside the
directory rather than the whole path. -/
def langsLoop (R : RegexEngine) (dir : Directory) (languages : Languages) :
    List NameType → Langs → Res (Except PhoneticError Langs)
  | [], langs => .ok (.ok langs)
  | nameType :: rest, langs =>
    match languages.get? nameType with
    | none => .error .unwrap
    | some l =>
      let filename := nameType.display ++ c!"_lang.txt"
      match dir.read filename with
      | none => .ok (.error (.bmError (.parseConfiguration (dir.ioError filename))))
      | some content => do
        match ← parseLang R (some filename) content l with
        | .error e => return .error e
        | .ok lang => langsLoop R dir languages rest (langs.insert nameType lang)

/-- `build_langs` (lang.rs:153-167). -/
def buildLangs (R : RegexEngine) (dir : Directory) (languages : Languages) :
    Res (Except PhoneticError Langs) := langsLoop R dir languages NameType.all []

/-- `Default for Langs` (lang.rs:71-81). -/
def defaultLangs : Langs := NameType.all.foldl (fun m n => Assoc.insert m n Lang.default) []

end BM
end Verif
