import Verif.Model.BMLang
import Verif.Model.CharSequence
/-!
# Model of `src/beider_morse/rule.rs`
-/

namespace Verif
namespace BM

/-! ## Phonemes -/

/-- `Phoneme` (rule.rs:79-83). -/
structure Phoneme where
  text : Str
  languages : LanguageSet
deriving DecidableEq, Repr

namespace Phoneme

/-- The loop over the zipped characters (rule.rs:93-98). -/
def cmpZip : List (Char × Char) → Option Ordering
  | [] => none
  | (a, b) :: rest => if a ≠ b then some (compare a.toNat b.toNat) else cmpZip rest

/-- `Ord::cmp` (rule.rs:91-105). -/
def cmp (self other : Phoneme) : Ordering :=
  match cmpZip (self.text.zip other.text) with
  | some o => o
  | none => compare (byteLen self.text) (byteLen other.text)

/-- `Phoneme::join` (rule.rs:121-131). -/
def join (a b : Phoneme) (languages : LanguageSet) : Phoneme := { text := a.text ++ b.text, languages }

/-- `Phoneme::append` (rule.rs:132-135). -/
def append (self : Phoneme) (value : Str) : Phoneme := { self with text := self.text ++ value }

/-- `Phoneme::merge_with_language` (rule.rs:141-146). -/
def mergeWithLanguage (self : Phoneme) (languages : LanguageSet) : Phoneme :=
  { self with languages := self.languages.merge languages }

/-- `Display` (rule.rs:107-111). -/
def display (self : Phoneme) : Str := self.text ++ c!"[" ++ self.languages.display ++ c!"]"

end Phoneme

/-- `parse_phoneme` (rule.rs:164-185). -/
def parsePhoneme (phoneme : Str) : Res (Except BMError Phoneme) :=
  if phoneme.contains '[' then
    if !endsWith phoneme c!"]" then
      .ok (.error (.wrongPhoneme (c!"Phoneme expression " ++ phoneme ++
        c!" has a '[' but doesn't ends with an ']'")))
    else do
      let index := byteLen (phoneme.takeWhile (· != '['))
      let before ← sliceTo phoneme index
      let stop ← usub (byteLen phoneme) 1
      let after ← slice phoneme (index + 1) stop
      return .ok { text := before, languages := .ofVec (splitOnChar '+' after) }
  else .ok (.ok { text := phoneme, languages := .any })

/-- The loop of `parse_phoneme_expr` (rule.rs:196-198). -/
def parsePhonemes : List Str → List Phoneme → Res (Except BMError (List Phoneme))
  | [], phs => .ok (.ok phs)
  | p :: rest, phs => do
    match ← parsePhoneme p with
    | .error e => return .error e
    | .ok ph => parsePhonemes rest (phs ++ [ph])

/-- `parse_phoneme_expr` (rule.rs:187-212). -/
def parsePhonemeExpr (phonemeRule : Str) : Res (Except BMError (List Phoneme)) :=
  if startsWith phonemeRule c!"(" then
    if !endsWith phonemeRule c!")" then
      .ok (.error (.wrongPhoneme (c!"Wrong phoneme rule " ++ phonemeRule)))
    else do
      let stop ← usub (byteLen phonemeRule) 1
      let inner ← slice phonemeRule 1 stop
      match ← parsePhonemes (splitOnChar '|' inner) [] with
      | .error e => return .error e
      | .ok phs =>
        if startsWith inner c!"|" || endsWith inner c!"|" then
          return .ok (phs ++ [{ text := [], languages := .any }])
        else return .ok phs
  else do
    match ← parsePhoneme phonemeRule with
    | .error e => return .error e
    | .ok ph => return .ok [ph]

/-! ## Rules -/

/-- `Rule` (rule.rs:357-366). -/
structure Rule where
  location : Str
  line : Nat
  leftContext : Context
  pattern : Str
  patternLengthChar : Nat
  rightContext : Context
  phoneme : List Phoneme
deriving DecidableEq, Repr

/-- `pattern_and_context_matches` (rule.rs:369-383). -/
def Rule.patternAndContextMatches (R : RegexEngine) (self : Rule) (input : CharSequence) (index : Nat) :
    Res Bool := do
  let ipl := index + self.patternLengthChar
  if ipl > input.len then return false
  else if (← input.indexRange index ipl) ≠ self.pattern then return false
  else if !(self.rightContext.isMatch R (← input.indexFrom ipl)) then return false
  else return self.leftContext.isMatch R (← input.indexTo index)

/-- `BTreeMap<char, Vec<Rule>>` (beider_morse/rule.rs:219). -/
abbrev RuleMap := Assoc Char (List Rule)

/-- The context of a rule (rule.rs:233-244). -/
def parseContext (R : RegexEngine) (text : Str) : Res (Except BMError Context) := do
  match ← OptimizedRegex.ofStr text with
  | some o => return .ok (.optimized o)
  | none =>
    match R.error text with
    | some message => return .error (.badContextRegex message)
    | none => return .ok (.regex text)

/-- The rule of a quadruplet (rule.rs:228-254). -/
def parseQuadruplet (R : RegexEngine) (filename : Str) (lineNumber : Nat) (q : Str × Str × Str × Str) :
    Res (Except BMError Rule) := do
  match ← parseContext R (q.2.1 ++ c!"$") with
  | .error e => return .error e
  | .ok leftContext =>
    match ← parseContext R ('^' :: q.2.2.1) with
    | .error e => return .error e
    | .ok rightContext =>
      match ← parsePhonemeExpr q.2.2.2 with
      | .error e => return .error e
      | .ok phoneme =>
        return .ok
          { location := filename, line := lineNumber, leftContext, pattern := q.1
            patternLengthChar := q.1.length, rightContext, phoneme }

/-- `BTreeMap::extend`: the rules of an included file *replace* those of the same character (beider_morse/rule.rs:281). -/
def extend (m rules : RuleMap) : RuleMap := rules.foldl (fun m e => m.insert e.1 e.2) m

/-- The error of an include (rule.rs:269-280). -/
def includeError (lineNumber : Nat) (filename remains : Str) : PhoneticError → PhoneticError
  | .bmError e => .parseRuleError (buildError lineNumber (some filename) remains e.display)
  | e => e

/-- The loop of `parse_rule` (rule.rs:223-299).  `load` parses an included file; `fuel` bounds the
number of iterations. -/
def ruleLoop (U : Unicode) (R : RegexEngine) (load : Str → Res (Except PhoneticError RuleMap))
    (filename : Str) : (fuel : Nat) → (remains : Str) → (lineNumber : Nat) → RuleMap →
    Res (Except PhoneticError RuleMap)
  | 0, _, _, _ => .error .diverge
  | fuel + 1, remains, lineNumber, result =>
    if remains.isEmpty then .ok (.ok result)
    else
      let lineNumber := lineNumber + 1
      match Parser.quadruplet remains with
      | some (q, rm) => do
        match ← parseQuadruplet R filename lineNumber q with
        | .error e => return .error (.bmError e)
        | .ok rule =>
          match rule.pattern with
          | [] => .error .unwrap
          | ch :: _ =>
            ruleLoop U R load filename fuel rm lineNumber
              (result.insert ch ((result.get? ch).getD [] ++ [rule]))
      | none =>
        match Parser.endOfLine remains with
        | some (_, rm) => ruleLoop U R load filename fuel rm lineNumber result
        | none =>
          match Parser.includeDirective U remains with
          | some (name, rm) => do
            match ← load name with
            | .error e => return .error (includeError lineNumber filename rm e)
            | .ok rules => ruleLoop U R load filename fuel rm lineNumber (extend result rules)
          | none =>
            match Parser.multilineComment remains with
            | some (ln, rm) => ruleLoop U R load filename fuel rm (lineNumber + (ln - 1)) result
            | none => .ok (.error (.parseRuleError
                (buildError lineNumber (some filename) remains c!"Can't parse line")))

/-- `Resolver::resolve` (rule.rs:329-355), as a function: the content of a file or an error. -/
abbrev Resolver := Str → Except BMError Str

/-- `Resolver::resolve` for a folder (rule.rs:335-340). -/
def Resolver.ofDir (dir : Directory) : Resolver := fun filename =>
  match dir.read (filename ++ c!".txt") with
  | some content => .ok content
  | none => .error (.wrongFilename (c!"Can't find file for " ++ filename ++ c!" rules"))

/-- `parse_rule` (rule.rs:214-302).  `depth` bounds the nesting of includes: running out of it is
divergence (in the crate, the recursion never ends and the stack overflows). -/
def parseRule (U : Unicode) (R : RegexEngine) (resolver : Resolver) :
    (depth : Nat) → (filename : Str) → Res (Except PhoneticError RuleMap)
  | 0, _ => .error .diverge
  | depth + 1, filename =>
    match resolver filename with
    | .error e => .ok (.error (.bmError e))
    | .ok content =>
      ruleLoop U R (parseRule U R resolver depth) filename (content.length + 1) content 0 []

/-- `Rules` (rule.rs:409-412). -/
abbrev Rules := Assoc (NameType × PrivateRuleType × Str) RuleMap

/-- The names of the files of a name type and rule type, with their keys (rule.rs:312-323). -/
def ruleFiles (nameType : NameType) (languages : StrSet) (ruleType : PrivateRuleType) :
    List (Str × (NameType × PrivateRuleType × Str)) :=
  (languages.map fun l =>
    (nameType.display ++ c!"_" ++ ruleType.display ++ c!"_" ++ l, (nameType, ruleType, l))) ++
  (if ruleType ≠ .rules then
    [(nameType.display ++ c!"_" ++ ruleType.display ++ c!"_common", (nameType, ruleType, c!"common"))]
  else [])

/-- Parses files in order (rule.rs:313-322). -/
def loadFiles (U : Unicode) (R : RegexEngine) (resolver : Resolver) (depth : Nat) :
    List (Str × (NameType × PrivateRuleType × Str)) → Rules → Res (Except PhoneticError Rules)
  | [], rules => .ok (.ok rules)
  | (filename, key) :: rest, rules => do
    match ← parseRule U R resolver depth filename with
    | .error e => return .error e
    | .ok r => loadFiles U R resolver depth rest (rules.insert key r)

/-- The loop of `build_rules` over the name types (rule.rs:308-324). -/
def rulesLoop (U : Unicode) (R : RegexEngine) (resolver : Resolver) (depth : Nat) (languages : Languages) :
    List NameType → Rules → Res (Except PhoneticError Rules)
  | [], rules => .ok (.ok rules)
  | nameType :: rest, rules =>
    match languages.get? nameType with
    | none => .ok (.error (.bmError (.unknownNameType nameType.languageFilename)))
    | some l => do
      match ← loadFiles U R resolver depth (PrivateRuleType.all.flatMap (ruleFiles nameType l)) rules with
      | .error e => return .error e
      | .ok rules => rulesLoop U R resolver depth languages rest rules

/-- `build_rules` (rule.rs:304-327). -/
def buildRules (U : Unicode) (R : RegexEngine) (resolver : Resolver) (depth : Nat) (languages : Languages) :
    Res (Except PhoneticError Rules) := rulesLoop U R resolver depth languages NameType.all []

end BM
end Verif
