import Verif.Model.BMRule
/-!
# Model of `src/beider_morse/engine.rs` and of the builder of `src/beider_morse/mod.rs`
-/

namespace Verif
namespace BM

/-- `NAME_PREFIXES` (engine.rs:11-32), in the order of the `BTreeSet`. -/
def namePrefixes : NameType → List Str
  | .ashkenazi => [c!"bar", c!"ben", c!"da", c!"de", c!"van", c!"von"]
  | .generic => [c!"da", c!"dal", c!"de", c!"de la", c!"del", c!"dela", c!"della", c!"des", c!"di", c!"do",
      c!"dos", c!"du", c!"van", c!"von"]
  | .sephardic => [c!"al", c!"da", c!"dal", c!"de", c!"de la", c!"del", c!"dela", c!"della", c!"des", c!"di",
      c!"do", c!"dos", c!"du", c!"el", c!"van", c!"von"]

/-- `PhonemeBuilder` (engine.rs:34-37): a `BTreeSet<Phoneme>`. -/
abbrev PhonemeBuilder := List Phoneme

namespace PhonemeBuilder

/-- `empty` (engine.rs:40-43). -/
def empty (languages : LanguageSet) : PhonemeBuilder := [{ text := [], languages }]

/-- `append` (engine.rs:45-52). -/
def append (self : PhonemeBuilder) (text : Str) : PhonemeBuilder :=
  setOfList Phoneme.cmp (self.map fun p => p.append text)

/-- `make_string` (engine.rs:54-60). -/
def makeString (self : PhonemeBuilder) : Str := joinWith c!"|" (self.map Phoneme.text)

/-- The inner loop of `apply` (engine.rs:66-77); the second component is `true` after `break 'outer`. -/
def applyRight (maxPhonemes : Nat) (left : Phoneme) : List Phoneme → PhonemeBuilder → PhonemeBuilder × Bool
  | [], phonemes => (phonemes, false)
  | right :: rest, phonemes =>
    let languages := left.languages.restrictTo right.languages
    if !languages.isEmpty then
      let phoneme := Phoneme.join left right languages
      let phonemes := if phonemes.length < maxPhonemes then setInsert Phoneme.cmp phoneme phonemes else phonemes
      if phonemes.length ≥ maxPhonemes then (phonemes, true)
      else applyRight maxPhonemes left rest phonemes
    else applyRight maxPhonemes left rest phonemes

/-- The outer loop of `apply` (engine.rs:65-78). -/
def applyLeft (maxPhonemes : Nat) (expr : List Phoneme) : List Phoneme → PhonemeBuilder → PhonemeBuilder
  | [], phonemes => phonemes
  | left :: rest, phonemes =>
    match applyRight maxPhonemes left expr phonemes with
    | (phonemes, true) => phonemes
    | (phonemes, false) => applyLeft maxPhonemes expr rest phonemes

/-- `apply` (engine.rs:62-80). -/
def apply (self : PhonemeBuilder) (expr : List Phoneme) (maxPhonemes : Nat) : PhonemeBuilder :=
  applyLeft maxPhonemes expr self []

end PhonemeBuilder

/-- The loop over the rules in `invoke` (engine.rs:104-111): the first rule that matches. -/
def findRule (R : RegexEngine) (input : CharSequence) (i : Nat) : List Rule → Res (Option Rule)
  | [] => .ok none
  | rule :: rest => do
    if ← rule.patternAndContextMatches R input i then return some rule
    else findRule R input i rest

/-- `RulesApplication::invoke` (engine.rs:98-120): the builder, the next position, and whether a rule
was found. -/
def invoke (R : RegexEngine) (rules : RuleMap) (input : CharSequence) (builder : PhonemeBuilder)
    (i maxPhonemes : Nat) : Res (PhonemeBuilder × Nat × Bool) := do
  match (← input.indexFrom i).head? with
  | none => .error .unwrap
  | some key =>
    match rules.get? key with
    | none => return (builder, i + 1, false)
    | some rules =>
      match ← findRule R input i rules with
      | none => return (builder, i + 1, false)
      | some rule => return (builder.apply rule.phoneme maxPhonemes, i + rule.patternLengthChar, true)

/-- `PhoneticEngine` (engine.rs:123-131). -/
structure Engine where
  rules : Rules
  lang : Lang
  nameType : NameType
  ruleType : PrivateRuleType
  concat : Bool
  maxPhonemes : Nat

/-- The loop over the text of a phoneme in `apply_final_rule` (engine.rs:149-169).  `fuel` bounds the
number of iterations. -/
def finalLoop (R : RegexEngine) (maxPhonemes : Nat) (finalRules : RuleMap) (text : CharSequence) :
    (fuel i : Nat) → PhonemeBuilder → Res PhonemeBuilder
  | 0, _, _ => .error .diverge
  | fuel + 1, i, sub =>
    if i < text.len then do
      let (sub, i', found) ← invoke R finalRules text sub i maxPhonemes
      if found then finalLoop R maxPhonemes finalRules text fuel i' sub
      else
        let txt ← text.indexRange i (i + 1)
        finalLoop R maxPhonemes finalRules text fuel i' (sub.append txt)
    else .ok sub

/-- The merge of the new phonemes (engine.rs:171-179). -/
def mergeNew (languages : LanguageSet) (phonemes : PhonemeBuilder) (sub : PhonemeBuilder) : PhonemeBuilder :=
  sub.foldl (fun phonemes new =>
    match setGet? Phoneme.cmp new phonemes with
    | some old => setReplace Phoneme.cmp (old.mergeWithLanguage languages) phonemes
    | none => setInsert Phoneme.cmp new phonemes) phonemes

/-- The loop over the phonemes in `apply_final_rule` (engine.rs:143-180). -/
def finalPhonemes (R : RegexEngine) (maxPhonemes : Nat) (finalRules : RuleMap) :
    List Phoneme → PhonemeBuilder → Res PhonemeBuilder
  | [], acc => .ok acc
  | p :: rest, acc => do
    let text := CharSequence.ofStr p.text
    let sub ← finalLoop R maxPhonemes finalRules text (p.text.length + 1) 0 (.empty p.languages)
    finalPhonemes R maxPhonemes finalRules rest (mergeNew p.languages acc sub)

/-- `apply_final_rule` (engine.rs:134-183). -/
def applyFinalRule (R : RegexEngine) (maxPhonemes : Nat) (builder : PhonemeBuilder) (finalRules : RuleMap) :
    Res PhonemeBuilder :=
  if finalRules.isEmpty then .ok builder else finalPhonemes R maxPhonemes finalRules builder []

/-- The main loop (engine.rs:285-299).  `fuel` bounds the number of iterations. -/
def mainLoop (R : RegexEngine) (maxPhonemes : Nat) (rules : RuleMap) (input : CharSequence) :
    (fuel i : Nat) → PhonemeBuilder → Res PhonemeBuilder
  | 0, _, _ => .error .diverge
  | fuel + 1, i, builder =>
    if i < input.len then do
      let (builder, i', _) ← invoke R rules input builder i maxPhonemes
      mainLoop R maxPhonemes rules input fuel i' builder
    else .ok builder

/-- `str::split_whitespace`: the maximal runs of characters that are not whitespace; `word` is the
reversed current word (beider_morse/engine.rs:249). -/
def splitWhitespaceAux (U : Unicode) (word : Str) : Str → List Str
  | [] => if word.isEmpty then [] else [word.reverse]
  | c :: cs =>
    if U.isWhitespace c then
      if word.isEmpty then splitWhitespaceAux U [] cs else word.reverse :: splitWhitespaceAux U [] cs
    else splitWhitespaceAux U (c :: word) cs

/-- `str::split_whitespace` (beider_morse/engine.rs:249). -/
def splitWhitespace (U : Unicode) (s : Str) : List Str := splitWhitespaceAux U [] s

/-- `str::strip_prefix` (beider_morse/engine.rs:214, 232). -/
def stripPrefix (s p : Str) : Option Str := if p.isPrefixOf s then some (s.drop p.length) else none

namespace Engine

/-- The prefix found by the loop (engine.rs:228-246), with the rest. -/
def findPrefix (input : Str) : List Str → Option (Str × Str)
  | [] => none
  | p :: rest =>
    match stripPrefix input (p ++ c!" ") with
    | some remainder => some (p, remainder)
    | none => findPrefix input rest

/-- `(remainder)-(combined)` (engine.rs:215-226 and 233-244). -/
def encodeTwice (recur : Str → Res Str) (combined remainder : Str) : Res Str := do
  let combined ← recur combined
  let remainder ← recur remainder
  return c!"(" ++ remainder ++ c!")-(" ++ combined ++ c!")"

/-- Encodes words one by one (engine.rs:252-258). -/
def encodeWords (recur : Str → Res Str) : List Str → Res (List Str)
  | [] => .ok []
  | w :: ws => do
    let c ← recur w
    let cs ← encodeWords recur ws
    return c :: cs

/-- The words kept (engine.rs:260-274). -/
def keptWords (nameType : NameType) (words : List Str) : List Str :=
  (words.map fun v =>
    if nameType = .sephardic then (splitOnChar '\'' v).getLast?.getD [] else v).filter fun v =>
    nameType == .generic || !(namePrefixes nameType).contains v

/-- The encoding of the cleaned text (engine.rs:283-306). -/
def encodeText (R : RegexEngine) (self : Engine) (rules final1 final2 : RuleMap) (languages : LanguageSet)
    (text : Str) : Res Str := do
  let input := CharSequence.ofStr text
  let builder ← mainLoop R self.maxPhonemes rules input (text.length + 1) 0 (.empty languages)
  let builder ← applyFinalRule R self.maxPhonemes builder final1
  let builder ← applyFinalRule R self.maxPhonemes builder final2
  return builder.makeString

/-- The text to encode when there is no prefix (engine.rs:249-281): `none` if the words are encoded
separately. -/
def textOf (self : Engine) (words : List Str) : Option (Res Str) :=
  if !self.concat && words.length != 1 then none
  else if self.concat then some (.ok (joinWith c!" " (keptWords self.nameType words)))
  else
    match words.head? with
    | some w => some (.ok w)
    | none => some (.error .unwrap)

/-- The language whose rules are used (engine.rs:191-200). -/
def ruleLanguage (languages : LanguageSet) : Res Str :=
  if languages.isSingleton then
    match languages.first with
    | some l => .ok l
    | none => .error .unwrap
  else .ok c!"any"

/-- `encode_with_language_set` (engine.rs:190-307); `recur` is `encode`. -/
def encodeWith (U : Unicode) (R : RegexEngine) (self : Engine) (recur : Str → Res Str) (input : Str)
    (languages : LanguageSet) : Res Str := do
  let l ← ruleLanguage languages
  let some rules := self.rules.get? (self.nameType, .rules, l) | .error .unwrap
  let some final1 := self.rules.get? (self.nameType, self.ruleType, c!"common") | .error .unwrap
  let some final2 := self.rules.get? (self.nameType, self.ruleType, l) | .error .unwrap
  let input := replaceAll (U.strLower input) c!"-" c!" "
  let words (_ : Unit) : Res Str :=
    let words := splitWhitespace U input
    match self.textOf words with
    | none => do
      let codes ← encodeWords recur words
      return joinWith c!"-" codes
    | some text => do
      let text ← text
      encodeText R self rules final1 final2 languages text
  if self.nameType = .generic then
    match stripPrefix input c!"d'" with
    | some remainder => encodeTwice recur ('d' :: remainder) remainder
    | none =>
      match findPrefix input (namePrefixes .generic) with
      | some (p, remainder) => encodeTwice recur (p ++ remainder) remainder
      | none => words ()
  else words ()

/-- `encode` (engine.rs:185-188).  `fuel` bounds the depth of the recursion. -/
def encodeFuel (U : Unicode) (R : RegexEngine) (self : Engine) : (fuel : Nat) → Str → Res Str
  | 0, _ => .error .diverge
  | fuel + 1, input =>
    encodeWith U R self (encodeFuel U R self fuel) input (self.lang.guessLanguages U R input)

/-- `encode` (engine.rs:185-188), with a depth that is always enough (see `bm_encode_terminates`). -/
def encode (U : Unicode) (R : RegexEngine) (self : Engine) (input : Str) : Res Str :=
  encodeFuel U R self ((U.strLower input).length + 2) input

/-- `BeiderMorse::encode_with_languages` (mod.rs:260-262). -/
def encodeWithLanguages (U : Unicode) (R : RegexEngine) (self : Engine) (input : Str)
    (languages : LanguageSet) : Res Str :=
  encodeWith U R self (encodeFuel U R self ((U.strLower input).length + 1)) input languages

end Engine

/-! ## Configuration and builder -/

/-- `ConfigFiles` (mod.rs:160-165). -/
structure ConfigFiles where
  langs : Langs
  rules : Rules

/-- `ConfigFiles::new` (mod.rs:177-183). -/
def ConfigFiles.new (U : Unicode) (R : RegexEngine) (depth : Nat) (dir : Directory) :
    Res (Except PhoneticError ConfigFiles) := do
  match ← languagesOfDir dir with
  | .error e => return .error e
  | .ok languages =>
    match ← buildLangs R dir languages with
    | .error e => return .error e
    | .ok langs =>
      match ← buildRules U R (Resolver.ofDir dir) depth languages with
      | .error e => return .error e
      | .ok rules => return .ok { langs, rules }

/-- `BeiderMorseBuilder` (mod.rs:274-281). -/
structure Builder where
  configFiles : ConfigFiles
  nameType : NameType
  ruleType : RuleType
  concat : Bool
  maxPhonemes : Nat

namespace Builder

/-- `BeiderMorseBuilder::new` (mod.rs:289-297); `DEFAULT_MAX_PHONEMES` (mod.rs:30). -/
def new (configFiles : ConfigFiles) : Builder :=
  { configFiles, nameType := .generic, ruleType := .approx, concat := true, maxPhonemes := 20 }

/-- The setter `name_type` (mod.rs:300-303). -/
def withNameType (self : Builder) (nameType : NameType) : Builder := { self with nameType }

/-- The setter `rule_type` (mod.rs:306-309). -/
def withRuleType (self : Builder) (ruleType : RuleType) : Builder := { self with ruleType }

/-- The setter `concat` (mod.rs:313-316). -/
def withConcat (self : Builder) (concat : Bool) : Builder := { self with concat }

/-- The setter `max_phonemes` (mod.rs:320-323). -/
def withMaxPhonemes (self : Builder) (maxPhonemes : Nat) : Builder := { self with maxPhonemes }

/-- `build` (mod.rs:326-338). -/
def build (self : Builder) : Res Engine :=
  match self.configFiles.langs.get? self.nameType with
  | none => .error .unwrap
  | some lang => .ok
      { rules := self.configFiles.rules, lang, nameType := self.nameType
        ruleType := .ofRuleType self.ruleType, concat := self.concat, maxPhonemes := self.maxPhonemes }

end Builder

end BM
end Verif
