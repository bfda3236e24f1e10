import Verif.Spec.BMEncode
import Verif.Spec.BMFiles
import Verif.Model.BMEmbedded
/-!
# Beider-Morse encoders built from a directory of rules
-/

namespace Verif.Spec
open BM

/-- The file `xxx_languages.txt` of a name type names a language. -/
def Lists (dir : Directory) (nt : NameType) (l : Str) : Prop :=
  ∃ content items tail, dir.read nt.languageFilename = some content ∧
    Reading ListItem.Reads content items [] ∧ ListItem.language l tail ∈ items

/-- Where a configuration comes from. -/
inductive Origin where
  /-- `ConfigFiles::new` with a directory -/
  | directory (dir : Directory)
  /-- `ConfigFiles::default`, the rules in the crate -/
  | embedded

/-- The encoder `e` was built, with some settings, from a configuration of this origin. -/
def BuiltFrom (U : Unicode) (R : RegexEngine) (o : Origin) (e : Engine) : Prop :=
  ∃ depth cfg b, (match o with
    | .directory dir => ConfigFiles.new U R depth dir = .ok (.ok cfg)
    | .embedded => ConfigFiles.default U R depth = .ok cfg) ∧ b.configFiles = cfg ∧ Builder.build b = .ok e

/-- A configuration offers a language: the list of languages names it; the embedded rules are for "any" only. -/
def Offers (o : Origin) (nt : NameType) (l : Str) : Prop :=
  match o with
  | .directory dir => Lists dir nt l
  | .embedded => l = c!"any"

/-- The names of the files. -/
def langFilename (nt : NameType) : Str := nt.display ++ c!"_lang.txt"
def ruleFilename (nt : NameType) (rt : PrivateRuleType) (x : Str) : Str :=
  nt.display ++ c!"_" ++ rt.display ++ c!"_" ++ x

/-- There are rules of each type for each language, and common rules of each type but the main one. -/
def NeedsRules (dir : Directory) (nt : NameType) (rt : PrivateRuleType) (x : Str) : Prop :=
  Lists dir nt x ∨ rt ≠ .rules ∧ x = c!"common"

/-- The expressions of all the rules are valid. -/
def ValidItems (R : RegexEngine) (items : List LangItem) : Prop :=
  ∀ p l a t, LangItem.rule p l a t ∈ items → R.error p = none

/-- A directory that can be loaded: for each name type, the list of languages, the rules that guess languages, and
the rules of each type for each language; includes are nested less than `depth` deep. -/
def Loadable (U : Unicode) (R : RegexEngine) (depth : Nat) (dir : Directory) : Prop := ∀ nt : NameType,
  nt.languageFilename ∈ dir.entries ∧
  (∃ content items, dir.read nt.languageFilename = some content ∧ Reading ListItem.Reads content items []) ∧
  (∃ content items, dir.read (langFilename nt) = some content ∧ Reading LangItem.Reads content items [] ∧
    ValidItems R items) ∧
  ∀ rt x, NeedsRules dir nt rt x → ∃ out, FileRules U R (Resolver.ofDir dir) depth (ruleFilename nt rt x) out

/-- What a configuration loaded from a directory contains. -/
def Loaded (U : Unicode) (R : RegexEngine) (depth : Nat) (dir : Directory) (cfg : ConfigFiles) : Prop :=
  ∀ nt : NameType,
  (∃ lang content items, cfg.langs.get? nt = some lang ∧
    StrSetWF lang.languages ∧ (∀ l, l ∈ lang.languages ↔ Lists dir nt l) ∧
    dir.read (langFilename nt) = some content ∧ Reading LangItem.Reads content items [] ∧
    lang.rules.length = (langRules 0 items).length ∧ ∀ x ∈ (langRules 0 items).zip lang.rules, IsLangRule x.1 x.2) ∧
  ∀ rt x, ((∃ m, cfg.rules.get? (nt, rt, x) = some m) ↔ NeedsRules dir nt rt x) ∧
    ∀ m, cfg.rules.get? (nt, rt, x) = some m →
      FileRules U R (Resolver.ofDir dir) depth (ruleFilename nt rt x) (rulesFor m)

/-- No phoneme of the rules contains a '|'. -/
def NoBars (e : Engine) : Prop :=
  ∀ k m, e.rules.get? k = some m → ∀ c, ∀ r ∈ rulesFor m c, ∀ p ∈ r.phoneme, '|' ∉ p.text

end Verif.Spec
