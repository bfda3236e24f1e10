import Verif.Spec.BMEngine
import Verif.Model.BMEngine
/-!
# Specification of the Beider-Morse encoding of a name
-/

namespace Verif.Spec
open BM

/-- The name as the encoder reads it: in lower case, hyphens as spaces. -/
def cleaned (U : Unicode) (s : Str) : Str := (U.strLower s).map fun c => if c = '-' then ' ' else c

/-- The prefixes of generic names. -/
def genericPrefixes : List Str :=
  [c!"da", c!"dal", c!"de", c!"del", c!"dela", c!"della", c!"des", c!"di", c!"do", c!"dos", c!"du", c!"van", c!"von"]

/-- A (cleaned) name consists of a prefix and of the rest: "d'" followed by the rest, or a listed prefix
and a space followed by the rest. -/
def NamePrefix (name p rest : Str) : Prop :=
  (p = c!"d" ∧ name = c!"d'" ++ rest) ∨ (p ∈ genericPrefixes ∧ name = p ++ ' ' :: rest)

/-- The words of a text: the maximal runs of characters that are not whitespace. -/
inductive Words (U : Unicode) : Str → List Str → Prop
  | nil : Words U [] []
  | space {c : Char} {s : Str} {ws : List Str} : U.isWhitespace c = true → Words U s ws → Words U (c :: s) ws
  | word {w s : Str} {ws : List Str} : w ≠ [] → (∀ c ∈ w, U.isWhitespace c = false) →
      (∀ c, s.head? = some c → U.isWhitespace c = true) → Words U s ws → Words U (w ++ s) (w :: ws)

/-- The words of a name that are encoded when the words are taken together: in Sephardic names what
precedes the last apostrophe of a word is dropped, and prefixes are dropped except in generic names. -/
def keptWords (nameType : NameType) (words : List Str) : List Str :=
  match nameType with
  | .generic => words
  | .ashkenazi => words.filter fun w => w ∉ [c!"bar", c!"ben", c!"da", c!"de", c!"van", c!"von"]
  | .sephardic => (words.map fun w => (w.reverse.takeWhile (· ≠ '\'')).reverse).filter fun w =>
      w ∉ [c!"al", c!"el", c!"da", c!"dal", c!"de", c!"del", c!"dela", c!"de la", c!"della", c!"des", c!"di",
        c!"do", c!"dos", c!"du", c!"van", c!"von"]

/-- The language whose rules are used: the only one of a set of languages, or else "any". -/
def languageOf : LanguageSet → Str
  | .someLanguages [l] => l
  | _ => c!"any"

/-- The rules of an engine for a type and a language. -/
def rulesOf (e : Engine) (ruleType : PrivateRuleType) (l : Str) : RuleMap :=
  (e.rules.get? (e.nameType, ruleType, l)).getD []

/-- The phonemes of a text with the rules of an engine. -/
def textPhonemes (R : RegexEngine) (e : Engine) (languages : LanguageSet) (text : Str) : List Phoneme :=
  phonemesOf R e.maxPhonemes (rulesOf e .rules (languageOf languages)) (rulesOf e e.ruleType c!"common")
    (rulesOf e e.ruleType (languageOf languages)) languages text

/-- Texts separated by a separator. -/
def separated (sep : Str) : List Str → Str
  | [] => []
  | [t] => t
  | t :: ts => t ++ sep ++ separated sep ts

/-- The text of a name that is encoded at once: its words together, or its only word. -/
def nameText (e : Engine) (words : List Str) : Str :=
  if e.concat then separated c!" " (keptWords e.nameType words) else words.headD []

/-- An engine has (well-formed) rules for a language. -/
def Knows (e : Engine) (l : Str) : Prop :=
  (∃ m, e.rules.get? (e.nameType, .rules, l) = some m ∧ RuleMapWF m) ∧
  (∃ m, e.rules.get? (e.nameType, e.ruleType, l) = some m ∧ RuleMapWF m)

/-- An engine has rules for "any", for the languages it may guess, and common rules. -/
structure EngineWF (e : Engine) : Prop where
  any : Knows e c!"any"
  guessed : ∀ l ∈ e.lang.languages, Knows e l
  common : ∃ m, e.rules.get? (e.nameType, e.ruleType, c!"common") = some m ∧ RuleMapWF m

end Verif.Spec
