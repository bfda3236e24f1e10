import Verif.Model.BMLang
/-!
# Specification of language sets and of the guessing of languages
-/

namespace Verif.Spec
open BM

/-- The languages that a language set denotes: all of them, none, or the listed ones. -/
def Denotes : LanguageSet → Str → Prop
  | .any, _ => True
  | .noLanguages, _ => False
  | .someLanguages s, l => l ∈ s

/-- A `BTreeSet<String>`: its elements are listed in strictly increasing (lexicographic) order. -/
def StrSetWF (s : StrSet) : Prop := s.Pairwise fun a b => a < b

/-- The set of languages inside a language set is a set. -/
def LanguageSetWF : LanguageSet → Prop
  | .someLanguages s => StrSetWF s
  | _ => True

/-- The languages that pass all the rules whose expression matches the text: a rule that accepts keeps its
languages only, a rule that rejects removes them. -/
def Passes (matching : LangRule → Bool) (rules : List LangRule) (l : Str) : Prop :=
  ∀ r ∈ rules, matching r = true → (r.acceptOnMatch = true ↔ l ∈ r.languages)

end Verif.Spec
