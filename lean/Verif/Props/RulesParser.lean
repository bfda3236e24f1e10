import Verif.Proofs.Parser
/-!
# Properties of the parsers of rule lines

Each theorem says that a line parser accepts exactly the texts that start with a line in the documented
syntax, returns its fields, and leaves exactly what follows.  (A multi-line comment returns its number
of lines.)
-/

namespace Verif.Props
open Spec Parser ParserProofs

/-- `"a" "b" "c" "d"` -/
theorem parse_rule_iff (s a b c d r : Str) :
    quadruplet s = some ((a, b, c, d), r) ↔
      ∃ b1 b2 b3, ∃ t : Tail, PartWF a ∧ BlanksWF b1 ∧ PartWF b ∧ BlanksWF b2 ∧ PartWF c ∧ BlanksWF b3 ∧
        PartWF d ∧ t.WF r ∧
        s = quoted a ++ (b1 ++ (quoted b ++ (b2 ++ (quoted c ++ (b3 ++ (quoted d ++ t.print)))))) ++ r := by
  constructor
  · exact quadruplet_some
  · rintro ⟨b1, b2, b3, t, w1, v1, w2, v2, w3, v3, w4, ht, rfl⟩
    exact quadruplet_print w1 v1 w2 v2 w3 v3 w4 ht

/-- `a=b` -/
theorem parse_folding_iff (s r : Str) (a b : Char) :
    folding s = some ((a, b), r) ↔ ∃ t : Tail, t.WF r ∧ s = a :: '=' :: b :: t.print ++ r := by
  constructor
  · exact folding_some
  · rintro ⟨t, ht, rfl⟩
    exact folding_print ht

/-- An empty line or a `//` comment. -/
theorem parse_blank_iff (s r : Str) :
    endOfLine s = some ((), r) ↔ ∃ t : Tail, t.WF r ∧ s = t.print ++ r := by
  constructor
  · exact endOfLine_some
  · rintro ⟨t, ht, rfl⟩
    exact endOfLine_print ht

/-- `/* text */` -/
theorem parse_comment_iff (s r : Str) (n : Nat) :
    multilineComment s = some (n, r) ↔ ∃ text, ∃ t : Tail, ¬ ['*', '/'] <:+: text ∧ t.WF r ∧
      n = newlines text + 1 ∧ s = '/' :: '*' :: text ++ ('*' :: '/' :: t.print) ++ r := by
  constructor
  · exact multilineComment_some
  · rintro ⟨text, t, hi, ht, rfl, rfl⟩
    exact multilineComment_print hi ht

/-- `pattern languages true` or `pattern languages false` -/
theorem parse_lang_iff (s r a b : Str) (c : Bool) :
    lang s = some ((a, b, c), r) ↔ ∃ t : Tail, a ≠ [] ∧ ' ' ∉ a ∧ b ≠ [] ∧ ' ' ∉ b ∧ t.WF r ∧
      s = a ++ ' ' :: (b ++ ' ' :: ((if c then c!"true" else c!"false") ++ t.print)) ++ r := by
  constructor
  · exact lang_some
  · rintro ⟨t, n1, m1, n2, m2, ht, rfl⟩
    exact lang_print n1 m1 n2 m2 ht

/-- `#include name` -/
theorem parse_include_iff (U : Unicode) (s r a : Str) :
    includeDirective U s = some (a, r) ↔
      ∃ t : Tail, a ≠ [] ∧ (∀ c ∈ a, (U.isAlphanumeric c || c == '-' || c == '_') = true) ∧ t.WF r ∧
        s = c!"#include " ++ a ++ t.print ++ r := by
  constructor
  · exact include_some
  · rintro ⟨t, n, m, ht, rfl⟩
    exact include_print n m ht

/-- A language name. -/
theorem parse_language_iff (s r a : Str) :
    language s = some (a, r) ↔
      ∃ t : Tail, a ≠ [] ∧ (∀ c ∈ a, isAsciiAlpha c = true) ∧ t.WF r ∧ s = a ++ t.print ++ r := by
  constructor
  · exact language_some
  · rintro ⟨t, n, m, ht, rfl⟩
    exact language_print n m ht

/-! Examples: the syntax is inhabited. -/

example : quadruplet c!"\"sh\" \"0\" \"\"\t\"0|1\" // rule\nrest" =
    some ((c!"sh", c!"0", c!"", c!"0|1"), c!"rest") := by decide
example : folding c!"à=a\r\nrest" = some (('à', 'a'), c!"rest") := by decide
example : multilineComment c!"/* a\nb */\nrest" = some (2, c!"rest") := by decide
example : lang c!"^zh polish+russian true\nrest" = some ((c!"^zh", c!"polish+russian", true), c!"rest") := by
  decide
example : includeDirective .latin1 c!"#include gen_exact_any\nrest" = some (c!"gen_exact_any", c!"rest") := by
  decide +kernel
example : language c!"arabic\nrest" = some (c!"arabic", c!"rest") := by decide

end Verif.Props
