import Verif.Spec.BMEmbeddedTable
import Verif.Props.BMEmbedded
/-!
# C109: the rules of the embedded Beider-Morse encoders are those of the files, line by line
-/

namespace Verif.Props
open BM Spec BMProofs

namespace EmbeddedRules

theorem lineRule_isRule {R : RegexEngine} (hR : AcceptsEmbedded R) {file : Str} {l : EmbeddedLine} {r : Rule}
    (h : lineRule (file, l) = some r) : IsRule R file l.line l.pattern l.left l.right l.phonemes r := by
  unfold lineRule at h
  split at h
  · rename_i r' hp
    cases h
    exact (parseQuadruplet_iff ..).mp (parseQuadruplet_transfer (accepts_embedded hR) hp)
  · cases h

theorem lineRules_filter {R : RegexEngine} (hR : AcceptsEmbedded R) (c : Char) (lines : List (Str × EmbeddedLine)) (rs : List Rule)
    (h : lineRules lines = some rs) :
    ReadsAll R (lines.filter fun x => x.2.pattern.head? == some c) (rs.filter fun r => r.pattern.head? == some c) := by
  induction lines generalizing rs with
  | nil => cases h; exact .nil
  | cons x xs ih =>
    unfold lineRules at h
    split at h
    · rename_i r rs' h1 h2
      cases h
      have hx := lineRule_isRule hR (file := x.1) (l := x.2) h1
      have := ih rs' h2
      rw [List.filter_cons, List.filter_cons, hx.hasPattern]
      split
      · exact .cons hx this
      · exact this
    · cases h

theorem readsAll_of_holds {R : RegexEngine} (hR : AcceptsEmbedded R) {lines : List (Str × EmbeddedLine)} {m : RuleMap}
    (h : holds lines m = true) (c : Char) :
    ReadsAll R (lines.filter fun x => x.2.pattern.head? == some c) (rulesFor m c) := by
  unfold holds at h
  split at h
  · cases h
  · rename_i rs hrs
    rw [Bool.and_eq_true] at h
    have : rulesFor m c = rs.filter fun r => r.pattern.head? == some c := by
      unfold rulesFor
      cases hg : m.get? c with
      | some l =>
        have := List.all_eq_true.mp h.1 _ (get?_mem hg)
        exact of_decide_eq_true this
      | none =>
        symm
        change _ = []
        rw [List.filter_eq_nil_iff]
        intro r hr hc
        have := List.all_eq_true.mp h.2 r hr
        cases hp : r.pattern with
        | nil => rw [hp] at hc; exact absurd hc (by simp)
        | cons d ds =>
          rw [hp] at this hc
          simp at hc
          subst hc
          simp [hg] at this
    rw [this]
    exact lineRules_filter hR c lines rs hrs

end EmbeddedRules

open EmbeddedRules in
/-- C109. The rules that `ConfigFiles::default()` holds for a name type, a rule type and a language (or the common rules),
and a first character are exactly the lines of the files with a pattern that starts with this character, in the order of
the files, with the name of the file and the number of the line. -/
theorem bm_embedded_rules_exact (U : Unicode) (R : RegexEngine) (hR : AcceptsEmbedded R) (depth : Nat) (cfg : ConfigFiles)
    (h : ConfigFiles.default U R depth = .ok cfg) (nt : NameType) (rt : PrivateRuleType) (x : Str) (m : RuleMap)
    (hm : cfg.rules.get? (nt, rt, x) = some m) (c : Char) :
    ReadsAll R ((embeddedLines nt rt x).filter fun l => l.2.pattern.head? == some c) (rulesFor m c) := by
  obtain ⟨rules, hr, -, hall⟩ := embedded_rules_lines
  have hc := embedded_unique hr hR h
  rw [hc] at hm
  exact readsAll_of_holds hR (hall _ _ hm) c

/-- C109. The same for an encoder that was built from these rules, whatever its settings are: there are rules for "any", and
common ones for the two final rule types, and they are those of the files. -/
theorem bm_embedded_encoder_rules (U : Unicode) (R : RegexEngine) (hR : AcceptsEmbedded R) (e : Engine)
    (h : BuiltFrom U R .embedded e) (nt : NameType) (rt : PrivateRuleType) (x : Str) :
    ((∃ m, e.rules.get? (nt, rt, x) = some m) ↔ x = c!"any" ∨ rt ≠ .rules ∧ x = c!"common") ∧
    ∀ m, e.rules.get? (nt, rt, x) = some m → ∀ c,
      ReadsAll R ((embeddedLines nt rt x).filter fun l => l.2.pattern.head? == some c) (rulesFor m c) := by
  obtain ⟨depth, cfg, b, h1, h2, h3⟩ := h
  have h1 : ConfigFiles.default U R depth = .ok cfg := h1
  obtain ⟨lang, g1, g2, g3, g4, _⟩ := build_spec h3
  rw [g2, h2]
  exact ⟨((bm_embedded_contents U R depth cfg h1 nt).2 rt x).1, fun m hm => bm_embedded_rules_exact U R hR depth cfg h1 nt rt x m hm⟩

/-- C109. The number of rules of each kind. -/
theorem bm_embedded_number_of_rules :
    (NameType.all.map fun nt => [((embeddedLines nt .rules c!"any").length, (embeddedLines nt .approx c!"any").length,
      (embeddedLines nt .approx c!"common").length, (embeddedLines nt .exact c!"any").length,
      (embeddedLines nt .exact c!"common").length)]) =
    [[(254, 106, 211, 9, 58)], [(274, 85, 215, 15, 58)], [(112, 1, 112, 1, 56)]] := by decide +kernel

/-- C109. The 18 files are there; any other name is an error that names it. -/
theorem bm_embedded_files (file : Str) : ((∃ content, Resolver.embedded file = .ok content) ↔ file ∈ embeddedFileNames) ∧
    (file ∉ embeddedFileNames → Resolver.embedded file = .error (.wrongFilename (c!"Missing embedded rule " ++ file))) := by
  have keys : ∀ f, f ∈ embeddedFileNames ↔ f ∈ embeddedRules.map (·.1) := by
    have h1 : ∀ f ∈ embeddedFileNames, f ∈ embeddedRules.map (·.1) := by decide +kernel
    have h2 : ∀ f ∈ embeddedRules.map (·.1), f ∈ embeddedFileNames := by decide +kernel
    exact fun f => ⟨h1 f, h2 f⟩
  have some_iff : ∀ (l : Assoc Str Str), (l.get? file).isSome = true ↔ file ∈ l.map (·.1) := by
    intro l
    induction l with
    | nil => simp [Assoc.get?]
    | cons x l ih =>
      obtain ⟨k, v⟩ := x
      by_cases h : k = file
      · simp [Assoc.get?, h]
      · simp [Assoc.get?, Ne.symm h] at ih ⊢
  rw [keys, ← some_iff]
  unfold Resolver.embedded
  cases h : embeddedRules.get? file with
  | some content => exact ⟨⟨fun _ => rfl, fun _ => ⟨_, rfl⟩⟩, fun h' => absurd rfl h'⟩
  | none => exact ⟨⟨fun ⟨_, h'⟩ => (by cases h'), fun h' => (by cases h')⟩, fun _ => rfl⟩

/-- There are rules to compare: in the generic main rules, 18 for `c`, and the first of them is on line 81. -/
example : ((embeddedLines .generic .rules c!"any").filter fun l => l.2.pattern.head? == some 'c').length = 18 ∧
    (((embeddedLines .generic .rules c!"any").filter fun l => l.2.pattern.head? == some 'c').head?.map fun l =>
      (l.1, l.2.line, l.2.pattern, l.2.phonemes)) = some (c!"gen_rules_any", 81, c!"ck", c!"(k|tsk[polish+czech])") := by
  decide +kernel

/-- The hypotheses are met: there is an engine that accepts the expressions, the configuration loads with it, and it has
rules. -/
example (U : Unicode) : ∃ R cfg m, AcceptsEmbedded R ∧ ConfigFiles.default U R 2 = .ok cfg ∧
    cfg.rules.get? (.generic, .approx, c!"common") = some m := by
  obtain ⟨cfg, h⟩ := bm_embedded_loads
  have h := h U embeddedRegex 2 embeddedRegex_correct.1 (Nat.le_refl 2)
  obtain ⟨m, hm⟩ := ((bm_embedded_contents U embeddedRegex 2 cfg h .generic).2 .approx c!"common").1.mpr (.inr ⟨by decide, rfl⟩)
  exact ⟨embeddedRegex, cfg, m, embeddedRegex_correct.1, h, hm⟩

end Verif.Props
