import Verif.Proofs.BMConfig
import Verif.Spec.BMConfig
/-!
# Where phonemes come from, and how many there are
-/

set_option linter.unusedSimpArgs false
set_option linter.unusedVariables false

namespace Verif.BMProofs
open BM Spec

/-! ## Origin -/

theorem restrictTo_any (l : LanguageSet) : l.restrictTo .any = l := by cases l <;> rfl

theorem mainStep_origin {max : Nat} {ps : List Phoneme} {s : Segment} {x : Phoneme} (h : x ∈ mainStep max ps s) :
    ∃ p ∈ ps, ∃ a, Choice false [s] a ∧ x.text = p.text ++ choiceText a ∧
      x.languages = choiceLanguages p.languages a := by
  cases s with
  | rule alts =>
    obtain ⟨p, hp, a, ha, h1, h2, _⟩ := mem_combine h
    exact ⟨p, hp, [a], .rule ha .nil, by simp [choiceText, h1], by simp [choiceLanguages, h2]⟩
  | letter c => exact ⟨x, h, [], Choice.letter .nil, by simp [choiceText], by simp [choiceLanguages]⟩

theorem finalStep_origin {max : Nat} {ps : List Phoneme} {s : Segment} {x : Phoneme} (h : x ∈ finalStep max ps s) :
    ∃ p ∈ ps, ∃ a, Choice true [s] a ∧ x.text = p.text ++ choiceText a ∧
      x.languages = choiceLanguages p.languages a := by
  cases s with
  | rule alts =>
    obtain ⟨p, hp, a, ha, h1, h2, _⟩ := mem_combine h
    exact ⟨p, hp, [a], .rule ha .nil, by simp [choiceText, h1], by simp [choiceLanguages, h2]⟩
  | letter c =>
    obtain ⟨p, hp, rfl⟩ := List.mem_map.mp (mem_sortByText.mp h)
    exact ⟨p, hp, [⟨[c], .any⟩], Choice.letter .nil, by simp [choiceText],
      by simp [choiceLanguages, restrictTo_any]⟩

theorem choice_cons {keep : Bool} {s : Segment} {segs : List Segment} {a b : List Phoneme} (ha : Choice keep [s] a)
    (hb : Choice keep segs b) : Choice keep (s :: segs) (a ++ b) := by
  cases ha with
  | rule h h' => cases h'; exact .rule h hb
  | letter h' =>
    cases h'
    have := Choice.letter (c := by assumption) hb
    cases keep <;> simpa using this

theorem foldl_origin {keep : Bool} {step : List Phoneme → Segment → List Phoneme}
    (hstep : ∀ {ps : List Phoneme} {s : Segment} {x : Phoneme}, x ∈ step ps s → ∃ p ∈ ps, ∃ a, Choice keep [s] a ∧
      x.text = p.text ++ choiceText a ∧ x.languages = choiceLanguages p.languages a)
    (segs : List Segment) {ps : List Phoneme} {x : Phoneme} (h : x ∈ segs.foldl step ps) :
    ∃ p ∈ ps, ∃ a, Choice keep segs a ∧ x.text = p.text ++ choiceText a ∧
      x.languages = choiceLanguages p.languages a := by
  induction segs generalizing ps with
  | nil => exact ⟨x, h, [], .nil, by simp [choiceText], by simp [choiceLanguages]⟩
  | cons s segs ih =>
    obtain ⟨p, hp, a, h1, h2, h3⟩ := ih h
    obtain ⟨q, hq, b, g1, g2, g3⟩ := hstep hp
    refine ⟨q, hq, b ++ a, choice_cons g1 h1, ?_, ?_⟩
    · rw [h2, g2]; simp [choiceText]
    · rw [h3, g3]; simp [choiceLanguages]

theorem mainPass_origin {max : Nat} {ls : LanguageSet} {segs : List Segment} {x : Phoneme}
    (h : x ∈ mainPass max ls segs) :
    ∃ a, Choice false segs a ∧ x.text = choiceText a ∧ x.languages = choiceLanguages ls a := by
  obtain ⟨p, hp, a, h1, h2, h3⟩ := foldl_origin (step := mainStep max) mainStep_origin segs h
  rw [List.mem_singleton.mp hp] at h2 h3
  exact ⟨a, h1, h2, h3⟩

theorem refinePhoneme_origin {max : Nat} {ls : LanguageSet} {segs : List Segment} {x : Phoneme}
    (h : x ∈ refinePhoneme max ls segs) :
    ∃ a, Choice true segs a ∧ x.text = choiceText a ∧ x.languages = choiceLanguages ls a := by
  obtain ⟨p, hp, a, h1, h2, h3⟩ := foldl_origin (step := finalStep max) finalStep_origin segs h
  rw [List.mem_singleton.mp hp] at h2 h3
  exact ⟨a, h1, h2, h3⟩

theorem addPhonemes_text {ls : LanguageSet} {set new : List Phoneme} (t : Str) :
    t ∈ (addPhonemes ls set new).map Phoneme.text ↔ t ∈ set.map Phoneme.text ∨ t ∈ new.map Phoneme.text := by
  have hm : ∀ q : Phoneme, (if new.any (fun p => p.text == q.text) then
      (⟨q.text, q.languages.merge ls⟩ : Phoneme) else q).text = q.text := by
    intro q; split <;> rfl
  constructor
  · intro h
    obtain ⟨p, hp, rfl⟩ := List.mem_map.mp h
    rcases List.mem_append.mp (mem_sortByText.mp hp) with hp | hp
    · obtain ⟨q, hq, rfl⟩ := List.mem_map.mp hp
      left; rw [hm]; exact List.mem_map_of_mem hq
    · right; exact List.mem_map_of_mem (List.mem_filter.mp hp).1
  · intro h
    by_cases hs : t ∈ set.map Phoneme.text
    · obtain ⟨q, hq, rfl⟩ := List.mem_map.mp hs
      refine List.mem_map.mpr ⟨_, mem_sortByText.mpr (List.mem_append_left _ (List.mem_map_of_mem hq)), hm q⟩
    · obtain ⟨p, hp, rfl⟩ := List.mem_map.mp (h.resolve_left hs)
      refine List.mem_map.mpr ⟨p, mem_sortByText.mpr (List.mem_append_right _ (List.mem_filter.mpr ⟨hp, ?_⟩)), rfl⟩
      simp only [Bool.not_eq_true', List.any_eq_false, beq_iff_eq]
      intro q hq he
      exact hs (he ▸ List.mem_map_of_mem hq)

theorem finalPass_text (R : RegexEngine) (max : Nat) (rules : Char → List Rule) (ps : List Phoneme) (t : Str) :
    t ∈ (finalPass R max rules ps).map Phoneme.text ↔
      ∃ p ∈ ps, t ∈ (refinePhoneme max p.languages (segments R rules [] 0 p.text)).map Phoneme.text := by
  have key : ∀ (ps set : List Phoneme),
      t ∈ (ps.foldl (fun set p => addPhonemes p.languages set
        (refinePhoneme max p.languages (segments R rules [] 0 p.text))) set).map Phoneme.text ↔
      t ∈ set.map Phoneme.text ∨
        ∃ p ∈ ps, t ∈ (refinePhoneme max p.languages (segments R rules [] 0 p.text)).map Phoneme.text := by
    intro ps
    induction ps with
    | nil => intro set; simp
    | cons p ps ih =>
      intro set
      rw [List.foldl_cons, ih, addPhonemes_text]
      simp only [List.mem_cons, exists_eq_or_imp, or_assoc]
  unfold finalPass
  rw [key]
  simp

/-! ## Characters -/

theorem choice_all {keep : Bool} {Q : Char → Prop} {segs : List Segment} {a : List Phoneme} (h : Choice keep segs a)
    (hr : ∀ alts, Segment.rule alts ∈ segs → ∀ p ∈ alts, ∀ c ∈ p.text, Q c)
    (hl : keep = true → ∀ c, Segment.letter c ∈ segs → Q c) : ∀ c ∈ choiceText a, Q c := by
  induction h with
  | nil => intro c hc; exact absurd hc List.not_mem_nil
  | rule ha _ ih =>
    intro c hc
    simp only [choiceText, List.map_cons, List.flatten_cons, List.mem_append] at hc
    rcases hc with hc | hc
    · exact hr _ List.mem_cons_self _ ha c hc
    · exact ih (fun alts h => hr alts (List.mem_cons_of_mem _ h)) (fun k c h => hl k c (List.mem_cons_of_mem _ h)) c hc
  | letter _ ih =>
    intro c hc
    have ih' := ih (fun alts h => hr alts (List.mem_cons_of_mem _ h)) (fun k c h => hl k c (List.mem_cons_of_mem _ h))
    clear ih
    cases keep with
    | false => exact ih' c hc
    | true =>
      simp only [if_true, choiceText, List.map_cons, List.flatten_cons, List.mem_append, List.mem_singleton] at hc
      rcases hc with rfl | hc
      · exact hl rfl _ List.mem_cons_self
      · exact ih' c hc

theorem mem_segments {R : RegexEngine} {rules : Char → List Rule} {before : Str} {k : Nat} {t : Str} :
    (∀ alts, Segment.rule alts ∈ segments R rules before k t → ∃ c, ∃ r ∈ rules c, alts = r.phoneme) ∧
    (∀ c, Segment.letter c ∈ segments R rules before k t → c ∈ t) := by
  induction t generalizing before k with
  | nil => constructor <;> intro x hx <;> exact absurd hx (by simp [segments])
  | cons c t ih =>
    cases k with
    | succ k =>
      simp only [segments]
      exact ⟨(ih).1, fun x hx => List.mem_cons_of_mem _ ((ih).2 x hx)⟩
    | zero =>
      simp only [segments]
      cases hf : (rules c).find? (ruleApplies R before (c :: t)) with
      | some r =>
        constructor
        · intro alts h
          rcases List.mem_cons.mp h with h | h
          · cases h; exact ⟨c, r, List.mem_of_find?_eq_some hf, rfl⟩
          · exact ih.1 alts h
        · intro x h
          rcases List.mem_cons.mp h with h | h
          · cases h
          · exact List.mem_cons_of_mem _ (ih.2 x h)
      | none =>
        constructor
        · intro alts h
          rcases List.mem_cons.mp h with h | h
          · cases h
          · exact ih.1 alts h
        · intro x h
          rcases List.mem_cons.mp h with h | h
          · cases h; exact List.mem_cons_self
          · exact List.mem_cons_of_mem _ (ih.2 x h)

theorem mainPass_all {Q : Char → Prop} {R : RegexEngine} {max : Nat} {rules : Char → List Rule} {ls : LanguageSet}
    {text : Str} (h : ∀ c, ∀ r ∈ rules c, ∀ p ∈ r.phoneme, ∀ x ∈ p.text, Q x) :
    ∀ t ∈ (mainPass max ls (segments R rules [] 0 text)).map Phoneme.text, ∀ x ∈ t, Q x := by
  intro t ht
  obtain ⟨p, hp, rfl⟩ := List.mem_map.mp ht
  obtain ⟨a, h1, h2, _⟩ := mainPass_origin hp
  rw [h2]
  refine choice_all h1 ?_ (by simp)
  intro alts ha
  obtain ⟨c, r, hr, rfl⟩ := mem_segments.1 alts ha
  exact h c r hr

theorem finalPass_all {Q : Char → Prop} {R : RegexEngine} {max : Nat} {rules : Char → List Rule} {ps : List Phoneme}
    (h : ∀ c, ∀ r ∈ rules c, ∀ p ∈ r.phoneme, ∀ x ∈ p.text, Q x)
    (hps : ∀ t ∈ ps.map Phoneme.text, ∀ x ∈ t, Q x) :
    ∀ t ∈ (finalPass R max rules ps).map Phoneme.text, ∀ x ∈ t, Q x := by
  intro t ht
  obtain ⟨p, hp, ht⟩ := (finalPass_text R max rules ps t).mp ht
  obtain ⟨q, hq, rfl⟩ := List.mem_map.mp ht
  obtain ⟨a, h1, h2, _⟩ := refinePhoneme_origin hq
  rw [h2]
  refine choice_all h1 ?_ ?_
  · intro alts ha
    obtain ⟨c, r, hr, rfl⟩ := mem_segments.1 alts ha
    exact h c r hr
  · intro _ c hc
    exact hps _ (List.mem_map_of_mem hp) c (mem_segments.2 c hc)

theorem phonemesOf_all {Q : Char → Prop} {R : RegexEngine} {max : Nat} {rules final1 final2 : RuleMap}
    {ls : LanguageSet} {text : Str}
    (h : ∀ m, m = rules ∨ m = final1 ∨ m = final2 → ∀ c, ∀ r ∈ rulesFor m c, ∀ p ∈ r.phoneme, ∀ x ∈ p.text, Q x) :
    ∀ t ∈ (phonemesOf R max rules final1 final2 ls text).map Phoneme.text, ∀ x ∈ t, Q x := by
  have h0 := mainPass_all (R := R) (max := max) (ls := ls) (text := text) (h rules (.inl rfl))
  unfold phonemesOf
  dsimp only
  have step : ∀ m, (m = rules ∨ m = final1 ∨ m = final2) → ∀ ps : List Phoneme,
      (∀ t ∈ ps.map Phoneme.text, ∀ x ∈ t, Q x) →
      ∀ t ∈ (if m.isEmpty = true then ps else finalPass R max (rulesFor m) ps).map Phoneme.text, ∀ x ∈ t, Q x := by
    intro m hm ps hps
    split
    · exact hps
    · exact finalPass_all (h m hm) hps
  exact step final2 (.inr (.inr rfl)) _ (step final1 (.inr (.inl rfl)) _ h0)

/-! ## Number -/

theorem mainStep_length (n : Nat) (ps : List Phoneme) (s : Segment) (h : ps.length ≤ max 1 n) :
    (mainStep n ps s).length ≤ max 1 n := by
  cases s with
  | rule a => exact Nat.le_trans (combine_length _ _ _) (Nat.le_max_right _ _)
  | letter c => exact h

theorem finalStep_length (n : Nat) (ps : List Phoneme) (s : Segment) (h : ps.length ≤ max 1 n) :
    (finalStep n ps s).length ≤ max 1 n := by
  cases s with
  | rule a => exact Nat.le_trans (combine_length _ _ _) (Nat.le_max_right _ _)
  | letter c =>
    simp only [finalStep]
    rw [(sortByText_perm _).length_eq, List.length_map]; exact h

theorem mainPass_length (n : Nat) (ls : LanguageSet) (segs : List Segment) :
    (mainPass n ls segs).length ≤ max 1 n := by
  have : ∀ (segs : List Segment) (ps : List Phoneme), ps.length ≤ max 1 n →
      (segs.foldl (mainStep n) ps).length ≤ max 1 n := by
    intro segs
    induction segs with
    | nil => intro ps h; exact h
    | cons s segs ih => intro ps h; exact ih _ (mainStep_length n ps s h)
  exact this segs [⟨[], ls⟩] (Nat.le_max_left _ _)

theorem refinePhoneme_length (n : Nat) (ls : LanguageSet) (segs : List Segment) :
    (refinePhoneme n ls segs).length ≤ max 1 n := by
  have : ∀ (segs : List Segment) (ps : List Phoneme), ps.length ≤ max 1 n →
      (segs.foldl (finalStep n) ps).length ≤ max 1 n := by
    intro segs
    induction segs with
    | nil => intro ps h; exact h
    | cons s segs ih => intro ps h; exact ih _ (finalStep_length n ps s h)
  exact this segs [⟨[], ls⟩] (Nat.le_max_left _ _)

theorem addPhonemes_length (ls : LanguageSet) (set new : List Phoneme) :
    (addPhonemes ls set new).length ≤ set.length + new.length := by
  unfold addPhonemes
  rw [(sortByText_perm _).length_eq, List.length_append, List.length_map]
  have := List.length_filter_le (fun p : Phoneme => !set.any fun q => q.text == p.text) new
  omega

theorem finalPass_length (R : RegexEngine) (n : Nat) (rules : Char → List Rule) (ps : List Phoneme) :
    (finalPass R n rules ps).length ≤ ps.length * max 1 n := by
  have : ∀ (ps set : List Phoneme),
      (ps.foldl (fun set p => addPhonemes p.languages set
        (refinePhoneme n p.languages (segments R rules [] 0 p.text))) set).length ≤ set.length + ps.length * max 1 n := by
    intro ps
    induction ps with
    | nil => intro set; simp
    | cons p ps ih =>
      intro set
      rw [List.foldl_cons]
      refine Nat.le_trans (ih _) ?_
      have h1 := addPhonemes_length p.languages set (refinePhoneme n p.languages (segments R rules [] 0 p.text))
      have h2 := refinePhoneme_length n p.languages (segments R rules [] 0 p.text)
      rw [List.length_cons, Nat.succ_mul]
      omega
  have := this ps []
  simpa [finalPass] using this

theorem phonemesOf_length (R : RegexEngine) (n : Nat) (rules final1 final2 : RuleMap) (ls : LanguageSet) (text : Str) :
    (phonemesOf R n rules final1 final2 ls text).length ≤ (max 1 n) ^ 3 := by
  have h0 := mainPass_length n ls (segments R (rulesFor rules) [] 0 text)
  have hp : 1 ≤ max 1 n := Nat.le_max_left _ _
  unfold phonemesOf
  dsimp only
  have step : ∀ (m : RuleMap) (ps : List Phoneme) (k : Nat), ps.length ≤ (max 1 n) ^ k →
      (if m.isEmpty = true then ps else finalPass R n (rulesFor m) ps).length ≤ (max 1 n) ^ (k + 1) := by
    intro m ps k h
    split
    · exact Nat.le_trans h (Nat.pow_le_pow_right hp (Nat.le_succ k))
    · exact Nat.le_trans (finalPass_length R n _ ps) (by rw [Nat.pow_succ]; exact Nat.mul_le_mul_right _ h)
  exact step final2 _ 2 (step final1 _ 1 (by simpa using h0))

/-- Without final rules. -/
theorem phonemesOf_length_main (R : RegexEngine) (n : Nat) (rules : RuleMap) (ls : LanguageSet) (text : Str) :
    (phonemesOf R n rules [] [] ls text).length ≤ max 1 n := by
  simpa [phonemesOf] using mainPass_length n ls (segments R (rulesFor rules) [] 0 text)

end Verif.BMProofs
