import Verif.Props.LettersDaitchMokotoff
import Verif.Props.DoubleMetaphoneSpec
import Verif.Spec.OneCode
/-!
# Names with one code (C104)
-/

set_option linter.unusedSimpArgs false
set_option linter.unusedVariables false

namespace Verif.Props
open Spec DaitchMokotoff DMKProofs InterchangeProofs

namespace OneCodeProofs

/-! ## Daitch-Mokotoff Soundex -/

/-- `twoWays` in lower case. -/
def marks : Str → Nat
  | [] => 0
  | c :: rest =>
    (if c = 'c' ∨ c = 'j' ∨ c = 'r' ∧ (rest.head? = some 's' ∨ rest.head? = some 'z') then 1 else 0) + marks rest

theorem marks_upper (w : Str) (h : AsciiStr w) : marks (w.map asciiLower) = twoWays (w.map asciiUpper) := by
  have facts : ∀ c, isAscii c = true → (asciiLower c = 'c' ↔ asciiUpper c = 'C') ∧ (asciiLower c = 'j' ↔ asciiUpper c = 'J') ∧
      (asciiLower c = 'r' ↔ asciiUpper c = 'R') ∧ (asciiLower c = 's' ↔ asciiUpper c = 'S') ∧
      (asciiLower c = 'z' ↔ asciiUpper c = 'Z') := by
    apply forall_ascii; decide +kernel
  induction w with
  | nil => rfl
  | cons c w ih =>
    rw [asciiStr_cons] at h
    obtain ⟨f1, f2, f3, -, -⟩ := facts c h.1
    simp only [List.map_cons, marks, twoWays, ih h.2]
    congr 1
    cases w with
    | nil => simp [f1, f2]
    | cons d w =>
      have hd := h.2 d (by simp)
      obtain ⟨-, -, -, f4, f5⟩ := facts d hd
      simp only [List.map_cons, List.head?_cons, Option.some.injEq, f1, f2, f3, f4, f5]

/-- How many alternatives a rule may have. -/
def few (r : DMSpecRule) : Bool :=
  (r.atStart.length == 1 && r.beforeVowel.length == 1 && r.other.length == 1) ||
  (decide (r.atStart.length ≤ 2) && decide (r.beforeVowel.length ≤ 2) && decide (r.other.length ≤ 2) &&
    (r.pattern.head? == some 'c' || r.pattern.head? == some 'j' || c!"rs".isPrefixOf r.pattern || c!"rz".isPrefixOf r.pattern ||
      (match r.pattern with | x :: _ => !isAscii x | [] => false)))

theorem alternatives_cases (r : DMSpecRule) (prev : Option Char) (t : Str) :
    alternativesAt r prev t = r.atStart ∨ alternativesAt r prev t = r.beforeVowel ∨ alternativesAt r prev t = r.other := by
  unfold alternativesAt
  split
  · exact .inl rfl
  · split
    · split
      · exact .inr (.inl rfl)
      · exact .inr (.inr rfl)
    · exact .inr (.inr rfl)

theorem few_alternatives {r : DMSpecRule} (h : few r = true) (prev : Option Char) {c : Char} {t : Str} (hc : isAscii c = true)
    (hp : r.pattern <+: c :: t) : (alternativesAt r prev (c :: t)).length ≤
      if c = 'c' ∨ c = 'j' ∨ c = 'r' ∧ (t.head? = some 's' ∨ t.head? = some 'z') then 2 else 1 := by
  have hl := alternatives_cases r prev (c :: t)
  unfold few at h
  simp only [Bool.or_eq_true, Bool.and_eq_true, beq_iff_eq, decide_eq_true_eq] at h
  rcases h with ⟨⟨h1, h2⟩, h3⟩ | ⟨⟨⟨h1, h2⟩, h3⟩, h4⟩
  · have : (alternativesAt r prev (c :: t)).length = 1 := by
      rcases hl with e | e | e <;> rw [e] <;> assumption
    rw [this]
    split <;> omega
  · have h2 : (alternativesAt r prev (c :: t)).length ≤ 2 := by
      rcases hl with e | e | e <;> rw [e] <;> assumption
    rw [if_pos]
    · exact h2
    · obtain ⟨z, hz⟩ := hp
      rcases h4 with (((h4 | h4) | h4) | h4) | h4
      · left
        cases hq : r.pattern with
        | nil => rw [hq] at h4; cases h4
        | cons x p => rw [hq] at hz h4; simp at hz h4; rw [← hz.1, h4]
      · right; left
        cases hq : r.pattern with
        | nil => rw [hq] at h4; cases h4
        | cons x p => rw [hq] at hz h4; simp at hz h4; rw [← hz.1, h4]
      · obtain ⟨q, hq⟩ := List.isPrefixOf_iff_prefix.mp h4
        rw [← hq] at hz
        simp at hz
        rw [← hz.1, ← hz.2]; simp
      · obtain ⟨q, hq⟩ := List.isPrefixOf_iff_prefix.mp h4
        rw [← hq] at hz
        simp at hz
        rw [← hz.1, ← hz.2]; simp
      · cases hq : r.pattern with
        | nil => rw [hq] at h4; cases h4
        | cons x p =>
          rw [hq] at hz h4; simp at hz h4; rw [hz.1, hc] at h4; cases h4

theorem best_mem {rules : List DMSpecRule} {t : Str} {r : DMSpecRule} (h : bestRule rules t = some r) :
    r ∈ rules ∧ r.pattern <+: t := by
  have := List.mem_of_find?_eq_some h
  rw [List.mem_filter, List.isPrefixOf_iff_prefix] at this
  exact this

theorem groups_marks {rules : List DMSpecRule} (hr : ∀ r ∈ rules, few r = true) (text : Str) :
    ∀ (prev : Option Char) (skip : Nat), AsciiStr text →
      ((dmGroups rules prev skip text).map fun g => g.1.length).foldr (· * ·) 1 ≤ 2 ^ marks text := by
  induction text with
  | nil => intro prev skip _; simp [dmGroups, marks]
  | cons c t ih =>
    intro prev skip ha
    rw [asciiStr_cons] at ha
    have step : 2 ^ marks t ≤ 2 ^ marks (c :: t) := Nat.pow_le_pow_right (by omega) (by simp [marks])
    cases skip with
    | succ k => exact Nat.le_trans (ih prev k ha.2) step
    | zero =>
      rw [dmGroups]
      split
      · exact Nat.le_trans (ih prev 0 ha.2) step
      · split
        · exact Nat.le_trans (ih _ 0 ha.2) step
        · rename_i r hb
          obtain ⟨h1, h2⟩ := best_mem hb
          have h3 := few_alternatives (hr r h1) prev ha.1 h2
          have h4 := ih (some c) (byteLen r.pattern - 1) ha.2
          simp only [List.map_cons, List.foldr_cons, marks]
          rw [Nat.pow_add]
          refine Nat.mul_le_mul (Nat.le_trans h3 ?_) h4
          split <;> simp

theorem few_default {rules : List DMSpecRule} (hd : Default rules) : ∀ r ∈ rules, few r = true :=
  default_all hd few (by decide +kernel)

/-! ## Double Metaphone -/

open DM in
theorem same_sound (word before after : Str) (c : Char) (hc : c ∉ c!"CGJSWZ") (hl : ¬ (c = 'L' ∧ starts after [c!"L"] = true))
    (ht : ¬ (c = 'T' ∧ starts after [c!"H", c!"TH"] = true))
    (hr : ¬ (c = 'R' ∧ after = [] ∧ ends before [c!"IE"] = true)) :
    (sound word before after c).primary = (sound word before after c).alternate := by
  have same_ite : ∀ {P : Prop} [Decidable P] {x y : Sound}, x.primary = x.alternate → y.primary = y.alternate →
      (if P then x else y).primary = (if P then x else y).alternate := by
    intro P _ x y h1 h2; split <;> assumption
  unfold sound
  split
  all_goals first
    | exact absurd hc (by decide)
    | rfl
    | exact same_ite rfl rfl
    | skip
  · unfold soundD; repeat' refine same_ite ?_ ?_
    all_goals rfl
  · unfold soundL
    rw [if_neg (fun h => hl ⟨rfl, h⟩)]; rfl
  · unfold soundP; repeat' refine same_ite ?_ ?_
    all_goals rfl
  · unfold soundR
    simp only
    rw [if_neg]
    · rfl
    · intro h
      simp only [Bool.and_eq_true, List.isEmpty_iff] at h
      exact hr ⟨rfl, h.1.1.1.1, h.1.1.2⟩
  · unfold soundT
    refine same_ite rfl ?_
    rw [if_neg (fun h => ht ⟨rfl, h⟩)]
    exact same_ite rfl rfl
  · unfold soundX; repeat' refine same_ite ?_ ?_
    all_goals rfl

open DM in
theorem same_sounds (word after : Str) (h : OneReading word) : ∀ (before : Str) (n : Nat), word = before ++ after →
    (soundsFrom word before n after).flatMap Sound.primary = (soundsFrom word before n after).flatMap Sound.alternate := by
  induction after with
  | nil => intro b n _; cases n <;> simp [soundsFrom]
  | cons c a ih =>
    intro b n hw
    have hw' : word = (b ++ [c]) ++ a := by rw [hw]; simp
    cases n with
    | succ n => exact ih _ n hw'
    | zero =>
      simp only [soundsFrom, List.flatMap_cons]
      rw [ih _ _ hw']
      congr 1
      obtain ⟨h1, h2, h3, h4⟩ := h
      refine same_sound _ _ _ _ (h1 c (by rw [hw]; simp)) ?_ ?_ ?_
      · rintro ⟨rfl, hs⟩
        simp only [starts, List.any_cons, List.any_nil, Bool.or_false] at hs
        obtain ⟨z, rfl⟩ := List.isPrefixOf_iff_prefix.mp hs
        exact h2 ⟨b, z, by rw [hw]; simp⟩
      · rintro ⟨rfl, hs⟩
        simp only [starts, List.any_cons, List.any_nil, Bool.or_false, Bool.or_eq_true] at hs
        rcases hs with hs | hs
        · obtain ⟨z, rfl⟩ := List.isPrefixOf_iff_prefix.mp hs
          exact h3 ⟨b, z, by rw [hw]; simp⟩
        · obtain ⟨z, rfl⟩ := List.isPrefixOf_iff_prefix.mp hs
          exact h3 ⟨b ++ c!"T", z, by rw [hw]; simp⟩
      · rintro ⟨rfl, rfl, hs⟩
        simp only [ends, List.any_cons, List.any_nil, Bool.or_false] at hs
        obtain ⟨z, rfl⟩ := List.isSuffixOf_iff_suffix.mp hs
        exact h4 ⟨z, by rw [hw]; simp⟩

end OneCodeProofs
open OneCodeProofs

/-- C104: Daitch-Mokotoff Soundex with the embedded rules returns at most 2^k codes for an ASCII name with k letters that
can be coded in two ways. -/
theorem dm_few_codes (U : Unicode) (s : Str) (hs : AsciiStr s) :
    ∃ codes, defaultEncoder.innerSoundex U s true = .ok codes ∧ 1 ≤ codes.length ∧ codes.length ≤ 2 ^ twoWays (unspaced s) := by
  obtain ⟨rules, hd, hc⟩ := default_codes
  refine ⟨_, hc U s, ?_, ?_⟩
  · have hw : ∃ w, defaultEncoder.soundex U s = .ok w := by
      unfold DaitchMokotoff.soundex
      rw [hc U s]
      exact ⟨_, rfl⟩
    obtain ⟨w, hw⟩ := hw
    obtain ⟨c1, o1, -, -, h1, -⟩ := dm_encode_first U _ _ dm_default_builds s w hw
    rw [← Except.ok.inj ((hc U s).symm.trans h1).symm, List.length_cons]
    omega
  · refine Nat.le_trans (dmCodes_length _ _) ?_
    have ha : AsciiStr (s.filter fun c => !isAsciiWs c) := fun c h => hs c (List.mem_filter.mp h).1
    rw [clean_ascii U hs]
    unfold unspaced
    rw [← marks_upper _ ha]
    refine groups_marks (few_default hd) _ _ _ ?_
    have hl : ∀ c, isAscii c = true → isAscii (asciiLower c) = true := by apply forall_ascii; decide +kernel
    intro c hc
    obtain ⟨d, hd', rfl⟩ := List.mem_map.mp hc
    exact hl d (ha d hd')

/-- C104: without such letters there is one code, and `soundex` returns what `encode` returns. -/
theorem dm_one_code (U : Unicode) (s : Str) (hs : AsciiStr s) (h : twoWays (unspaced s) = 0) :
    ∃ code, defaultEncoder.innerSoundex U s true = .ok [code] ∧ defaultEncoder.soundex U s = .ok code ∧
      defaultEncoder.encode U s = .ok code := by
  obtain ⟨codes, h1, h2, h3⟩ := dm_few_codes U s hs
  rw [h] at h3
  obtain ⟨code, rfl⟩ : ∃ code, codes = [code] := by
    match codes, h2, h3 with
    | [c], _, _ => exact ⟨c, rfl⟩
  have e : defaultEncoder.soundex U s = .ok code := by
    unfold DaitchMokotoff.soundex
    rw [h1]; simp [bind, Except.bind, pure, Except.pure]
  refine ⟨code, h1, e, ?_⟩
  obtain ⟨c1, o1, -, h4, h5, -⟩ := dm_encode_first U _ _ dm_default_builds s code e
  rw [h4, (List.cons.inj (Except.ok.inj (h1.symm.trans h5))).1]

/-- C104: Double Metaphone: a word that is read in one way has the same primary and alternate code. -/
theorem double_metaphone_one_code (U : Unicode) (max : Option Nat) (hmax : Allocatable max) (s : Str) (hs : AsciiStr s)
    (h : OneReading ((U.trim s).map asciiUpper)) :
    (DoubleMetaphone.new max).encodeAlternate U s = (DoubleMetaphone.new max).encode U s := by
  obtain ⟨-, h2, h3⟩ := double_metaphone_spec U max s hs hmax
  rw [h2, h3]
  unfold DM.primary DM.alternate DM.sounds
  rw [same_sounds _ _ h [] _ rfl]

/-- C104: each of the conditions is needed. -/
theorem one_code_needed :
    defaultEncoder.soundex .latin1 c!"Rosochowaciec" = .ok c!"944744|944745|944754|944755|945744|945745|945754|945755" ∧
    twoWays (unspaced c!"Rosochowaciec") = 3 ∧
    defaultEncoder.soundex .latin1 c!"Benjamin" = .ok c!"766600|764660" ∧
    defaultEncoder.soundex .latin1 c!"Ers" = .ok c!"040000|094000" ∧
    defaultEncoder.soundex .latin1 c!"Er z" = .ok c!"040000|094000" ∧
    (∀ w ∈ [c!"Acha", c!"Age", c!"Ja", c!"Sma", c!"Wa", c!"Azzo", c!"Illo", c!"Tha", c!"Babier"],
      DoubleMetaphone.default.encodeAlternate .latin1 w ≠ DoubleMetaphone.default.encode .latin1 w) := by decide +kernel

/-- Names with one code. -/
example : twoWays (unspaced c!"Auerbach Moskowitz") = 1 ∧ twoWays (unspaced c!"Peters Rosen") = 1 ∧
    twoWays (unspaced c!"Moskowitz Lewinsky") = 0 ∧ AsciiStr c!"Moskowitz" := by decide +kernel

example : OneReading ((Unicode.latin1.trim c!"Hilbert Moran").map asciiUpper) ∧ Allocatable (some 4) ∧
    (DoubleMetaphone.new (some 4)).encode .latin1 c!"Hilbert" = .ok c!"HLPR" := by
  refine ⟨?_, fun n h => by cases h; decide, by decide +kernel⟩
  unfold OneReading
  decide +kernel

end Verif.Props
