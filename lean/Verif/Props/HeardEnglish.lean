import Verif.Props.BeginningNysiis
import Verif.Props.CaverphoneSpec
import Verif.Props.Metaphone
/-!
# C105: letters that are always heard (Metaphone, NYSIIS, Caverphone)
-/
namespace Verif.Props
open Verif.Spec
set_option linter.unusedSimpArgs false

namespace HeardProofs

/-- The first letter of a text that has a property. -/
theorem first_such (H w : Str) (h : ∃ c ∈ w, c ∈ H) : ∃ a c r, w = a ++ c :: r ∧ c ∈ H ∧ ∀ x ∈ a, x ∉ H := by
  induction w with
  | nil => obtain ⟨c, hc, _⟩ := h; cases hc
  | cons x w ih =>
    by_cases hx : x ∈ H
    · exact ⟨[], x, w, rfl, hx, by simp⟩
    · obtain ⟨c, hc, hH⟩ := h
      obtain ⟨a, d, r, h1, h2, h3⟩ := ih ⟨c, (List.mem_cons.mp hc).resolve_left (by rintro rfl; exact hx hH), hH⟩
      refine ⟨x :: a, d, r, by rw [h1]; rfl, h2, fun y hy => ?_⟩
      rcases List.mem_cons.mp hy with rfl | hy
      · exact hx
      · exact h3 y hy

/-! ## Metaphone -/

/-- Consonants that Metaphone never ignores. -/
def metaHeard : Str := c!"BCDFJKLMNPQRSTVXZ"

theorem metaCodes_suffix (a x : Str) : ∀ b, ∃ y, metaCodes b (a ++ x) = y ++ metaCodes (a.reverse ++ b) x := by
  induction a with
  | nil => exact fun b => ⟨[], by simp⟩
  | cons c a ih =>
    intro b
    obtain ⟨y, hy⟩ := ih (c :: b)
    rw [List.cons_append, metaCodes, hy]
    rw [List.reverse_cons, List.append_assoc, List.singleton_append]
    exact ⟨_, (List.append_assoc _ _ _).symm⟩

theorem metaCodes_heard (b : Str) (c : Char) (r : Str) (hc : c ∈ metaHeard) (hb : ∀ x ∈ b, x ∉ metaHeard) :
    metaCodes b (c :: r) ≠ [] := by
  have no : ∀ x ∈ metaHeard, ¬ [x] <+: b := by
    intro x hx h
    exact hb x (h.subset (by simp)) hx
  have nM := no 'M' (by decide)
  have nS := no 'S' (by decide)
  have nC := no 'C' (by decide)
  have ha : metaAbsorbed b c r = false := by
    have : ∀ c ∈ metaHeard, (c == 'G') = false ∧ c!"EIY".contains c = false := by decide
    unfold metaAbsorbed
    simp only [(this c hc).1, (this c hc).2, Bool.false_and, Bool.or_false]
  rw [metaCodes, if_neg (by rw [ha]; simp; exact fun _ => no c hc)]
  by_cases hT : c = 'T' ∧ c!"CH" <+: r
  · obtain ⟨rfl, t, rfl⟩ := hT
    have : metaCodes ('T' :: b) (c!"CH" ++ t) ≠ [] := by
      simp only [List.cons_append, List.nil_append]
      rw [metaCodes]
      simp [metaAbsorbed, metaLetter, startsIn]
    intro h
    exact this (List.append_eq_nil_iff.mp h).2
  · intro h
    have h := (List.append_eq_nil_iff.mp h).1
    revert h
    simp only [metaHeard, List.mem_cons, List.not_mem_nil, or_false] at hc
    rcases hc with rfl | rfl | rfl | rfl | rfl | rfl | rfl | rfl | rfl | rfl | rfl | rfl | rfl | rfl | rfl | rfl | rfl <;>
      simp (decide := true) only [metaLetter, if_true, if_false, nM, nS, nC, false_and, and_false] <;>
      (try simp only [true_and] at hT) <;>
      (try simp only [hT, if_false]) <;>
      (repeat' split) <;> simp

end HeardProofs

/-- C105. Metaphone: a name with one of the letters B C D F J K L M N P Q R S T V X Z, or with a vowel as the first
character, has a code that is not empty. -/
theorem metaphone_heard (U : Unicode) (s : Str) (hs : AsciiStr s)
    (h : (∃ c ∈ s, asciiUpper c ∈ c!"BCDFJKLMNPQRSTVXZ") ∨ ∃ c r, s = c :: r ∧ asciiUpper c ∈ c!"AEIOU") :
    ∃ code, (Metaphone.new none).encode U s = .ok code ∧ code ≠ [] := by
  refine ⟨_, (metaphone_eq_spec U s hs).1, ?_⟩
  unfold metaphone
  split
  · intro h0
    rename_i h1
    rw [h0] at h1; cases h1
  have sub : ∀ (w : Str), (∃ c ∈ w, c ∈ HeardProofs.metaHeard) → metaCodes [] w ≠ [] := by
    intro w hw
    obtain ⟨a, c, r, rfl, hc, ha⟩ := HeardProofs.first_such _ _ hw
    obtain ⟨y, hy⟩ := HeardProofs.metaCodes_suffix a (c :: r) []
    rw [hy]
    intro h0
    refine HeardProofs.metaCodes_heard _ c r hc ?_ (List.append_eq_nil_iff.mp h0).2
    intro x hx
    simp at hx
    exact ha x hx
  generalize hw : s.map asciiUpper = w
  rcases h with ⟨c, hc, hH⟩ | ⟨c, r, rfl, hv⟩
  · have hcw : asciiUpper c ∈ w := by rw [← hw]; exact List.mem_map_of_mem hc
    generalize asciiUpper c = d at *
    apply sub
    unfold metaInitial
    split
    · rename_i hp
      rcases hp with ⟨t, rfl⟩ | ⟨t, rfl⟩ | ⟨t, rfl⟩ | ⟨t, rfl⟩ | ⟨t, rfl⟩
      · exact ⟨'N', by simp, by decide⟩
      · exact ⟨'N', by simp, by decide⟩
      · exact ⟨'N', by simp, by decide⟩
      · refine ⟨d, ?_, hH⟩
        simp only [List.cons_append, List.nil_append, List.mem_cons] at hcw ⊢
        rcases hcw with rfl | hcw
        · exact absurd hH (by decide)
        · simpa using hcw
      · exact ⟨'R', by simp, by decide⟩
    · split
      · rename_i hp
        obtain ⟨t, rfl⟩ := hp
        refine ⟨d, ?_, hH⟩
        simp only [List.cons_append, List.nil_append, List.mem_cons] at hcw ⊢
        rcases hcw with rfl | rfl | hcw
        · exact absurd hH (by decide)
        · exact absurd hH (by decide)
        · simp [hcw]
      · split
        · exact ⟨'S', by simp, by decide⟩
        · exact ⟨d, hcw, hH⟩
  · have v : ∀ (x : Char) (t : Str), x ∈ c!"AEIOU" → metaCodes [] (x :: t) ≠ [] := by
      intro x t hx
      rw [metaCodes]
      simp only [List.mem_cons, List.not_mem_nil, or_false] at hx
      rcases hx with rfl | rfl | rfl | rfl | rfl <;> simp [metaAbsorbed, metaLetter]
    rw [List.map_cons] at hw
    rw [← hw]
    generalize asciiUpper c = x at *
    unfold metaInitial
    simp only [List.mem_cons, List.not_mem_nil, or_false] at hv
    split
    · rename_i hp
      rcases hp with hp | hp | hp | hp | hp <;> simp only [List.cons_prefix_cons] at hp
      · rcases hv with rfl | rfl | rfl | rfl | rfl <;> exact absurd hp.1 (by decide)
      · rcases hv with rfl | rfl | rfl | rfl | rfl <;> exact absurd hp.1 (by decide)
      · rcases hv with rfl | rfl | rfl | rfl | rfl <;> exact absurd hp.1 (by decide)
      · obtain ⟨t, ht⟩ := hp.2
        rw [List.drop_succ_cons, List.drop_zero, ← ht]
        exact v 'E' t (by decide)
      · rcases hv with rfl | rfl | rfl | rfl | rfl <;> exact absurd hp.1 (by decide)
    · split
      · rename_i hp
        simp only [List.cons_prefix_cons] at hp
        rcases hv with rfl | rfl | rfl | rfl | rfl <;> exact absurd hp.1 (by decide)
      · split
        · rename_i hp
          simp only [List.cons_prefix_cons] at hp
          rcases hv with rfl | rfl | rfl | rfl | rfl <;> exact absurd hp.1 (by decide)
        · exact v x _ (by simpa using hv)

namespace HeardProofs

/-! ## NYSIIS -/

/-- Letters that NYSIIS never ignores. -/
def nysiisHeard : Str := c!"BDFGJKLMNPQRTVXY"

theorem finish_blank (key : Str) (h : nysiisFinish key = []) : key = [] ∨ key = c!"AS" := by
  unfold nysiisFinish at h
  split at h
  · exact .inl h
  · rename_i h1
    simp only at h
    have key2 : ∀ k : Str, (if c!"A" <:+ (if c!"AY" <:+ k ∧ k ≠ c!"AY" then k.dropLast.dropLast ++ c!"Y" else k)
        then (if c!"AY" <:+ k ∧ k ≠ c!"AY" then k.dropLast.dropLast ++ c!"Y" else k).dropLast
        else (if c!"AY" <:+ k ∧ k ≠ c!"AY" then k.dropLast.dropLast ++ c!"Y" else k)) = [] → k = [] ∨ k = c!"A" := by
      intro k hk
      by_cases hy : c!"AY" <:+ k ∧ k ≠ c!"AY"
      · rw [if_pos hy] at hk
        exfalso
        split at hk
        · rename_i hA
          have := hA.getLast (by simp)
          simp at this
        · simp at hk
      · rw [if_neg hy] at hk
        split at hk
        · rename_i hA
          obtain ⟨t, rfl⟩ := hA
          simp at hk
          rw [hk]; exact .inr rfl
        · exact .inl hk
    by_cases hS : c!"S" <:+ key
    · rw [if_pos hS] at h
      obtain ⟨t, rfl⟩ := hS
      rcases key2 _ h with h | h <;> simp at h
      · rw [h] at h1; exact absurd (by decide) h1
      · rw [h]; exact .inr rfl
    · rw [if_neg hS] at h
      rcases key2 _ h with h | h
      · exact .inl h
      · rw [h] at h1; exact absurd (by decide) h1

theorem letter_heard (prev c : Char) (r : Str) (hc : c ∈ nysiisHeard) : (nysiisLetter prev c r).1 ∉ c!"AS" := by
  have facts : ∀ c ∈ nysiisHeard, nysiisVowel c = false ∧ c ≠ 'E' ∧ c ≠ 'Z' ∧ c ≠ 'S' ∧ c ≠ 'H' ∧ c ≠ 'W' ∧ c ∉ c!"AS" := by
    decide
  obtain ⟨h1, h2, h3, h4, h5, h6, h7⟩ := facts c hc
  unfold nysiisLetter
  rw [if_neg (by simp [h2]), if_neg (by simp [h1])]
  by_cases g1 : c = 'Q'
  · rw [if_pos g1]; simp
  rw [if_neg g1, if_neg h3]
  by_cases g2 : c = 'M'
  · rw [if_pos g2]; simp
  rw [if_neg g2]
  by_cases g3 : c = 'K' ∧ c!"N" <+: r
  · rw [if_pos g3]; simp
  rw [if_neg g3]
  by_cases g4 : c = 'K'
  · rw [if_pos g4]; simp
  rw [if_neg g4, if_neg (by simp [h4])]
  by_cases g5 : c = 'P' ∧ c!"H" <+: r
  · rw [if_pos g5]; simp
  rw [if_neg g5, if_neg h5, if_neg (by simp [h6])]
  exact h7

theorem letter_rest_length (prev c : Char) (r : Str) : (nysiisLetter prev c r).2.length = r.length := by
  unfold nysiisLetter
  split
  · rename_i hp
    obtain ⟨_, t, rfl⟩ := hp
    simp
  split
  · rfl
  split
  · rfl
  split
  · rfl
  split
  · rfl
  split
  · rfl
  split
  · rfl
  split
  · rename_i hp
    obtain ⟨_, t, rfl⟩ := hp
    simp
  split
  · rename_i hp
    obtain ⟨_, t, rfl⟩ := hp
    simp
  split
  · split <;> rfl
  split <;> rfl

theorem rest_heard (prev c : Char) (r : Str) (x : Char) (hx : x ∈ nysiisHeard) (h : x ∈ r) :
    ∃ y ∈ (nysiisLetter prev c r).2, y ∈ nysiisHeard := by
  have same : ∃ y ∈ r, y ∈ nysiisHeard := ⟨x, h, hx⟩
  have three : (nysiisLetter prev c r).2 = r ∨ 'F' ∈ (nysiisLetter prev c r).2 ∨
      c!"CH" <+: r ∧ (nysiisLetter prev c r).2 = c!"SS" ++ r.drop 2 := by
    unfold nysiisLetter
    by_cases g0 : c = 'E' ∧ c!"V" <+: r
    · simp only [if_pos g0]; exact .inr (.inl (by simp))
    simp only [if_neg g0]
    by_cases g1 : nysiisVowel c = true
    · simp only [if_pos g1]; exact .inl trivial
    simp only [if_neg g1]
    by_cases g2 : c = 'Q'
    · simp only [if_pos g2]; exact .inl trivial
    simp only [if_neg g2]
    by_cases g3 : c = 'Z'
    · simp only [if_pos g3]; exact .inl trivial
    simp only [if_neg g3]
    by_cases g4 : c = 'M'
    · simp only [if_pos g4]; exact .inl trivial
    simp only [if_neg g4]
    by_cases g5 : c = 'K' ∧ c!"N" <+: r
    · simp only [if_pos g5]; exact .inl trivial
    simp only [if_neg g5]
    by_cases g6 : c = 'K'
    · simp only [if_pos g6]; exact .inl trivial
    simp only [if_neg g6]
    by_cases g7 : c = 'S' ∧ c!"CH" <+: r
    · simp only [if_pos g7]; exact .inr (.inr ⟨g7.2, trivial⟩)
    simp only [if_neg g7]
    by_cases g8 : c = 'P' ∧ c!"H" <+: r
    · simp only [if_pos g8]; exact .inr (.inl (by simp))
    simp only [if_neg g8]
    by_cases g9 : c = 'H'
    · simp only [if_pos g9]
      by_cases gg : nysiisVowel prev = true ∧ (r.take 1).any nysiisVowel = true
      · simp only [if_pos gg]; exact .inl trivial
      · simp only [if_neg gg]; exact .inl trivial
    simp only [if_neg g9]
    by_cases g10 : c = 'W' ∧ nysiisVowel prev = true
    · simp only [if_pos g10]; exact .inl trivial
    simp only [if_neg g10]
    exact .inl trivial
  rcases three with e | e | ⟨⟨t, rfl⟩, e⟩
  · rw [e]; exact same
  · exact ⟨'F', e, by decide⟩
  · rw [e]
    refine ⟨x, ?_, hx⟩
    simp only [List.cons_append, List.nil_append, List.mem_cons] at h
    rcases h with rfl | rfl | h
    · exact absurd hx (by decide)
    · exact absurd hx (by decide)
    · simp [h]

theorem letters_heard (n : Nat) : ∀ (prev : Char) (r : Str), r.length ≤ n → (∃ y ∈ r, y ∈ nysiisHeard) →
    ∃ y ∈ nysiisLetters n prev r, y ∉ c!"AS" := by
  induction n with
  | zero => intro prev r hl ⟨y, hy, _⟩; cases r with
    | nil => cases hy
    | cons a b => simp at hl
  | succ n ih =>
    intro prev r hl ⟨y, hy, hH⟩
    cases r with
    | nil => cases hy
    | cons c r =>
      rw [nysiisLetters]
      rcases List.mem_cons.mp hy with rfl | hy
      · exact ⟨_, List.mem_cons_self, letter_heard prev y r hH⟩
      · obtain ⟨z, hz, hzH⟩ := ih (nysiisLetter prev c r).1 (nysiisLetter prev c r).2
          (by rw [letter_rest_length]; simpa using hl) (rest_heard prev c r y hH hy)
        exact ⟨z, List.mem_cons_of_mem _ hz, hzH⟩

/-- The end rules keep the first letter, or give Y or D. -/
theorem end_heard (w : Str) : nysiisEnd w = w ∨ ∃ x ∈ c!"YD", nysiisEnd w = w.dropLast.dropLast ++ [x] := by
  unfold nysiisEnd
  split
  · exact .inr ⟨'Y', by simp, rfl⟩
  · split
    · exact .inr ⟨'D', by simp, rfl⟩
    · exact .inl rfl

theorem end_head (w : Str) (h : ∀ r, w ≠ 'A' :: r) : ∀ r, nysiisEnd w ≠ 'A' :: r := by
  intro r hr
  rcases end_heard w with e | ⟨x, hx, e⟩ <;> rw [e] at hr
  · exact h r hr
  · match w with
    | [] => simp at hr; rw [hr.1] at hx; exact absurd hx (by decide)
    | [_] => simp at hr; rw [hr.1] at hx; exact absurd hx (by decide)
    | [_, _] => simp at hr; rw [hr.1] at hx; exact absurd hx (by decide)
    | a :: b :: c :: t =>
      simp only [List.dropLast, List.cons_append] at hr
      injection hr with h1 h2
      exact h _ (by rw [h1])

theorem start_head (w : Str) (h : ∀ r, w ≠ 'A' :: r) : ∀ r, nysiisStart w ≠ 'A' :: r := by
  intro r hr
  unfold nysiisStart at hr
  split at hr
  · simp at hr
  split at hr
  · simp at hr
  split at hr
  · simp at hr
  split at hr
  · simp at hr
  split at hr
  · simp at hr
  · exact h r hr

theorem start_A (r : Str) : nysiisStart ('A' :: r) = 'A' :: r := by
  unfold nysiisStart
  simp

theorem raw_head (w : Str) (h : ∀ r, nysiisEnd w ≠ 'A' :: r) : ∀ r, LocalProofs.raw w ≠ 'A' :: r := by
  intro r hr
  unfold LocalProofs.raw at hr
  split at hr
  · cases hr
  · rename_i c rest e
    injection hr with h1 h2
    exact h rest (by rw [e, h1])

theorem raw_ne_nil (w : Str) (h : w ≠ []) : LocalProofs.raw w ≠ [] := by
  have hne := NysiisProofs.nysiisEnd_ne_nil h
  unfold LocalProofs.raw
  split
  · rename_i e; exact absurd e hne
  · simp

theorem raw_heard (w : Str) (h : ∃ y ∈ w, y ∈ nysiisHeard) : ∃ y ∈ LocalProofs.raw w, y ∉ c!"AS" := by
  obtain ⟨y, hy, hH⟩ : ∃ y ∈ nysiisEnd w, y ∈ nysiisHeard := by
    rcases end_heard w with e | ⟨x, hx, e⟩ <;> rw [e]
    · exact h
    · refine ⟨x, by simp, ?_⟩
      simp only [List.mem_cons, List.not_mem_nil, or_false] at hx
      rcases hx with rfl | rfl <;> decide
  unfold LocalProofs.raw
  cases hw : nysiisEnd w with
  | nil => rw [hw] at hy; cases hy
  | cons c rest =>
    rw [hw] at hy
    rcases List.mem_cons.mp hy with rfl | hy
    · have : ∀ c ∈ nysiisHeard, c ∉ c!"AS" := by decide
      exact ⟨y, List.mem_cons_self, this y hH⟩
    · obtain ⟨z, h1, h2⟩ := letters_heard rest.length c rest (Nat.le_refl _) ⟨y, hy, hH⟩
      exact ⟨z, List.mem_cons_of_mem _ h1, h2⟩

end HeardProofs

/-- C105. NYSIIS: a name with one of the letters B D F G J K L M N P Q R T V X Y, or with a first letter other than A, has a
code that is not empty. -/
theorem nysiis_heard (U : Unicode) (s : Str) (hs : AsciiStr s)
    (h : (∃ c ∈ asciiLetters s, c ∈ c!"BDFGJKLMNPQRTVXY") ∨ ∃ c r, asciiLetters s = c :: r ∧ c ≠ 'A') :
    ∃ code, (Nysiis.new false).encode U s = .ok code ∧ code ≠ [] := by
  refine ⟨_, (nysiis_eq_spec U s).1, fun h0 => ?_⟩
  rw [LocalProofs.nysiis_raw, letters_ascii U hs] at h0
  generalize asciiLetters s = w at *
  have first : ∀ v, (∀ r, nysiisStart v ≠ 'A' :: r) → v ≠ [] → nysiisFinish (collapse (LocalProofs.raw (nysiisStart v))) ≠ [] := by
    intro v hv hne h0
    have n1 := HeardProofs.raw_ne_nil _ (NysiisProofs.nysiisStart_ne_nil hne)
    have n2 := HeardProofs.raw_head _ (HeardProofs.end_head _ hv)
    cases hr : LocalProofs.raw (nysiisStart v) with
    | nil => exact n1 hr
    | cons a t =>
      rw [hr] at h0
      obtain ⟨t', ht⟩ := collapse_head a t
      rw [ht] at h0
      rcases HeardProofs.finish_blank _ h0 with h0 | h0
      · cases h0
      · injection h0 with h1 h2
        exact n2 t (by rw [hr, h1])
  by_cases hA : ∃ r, w = 'A' :: r
  · obtain ⟨r, rfl⟩ := hA
    rcases h with h | ⟨c, r', h1, h2⟩
    · rw [HeardProofs.start_A] at h0
      obtain ⟨y, hy, hn⟩ := HeardProofs.raw_heard _ h
      have hy' := mem_collapse.mpr hy
      rcases HeardProofs.finish_blank _ h0 with h0 | h0 <;> rw [h0] at hy'
      · cases hy'
      · exact hn hy'
    · injection h1 with h1 _
      exact h2 h1.symm
  · refine first w (HeardProofs.start_head w fun r hr => hA ⟨r, hr⟩) ?_ h0
    rintro rfl
    rcases h with ⟨c, hc, _⟩ | ⟨c, r, h, _⟩
    · cases hc
    · cases h

namespace HeardProofs

/-! ## Caverphone -/

open Spec.Caverphone in
theorem mem_once (l : List Sound) (x : Sound) : x ∈ once l ↔ x ∈ l := by
  induction l with
  | nil => simp [once]
  | cons a l ih =>
    cases l with
    | nil => simp [once]
    | cons b l =>
      rw [once]
      split
      · rename_i h
        rw [ih, ← h.1]
        simp
      · simp only [List.mem_cons, ih]

open Spec.Caverphone in
theorem soundsFrom_append (v : Version) (a x : Str) : ∀ b, ∃ y, soundsFrom v b (a ++ x) = y ++ soundsFrom v (b ++ a) x := by
  induction a with
  | nil => exact fun b => ⟨[], by simp⟩
  | cons c a ih =>
    intro b
    obtain ⟨y, hy⟩ := ih (b ++ [c])
    rw [List.cons_append, soundsFrom, hy]
    exact ⟨sound v b (a ++ x) c :: y, by simp⟩

open Spec.Caverphone in
/-- Consonants that Caverphone never ignores. -/
theorem consonant_heard (v : Version) (w : Str) (h : ∃ c ∈ w, c ∈ c!"bcfkmnpqstvxz") :
    ∃ l, Sound.letter l ∈ soundsFrom v [] w := by
  obtain ⟨a, c, r, rfl, hc, ha⟩ := first_such _ _ h
  obtain ⟨y, hy⟩ := soundsFrom_append v a (c :: r) []
  rw [hy, List.nil_append]
  suffices hh : ∃ l, Sound.letter l ∈ soundsFrom v a (c :: r) by
    obtain ⟨l, hl⟩ := hh; exact ⟨l, List.mem_append_right _ hl⟩
  rw [soundsFrom]
  by_cases hT : c = 't' ∧ c!"ch" <+: r
  · obtain ⟨rfl, t, rfl⟩ := hT
    refine ⟨'K', ?_⟩
    simp [soundsFrom, sound, starts]
  by_cases hC : c = 'c' ∧ c!"q" <+: r
  · obtain ⟨rfl, t, rfl⟩ := hC
    refine ⟨'K', ?_⟩
    simp [soundsFrom, sound, starts]
  suffices hh : ∃ l, sound v a r c = .letter l by
    obtain ⟨l, hl⟩ := hh; exact ⟨l, by rw [hl]; simp⟩
  have hM : a.getLast? ≠ some 'm' := by
    intro hm
    exact ha 'm' (List.mem_of_getLast? hm) (by decide)
  simp only [List.mem_cons, List.not_mem_nil, or_false] at hc
  rcases hc with rfl | rfl | rfl | rfl | rfl | rfl | rfl | rfl | rfl | rfl | rfl | rfl | rfl <;>
    simp only [sound, hM, and_false, if_false, true_and, false_and] at hT hC ⊢
  all_goals first | exact ⟨_, rfl⟩ | skip
  · rw [if_neg (by simpa [starts] using hC)]
    split <;> exact ⟨_, rfl⟩
  · split <;> exact ⟨_, rfl⟩
  · rw [if_neg (by simpa [starts] using hT)]
    split <;> exact ⟨_, rfl⟩

open Spec.Caverphone in
theorem code1_heard (w : Str) (h : ∃ c ∈ w, c ∈ c!"bcfkmnpqstvxz") : code .v1 w ≠ [] := by
  obtain ⟨l, hl⟩ := consonant_heard .v1 w h
  intro h0
  rw [code, List.flatMap_eq_nil_iff] at h0
  have := h0 _ ((mem_once _ _).mpr hl)
  simp [written] at this

open Spec.Caverphone in
theorem code2_heard (w : Str) (h : ∃ c ∈ w, c ∈ c!"abcfijkmnopqstuvxyz") : code .v2 w ≠ [] := by
  unfold code
  simp only
  have hw : ∃ c ∈ (if w.getLast? = some 'e' then w.dropLast else w), c ∈ c!"abcfijkmnopqstuvxyz" := by
    split
    · rename_i he
      obtain ⟨c, hc, hH⟩ := h
      refine ⟨c, ?_, hH⟩
      obtain ⟨t, rfl⟩ := List.getLast?_eq_some_iff.mp he
      rw [List.dropLast_concat]
      rcases List.mem_append.mp hc with hc | hc
      · exact hc
      · simp at hc; subst hc; exact absurd hH (by decide)
    · exact h
  generalize (if w.getLast? = some 'e' then w.dropLast else w) = u at *
  intro h0
  obtain ⟨h1, h2⟩ := List.append_eq_nil_iff.mp h0
  rw [List.flatMap_eq_nil_iff] at h1
  have none : ∀ l, Sound.letter l ∉ soundsFrom .v2 [] u := by
    intro l hl
    have := h1 (.letter l) (by simp [List.mem_filter, mem_once, hl])
    simp [written] at this
  obtain ⟨c, hc, hH⟩ := hw
  by_cases hk : c ∈ c!"bcfkmnpqstvxz"
  · obtain ⟨l, hl⟩ := consonant_heard .v2 u ⟨c, hc, hk⟩
    exact none l hl
  · have hv : c ∈ c!"aijouy" := by
      simp only [List.mem_cons, List.not_mem_nil, or_false] at hH hk ⊢
      grind
    obtain ⟨a, r, rfl⟩ := List.append_of_mem hc
    obtain ⟨y, hy⟩ := soundsFrom_append .v2 a (c :: r) []
    have hm : sound .v2 a r c ∈ soundsFrom .v2 [] (a ++ c :: r) := by
      rw [hy, soundsFrom]; simp
    have hs : sound .v2 a r c = .vowel := by
      have two : (∃ l, sound .v2 a r c = .letter l) ∨ sound .v2 a r c = .vowel := by
        simp only [List.mem_cons, List.not_mem_nil, or_false] at hv
        rcases hv with rfl | rfl | rfl | rfl | rfl | rfl <;> simp only [sound, soundY] <;> (repeat' split) <;> simp
      rcases two with ⟨l, hl⟩ | h
      · rw [hl] at hm; exact absurd hm (none l)
      · exact h
    rw [hs] at hm
    have hf : Sound.vowel ∈ (once (soundsFrom .v2 [] (a ++ c :: r))).filter (· ≠ .silent) := by
      simp [List.mem_filter, mem_once, hm]
    have hall : ∀ x ∈ (once (soundsFrom .v2 [] (a ++ c :: r))).filter (· ≠ .silent), x = .vowel := by
      intro x hx
      obtain ⟨hx1, hx2⟩ := List.mem_filter.mp hx
      rw [mem_once] at hx1
      cases x with
      | silent => simp at hx2
      | vowel => rfl
      | letter l => exact absurd hx1 (none l)
    have hlast : ((once (soundsFrom .v2 [] (a ++ c :: r))).filter (· ≠ .silent)).getLast? = some .vowel := by
      cases hg : ((once (soundsFrom .v2 [] (a ++ c :: r))).filter (· ≠ .silent)).getLast? with
      | none => rw [List.getLast?_eq_none_iff] at hg; rw [hg] at hf; cases hf
      | some x => rw [hall x (List.mem_of_getLast? hg)]
    rw [hlast] at h2
    simp at h2

theorem fill_blank (n : Nat) (code : Str) (hn : 1 ≤ n) (hc : code ⊆ c!"AFKLMNPRSTWY") (h : code ≠ []) :
    cutOrFill n code ≠ List.replicate n '1' := by
  obtain ⟨m, rfl⟩ : ∃ m, n = m + 1 := ⟨n - 1, by omega⟩
  cases code with
  | nil => exact absurd rfl h
  | cons c t =>
    unfold cutOrFill
    simp only [List.cons_append, List.take_succ_cons, List.replicate_succ]
    intro h0
    injection h0 with h1 _
    have := hc (List.mem_cons_self)
    rw [h1] at this
    exact absurd this (by decide)

end HeardProofs

/-- C105. Caverphone: a name with one of the letters B C F K M N P Q S T V X Z — for Caverphone 2 also one of A I J O U Y —
has a code that is not filled with ones only. -/
theorem caverphone_heard (U : Unicode) (s : Str) (hs : AsciiStr s) :
    ∃ one two, Caverphone1.encode U s = .ok one ∧ Caverphone2.encode U s = .ok two ∧
      ((∃ c ∈ asciiLetters s, c ∈ c!"BCFKMNPQSTVXZ") → one ≠ c!"111111") ∧
      ((∃ c ∈ asciiLetters s, c ∈ c!"ABCFIJKMNOPQSTUVXYZ") → two ≠ c!"1111111111") := by
  have e : (U.strLower s).filter U.isLowercase = (asciiLetters s).map asciiLower := CaverphoneProofs.clean_ascii U hs
  have a1 := CaverphoneProofs.body1_alphabet U hs
  have a2 := CaverphoneProofs.body2_alphabet U hs
  rw [CavSpec.body1, e] at a1
  rw [CavSpec.body2, e] at a2
  obtain ⟨h1, h2⟩ := caverphone_spec_ascii U s hs
  have l1 : ∀ c ∈ c!"BCFKMNPQSTVXZ", asciiLower c ∈ c!"bcfkmnpqstvxz" := by decide
  have l2 : ∀ c ∈ c!"ABCFIJKMNOPQSTUVXYZ", asciiLower c ∈ c!"abcfijkmnopqstuvxyz" := by decide
  refine ⟨_, _, h1, h2, ?_, ?_⟩
  · rintro ⟨c, hc, hH⟩ h0
    exact HeardProofs.fill_blank 6 _ (by omega) a1
      (HeardProofs.code1_heard _ ⟨_, List.mem_map_of_mem hc, l1 c hH⟩) h0
  · rintro ⟨c, hc, hH⟩ h0
    exact HeardProofs.fill_blank 10 _ (by omega) a2
      (HeardProofs.code2_heard _ ⟨_, List.mem_map_of_mem hc, l2 c hH⟩) h0

end Verif.Props
