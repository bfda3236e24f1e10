import Verif.Props.Interchange
/-!
# Letters that may be written twice (C101)
-/

set_option linter.unusedSimpArgs false
set_option linter.unusedVariables false

namespace Verif.Props
open Spec
namespace DoubledProofs
open InterchangeProofs PhonexProofs

/-! ## Phonex -/

theorem ph_zero {c : Char} (hc : c ∈ c!"AEHIOUWY") (after : Str) : phonexDigit c after = some '0' := by
  simp only [List.mem_cons, List.not_mem_nil, or_false] at hc
  rcases hc with rfl | rfl | rfl | rfl | rfl | rfl | rfl | rfl <;> simp [phonexDigit]

theorem ph_group {c : Char} (hc : c ∈ c!"AEHIOUWY") (a : Char) (r : Str) :
    nasalGroup (c :: r) = false ∧ nasalGroup (a :: c :: r) = false := by
  simp only [List.mem_cons, List.not_mem_nil, or_false] at hc
  rcases hc with rfl | rfl | rfl | rfl | rfl | rfl | rfl | rfl <;> (cases r <;> simp [nasalGroup])

theorem ph_nasal {c : Char} (hc : c ∈ c!"AEHIOUWY") (n : Nat) (y : Str) : ∀ t : Str, t.length ≤ n →
    dropAfterNasal (t ++ c :: y) = dropAfterNasal t ++ c :: dropAfterNasal y := by
  induction n with
  | zero =>
    intro t ht
    rw [List.length_eq_zero_iff.mp (by omega : t.length = 0)]
    show dropAfterNasal (c :: y) = c :: dropAfterNasal y
    rw [dropAfterNasal_cons, (ph_group hc c y).1]
    rfl
  | succ n ih =>
    intro t ht
    match t, ht with
    | [], _ => exact ih [] (by simp)
    | [a], _ =>
      show dropAfterNasal (a :: c :: y) = a :: c :: dropAfterNasal y
      rw [dropAfterNasal_cons, (ph_group hc a y).2]
      have := ih [] (by simp)
      simpa [dropAfterNasal] using this
    | a :: b :: t, ht =>
      simp only [List.length_cons] at ht
      show dropAfterNasal (a :: (b :: t ++ c :: y)) = _
      rw [dropAfterNasal_cons, dropAfterNasal_cons a]
      have hg : nasalGroup (a :: (b :: t ++ c :: y)) = nasalGroup (a :: b :: t) := rfl
      rw [hg]
      cases nasalGroup (a :: b :: t)
      · simp only [Bool.false_eq_true, if_false]
        rw [ih (b :: t) (by simp; omega)]
        rfl
      · simp only [if_true, List.cons_append, List.drop_succ_cons, List.drop_zero]
        rw [ih t (by omega)]

theorem ph_digits {c : Char} (hc : c ∈ c!"AEHIOUWY") (t : Str) : ∀ p : Char,
    ∃ P : Str, P.length = t.length ∧ ∀ y, phonexDigits p (t ++ c :: y) = P ++ '0' :: phonexDigits '0' y := by
  induction t with
  | nil =>
    intro p
    refine ⟨[], rfl, fun y => ?_⟩
    simp only [List.nil_append, phonexDigits, ph_zero hc, Option.getD_some]
  | cons a t ih =>
    intro p
    have hd : ∀ y, phonexDigit a (t ++ c :: y) = phonexDigit a (t ++ [c]) := by
      intro y
      apply phonexDigit_congr
      cases t <;> rfl
    obtain ⟨P, h1, h2⟩ := ih ((phonexDigit a (t ++ [c])).getD p)
    refine ⟨(phonexDigit a (t ++ [c])).getD p :: P, by simp [h1], fun y => ?_⟩
    simp only [List.cons_append, phonexDigits, hd, h2]

/-- The digits that count. -/
def counted (w : Str) : Str := (phonexTail w).filter (· ≠ '0')

theorem counted_later {c : Char} (hc : c ∈ c!"AEHIOUWY") (f : Char) (t y : Str) :
    counted (f :: t ++ c :: c :: y) = counted (f :: t ++ c :: y) := by
  have hn : nasalGroup (f :: t ++ c :: c :: y) = nasalGroup (f :: t ++ c :: y) := by
    cases t with
    | nil =>
      show nasalGroup (f :: c :: c :: y) = nasalGroup (f :: c :: y)
      rw [(ph_group hc f _).2, (ph_group hc f _).2]
    | cons b t => rfl
  unfold counted phonexTail
  rw [hn, ph_nasal hc _ (c :: y) (f :: t) (Nat.le_refl _), ph_nasal hc _ y (f :: t) (Nat.le_refl _)]
  have h0 := ph_nasal hc 0 y [] (by simp)
  simp only [List.nil_append, dropAfterNasal] at h0
  rw [h0]
  obtain ⟨P, h1, h2⟩ := ph_digits hc (dropAfterNasal (f :: t)) '0'
  rw [h2, h2]
  have h3 : ∀ z, phonexDigits '0' (c :: z) = '0' :: phonexDigits '0' z := by
    intro z
    simp only [phonexDigits, ph_zero hc, Option.getD_some]
  rw [h3]
  have hP : P ≠ [] := by
    intro h
    rw [h, dropAfterNasal_cons] at h1
    simp at h1
  match P, hP with
  | d :: [], _ =>
    simp only [List.cons_append, List.nil_append]
    cases nasalGroup (f :: (t ++ c :: y))
    · simp only [Bool.false_eq_true, if_false]
      by_cases h : '0' = d
      · rw [if_pos h, if_pos h]; simp [List.filter_cons, List.filter_append]
      · rw [if_neg h, if_neg h]; simp [List.filter_cons, List.filter_append]
    · simp [List.filter_cons, List.filter_append]
  | d :: e :: P, _ =>
    simp only [List.cons_append, List.nil_append]
    cases nasalGroup (f :: (t ++ c :: y))
    · simp only [Bool.false_eq_true, if_false]
      by_cases h : e = d
      · rw [if_pos h, if_pos h]; simp [List.filter_cons, List.filter_append]
      · rw [if_neg h, if_neg h]; simp [List.filter_cons, List.filter_append]
    · simp [List.filter_cons, List.filter_append]

theorem counted_first {c f : Char} (hc : c ∈ c!"AEHIOUWY") (hf : f ∈ c!"AEHIOUWY") (y : Str) :
    counted (f :: c :: y) = counted (f :: y) := by
  unfold counted phonexTail
  rw [(ph_group hf f _).1, (ph_group hf f _).1]
  have h0 := fun {c} (hc : c ∈ c!"AEHIOUWY") (y : Str) => ph_nasal hc 0 y [] (by simp)
  simp only [List.nil_append, dropAfterNasal] at h0
  rw [h0 hf, h0 hf, h0 hc]
  have h3 : ∀ {c : Char}, c ∈ c!"AEHIOUWY" → ∀ z, phonexDigits '0' (c :: z) = '0' :: phonexDigits '0' z := by
    intro c hc z
    simp only [phonexDigits, ph_zero hc, Option.getD_some]
  rw [h3 hf, h3 hf, h3 hc]
  simp only [Bool.false_eq_true, if_false, if_true]
  cases phonexDigits '0' (dropAfterNasal y) with
  | nil => rfl
  | cons e es =>
    dsimp only
    by_cases h : e = '0'
    · rw [if_pos h]; simp [h]
    · rw [if_neg h]

theorem dropS_append {c : Char} (hc : c ≠ 'S') (x y : Str) : dropFinalS (x ++ c :: y) = x ++ c :: dropFinalS y := by
  induction x with
  | nil =>
    rw [List.nil_append, dropS_cons, if_neg hc]
    split
    · next h => rw [h]; rfl
    · rfl
  | cons a x ih =>
    rw [List.cons_append, dropS_cons, ih, if_neg (by simp)]
    rfl

theorem ph_doubled (x y : Str) {c : Char} (h : (x = [] ∧ c ∈ c!"AEIOUY") ∨ (x ≠ [] ∧ c ∈ c!"AEHIOUWY")) :
    phonex (x ++ c :: c :: y) = phonex (x ++ c :: y) := by
  have hc : c ∈ c!"AEHIOUWY" := by
    have : ∀ c ∈ c!"AEIOUY", c ∈ c!"AEHIOUWY" := by decide
    rcases h with h | h
    · exact this c h.2
    · exact h.2
  have hS : c ≠ 'S' ∧ c ≠ 'N' ∧ c ≠ 'R' := by
    have : ∀ c ∈ c!"AEHIOUWY", c ≠ 'S' ∧ c ≠ 'N' ∧ c ≠ 'R' := by decide
    exact this c hc
  have d1 := dropS_append hS.1 x y
  have d2 : dropFinalS (x ++ c :: c :: y) = x ++ c :: c :: dropFinalS y := by
    rw [dropS_append hS.1 x (c :: y)]
    have := dropS_append hS.1 [] y
    simp only [List.nil_append] at this
    rw [this]
  generalize dropFinalS y = z at d1 d2
  have hff : phonexFirst c ∈ c!"AEHIOUWY" := by
    have : ∀ c ∈ c!"AEHIOUWY", phonexFirst c ∈ c!"AEHIOUWY" := by decide
    exact this c hc
  have key : (∃ f t, phonexPrepare (x ++ c :: c :: y) = f :: t ++ c :: c :: z ∧ phonexPrepare (x ++ c :: y) = f :: t ++ c :: z) ∨
      (∃ f, f ∈ c!"AEHIOUWY" ∧ phonexPrepare (x ++ c :: c :: y) = f :: c :: z ∧ phonexPrepare (x ++ c :: y) = f :: z) := by
    unfold phonexPrepare
    rw [d1, d2]
    cases x with
    | nil =>
      right
      refine ⟨phonexFirst c, hff, ?_⟩
      rcases h with ⟨_, h⟩ | ⟨h, _⟩
      · have np : ∀ (k : Char) (r t : Str), k ∈ c!"KPWH" → ¬ (k :: r) <+: c :: t := by
          intro k r t hk hp
          simp only [List.cons_prefix_cons] at hp
          rw [hp.1] at hk
          have : ∀ c ∈ c!"AEIOUY", c ∉ c!"KPWH" := by decide
          exact this c h hk
        simp only [List.nil_append, if_neg (np 'K' _ _ (by decide)), if_neg (np 'P' _ _ (by decide)),
          if_neg (np 'W' _ _ (by decide)), if_neg (np 'H' _ _ (by decide)), and_self]
      · exact absurd rfl h
    | cons a x =>
      have p : ∀ a' b : Char, ([a', b] <+: a :: x ++ c :: c :: z) ↔ ([a', b] <+: a :: x ++ c :: z) := by
        intro a' b
        cases x <;> simp [List.cons_prefix_cons]
      have form : ∃ a', (if c!"KN" <+: a :: x ++ c :: z then 'N' :: (a :: x ++ c :: z).drop 1
          else if c!"PH" <+: a :: x ++ c :: z then 'F' :: (a :: x ++ c :: z).drop 1
          else if c!"WR" <+: a :: x ++ c :: z then 'R' :: (a :: x ++ c :: z).drop 1
          else a :: x ++ c :: z) = a' :: x ++ c :: z ∧
          (if c!"KN" <+: a :: x ++ c :: c :: z then 'N' :: (a :: x ++ c :: c :: z).drop 1
          else if c!"PH" <+: a :: x ++ c :: c :: z then 'F' :: (a :: x ++ c :: c :: z).drop 1
          else if c!"WR" <+: a :: x ++ c :: c :: z then 'R' :: (a :: x ++ c :: c :: z).drop 1
          else a :: x ++ c :: c :: z) = a' :: x ++ c :: c :: z := by
        simp only [p]
        by_cases h1 : c!"KN" <+: a :: x ++ c :: z
        · exact ⟨'N', by rw [if_pos h1, if_pos h1]; exact ⟨rfl, rfl⟩⟩
        · by_cases h2 : c!"PH" <+: a :: x ++ c :: z
          · exact ⟨'F', by rw [if_neg h1, if_neg h1, if_pos h2, if_pos h2]; exact ⟨rfl, rfl⟩⟩
          · by_cases h3 : c!"WR" <+: a :: x ++ c :: z
            · exact ⟨'R', by rw [if_neg h1, if_neg h1, if_neg h2, if_neg h2, if_pos h3, if_pos h3]; exact ⟨rfl, rfl⟩⟩
            · exact ⟨a, by rw [if_neg h1, if_neg h1, if_neg h2, if_neg h2, if_neg h3, if_neg h3]; exact ⟨rfl, rfl⟩⟩
      obtain ⟨a', f1, f2⟩ := form
      dsimp only
      rw [f1, f2]
      by_cases ha : a' = 'H'
      · have hp : ∀ t : Str, c!"H" <+: a' :: t := by intro t; simp [ha, List.cons_prefix_cons]
        simp only [List.cons_append, if_pos (hp _), List.drop_succ_cons, List.drop_zero]
        cases x with
        | nil => exact .inr ⟨phonexFirst c, hff, rfl, rfl⟩
        | cons b x => exact .inl ⟨phonexFirst b, x, rfl, rfl⟩
      · have hp : ∀ t : Str, ¬ c!"H" <+: a' :: t := by intro t; simp [Ne.symm ha, List.cons_prefix_cons]
        simp only [List.cons_append, if_neg (hp _)]
        exact .inl ⟨phonexFirst a', x, rfl, rfl⟩
  unfold phonex
  rcases key with ⟨f, t, k1, k2⟩ | ⟨f, hf, k1, k2⟩
  · rw [k1, k2]
    have := counted_later hc f t z
    unfold counted at this
    simp only [List.cons_append] at this ⊢
    rw [this]
  · rw [k1, k2]
    have := counted_first hc hf z
    unfold counted at this
    simp only
    rw [this]

/-! ## Match Rating -/

theorem mra_ignored (U : Unicode) (u v : Str) (hu : hasLetter u) {a : Char} (ha : a ∈ c!"AEIOU") :
    MraProofs.Long U (u ++ a :: v) ∧ mraReduced U (u ++ a :: v) = mraReduced U (u ++ v) := by
  obtain ⟨c, hc, hl⟩ := hu
  have hca : isAscii c = true := by
    unfold isAsciiAlpha isAsciiLower isAsciiUpper at hl
    unfold isAscii
    simp only [Bool.or_eq_true, Bool.and_eq_true, decide_eq_true_eq] at hl
    simp only [decide_eq_true_eq]
    omega
  have fact : ∀ c, isAscii c = true → isAsciiAlpha c = true → isAsciiWs c = false ∧ isAsciiWs (asciiUpper c) = false ∧
      mraPunct (asciiUpper c) = false ∧ isAscii (asciiUpper c) = true := by
    apply forall_ascii; decide +kernel
  obtain ⟨f1, f2, f3, f4⟩ := fact c hca hl
  have vow : ∀ {a : Char}, a ∈ c!"AEIOU" → isAscii a = true ∧ isAsciiWs a = false ∧ mraPunct a = false ∧ asciiUpper a = a ∧
      mraPlain a = a ∧ (c!"AEIOUaeiou").contains a = true := by
    intro a ha; revert a; decide
  obtain ⟨v1, v2, v3, v4, v5, v6⟩ := vow ha
  refine ⟨trim_long U u v c a hc (by rw [U.isWhitespace_ascii c hca, f1]) (by rw [U.isWhitespace_ascii a v1, v2]), ?_⟩
  have happ : ∀ x y : Str, mraClean U (x ++ y) = mraClean U x ++ mraClean U y := by
    intro x y
    unfold mraClean Unicode.strUpper
    rw [List.flatMap_append, List.filter_append, List.map_append]
  have hcl : mraClean U (u ++ a :: v) = mraClean U u ++ a :: mraClean U v := by
    unfold mraClean Unicode.strUpper
    rw [List.flatMap_append, List.flatMap_cons, U.toUpper_ascii a v1, v4, List.filter_append, List.map_append]
    simp only [List.singleton_append, List.filter_cons, v3, U.isWhitespace_ascii a v1, v2, Bool.not_false, Bool.and_self,
      if_true, List.map_cons, v5]
  have hne : mraClean U u ≠ [] := by
    obtain ⟨p, q, rfl⟩ := List.append_of_mem hc
    unfold mraClean Unicode.strUpper
    rw [List.flatMap_append, List.flatMap_cons, U.toUpper_ascii c hca, List.filter_append, List.map_append]
    simp [List.filter_cons, f3, U.isWhitespace_ascii _ f4, f2]
  unfold mraReduced
  rw [hcl, happ]
  congr 2
  cases hcu : mraClean U u with
  | nil => exact absurd hcu hne
  | cons x r =>
    unfold mraSkeleton
    have ht : ∀ z : Str, (x :: r ++ z).take 1 = [x] ∧ (x :: r ++ z).drop 1 = r ++ z := fun z => ⟨rfl, rfl⟩
    rw [(ht _).1, (ht _).1, (ht _).2, (ht _).2, List.filter_append, List.filter_append, List.filter_cons, v6]
    rfl

theorem mra_doubled (U : Unicode) (u v : Str) (hu : hasLetter u) {a : Char} (ha : a ∈ c!"AEIOU") :
    MatchRating.encode U (u ++ a :: a :: v) = MatchRating.encode U (u ++ a :: v) := by
  obtain ⟨l1, e1⟩ := mra_ignored U u v hu ha
  obtain ⟨l2, e2⟩ := mra_ignored U u (a :: v) hu ha
  rw [MraProofs.encode_long l1, MraProofs.encode_long l2, e2]

end DoubledProofs
end Verif.Props
