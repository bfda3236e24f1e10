import Verif.Props.Interchange
/-!
# Letters that may be written twice (C101)
-/

set_option linter.unusedSimpArgs false
set_option linter.unusedVariables false

namespace Verif.Props
open Spec
namespace DoubledProofs
open InterchangeProofs

/-! ## NYSIIS -/

/-- What happens to a letter that may be doubled. -/
theorem ny_base {c : Char} (hc : c ∈ c!"BFGJLMOQSUWXYZ") (prev : Char) (v : Str) :
    nysiisLetter prev c (c :: v) = ((nysiisLetter prev c v).1, c :: v) ∧
    nysiisLetter (nysiisLetter prev c v).1 c v = nysiisLetter prev c v := by
  have hvV : ∀ r : Str, ¬ (c = 'E' ∧ c!"V" <+: r) := by
    rintro r ⟨rfl, _⟩; revert hc; decide
  simp only [List.mem_cons, List.not_mem_nil, or_false] at hc
  rcases hc with rfl | rfl | rfl | rfl | rfl | rfl | rfl | rfl | rfl | rfl | rfl | rfl | rfl | rfl
  case inr.inr.inr.inr.inr.inr.inr.inr.inl =>
    by_cases h : c!"CH" <+: v <;> simp [nysiisLetter, nysiisVowel, h, List.cons_prefix_cons]
  case inr.inr.inr.inr.inr.inr.inr.inr.inr.inr.inl =>
    have hw : nysiisVowel 'W' = false := by decide
    by_cases h : nysiisVowel prev = true
    · simp [nysiisLetter, h, hw]
    · simp [nysiisLetter, h, hw]
  all_goals simp [nysiisLetter, nysiisVowel]

theorem ny_step {c : Char} (hc : c ∉ c!"VNCH") (prev y : Char) (x v : Str) : ∃ d x', x'.length = x.length ∧
    nysiisLetter prev y (x ++ c :: c :: v) = (d, x' ++ c :: c :: v) ∧
    nysiisLetter prev y (x ++ c :: v) = (d, x' ++ c :: v) := by
  simp only [List.mem_cons, List.not_mem_nil, or_false, not_or] at hc
  obtain ⟨n1, n2, n3, n4⟩ := hc
  have p1 : ∀ a : Char, ([a] <+: x ++ c :: c :: v) ↔ ([a] <+: x ++ c :: v) := by
    intro a; cases x <;> simp [List.cons_prefix_cons]
  have pCH : (c!"CH" <+: x ++ c :: c :: v) ↔ (c!"CH" <+: x ++ c :: v) := by
    match x with
    | [] => simp [List.cons_prefix_cons, Ne.symm n3]
    | [a] => simp [List.cons_prefix_cons]
    | a :: b :: x => simp [List.cons_prefix_cons]
  have hv : ((x ++ c :: c :: v).take 1).any nysiisVowel = ((x ++ c :: v).take 1).any nysiisVowel := by
    cases x <;> simp
  have one : ∀ (a b : Char), a ≠ c → [a] <+: x ++ c :: v → ∃ x', x'.length = x.length ∧
      c!"F" ++ (x ++ c :: c :: v).drop 1 = x' ++ c :: c :: v ∧ c!"F" ++ (x ++ c :: v).drop 1 = x' ++ c :: v := by
    intro a b ha h
    cases x with
    | nil => simp [List.cons_prefix_cons] at h; exact absurd h ha
    | cons b x => exact ⟨'F' :: x, rfl, rfl, rfl⟩
  have two : c!"CH" <+: x ++ c :: v → ∃ x', x'.length = x.length ∧
      c!"SS" ++ (x ++ c :: c :: v).drop 2 = x' ++ c :: c :: v ∧ c!"SS" ++ (x ++ c :: v).drop 2 = x' ++ c :: v := by
    intro h
    match x, h with
    | [], h => simp [List.cons_prefix_cons] at h; exact absurd h.1.symm n3
    | [a], h => simp [List.cons_prefix_cons] at h; exact absurd h.2.symm n4
    | a :: b :: x, _ => exact ⟨'S' :: 'S' :: x, rfl, rfl, rfl⟩
  unfold nysiisLetter
  simp only [p1, pCH, hv]
  by_cases h1 : y = 'E' ∧ c!"V" <+: x ++ c :: v
  · obtain ⟨x', a1, a2, a3⟩ := one 'V' 'V' (Ne.symm n1) h1.2
    exact ⟨'A', x', a1, by rw [if_pos h1, a2], by rw [if_pos h1, a3]⟩
  simp only [if_neg h1]
  by_cases h2 : nysiisVowel y = true
  · exact ⟨'A', x, rfl, by rw [if_pos h2], by rw [if_pos h2]⟩
  simp only [if_neg h2]
  by_cases h3 : y = 'Q'
  · exact ⟨'G', x, rfl, by rw [if_pos h3], by rw [if_pos h3]⟩
  simp only [if_neg h3]
  by_cases h4 : y = 'Z'
  · exact ⟨'S', x, rfl, by rw [if_pos h4], by rw [if_pos h4]⟩
  simp only [if_neg h4]
  by_cases h5 : y = 'M'
  · exact ⟨'N', x, rfl, by rw [if_pos h5], by rw [if_pos h5]⟩
  simp only [if_neg h5]
  by_cases h6 : y = 'K' ∧ c!"N" <+: x ++ c :: v
  · exact ⟨'N', x, rfl, by rw [if_pos h6], by rw [if_pos h6]⟩
  simp only [if_neg h6]
  by_cases h7 : y = 'K'
  · exact ⟨'C', x, rfl, by rw [if_pos h7], by rw [if_pos h7]⟩
  simp only [if_neg h7]
  by_cases h8 : y = 'S' ∧ c!"CH" <+: x ++ c :: v
  · obtain ⟨x', a1, a2, a3⟩ := two h8.2
    exact ⟨'S', x', a1, by rw [if_pos h8, a2], by rw [if_pos h8, a3]⟩
  simp only [if_neg h8]
  by_cases h9 : y = 'P' ∧ c!"H" <+: x ++ c :: v
  · obtain ⟨x', a1, a2, a3⟩ := one 'H' 'H' (Ne.symm n4) h9.2
    exact ⟨'F', x', a1, by rw [if_pos h9, a2], by rw [if_pos h9, a3]⟩
  simp only [if_neg h9]
  by_cases h10 : y = 'H'
  · simp only [if_pos h10]
    by_cases h11 : nysiisVowel prev = true ∧ ((x ++ c :: v).take 1).any nysiisVowel = true
    · exact ⟨'H', x, rfl, by rw [if_pos h11], by rw [if_pos h11]⟩
    · exact ⟨prev, x, rfl, by rw [if_neg h11], by rw [if_neg h11]⟩
  simp only [if_neg h10]
  by_cases h12 : y = 'W' ∧ nysiisVowel prev = true
  · exact ⟨prev, x, rfl, by rw [if_pos h12], by rw [if_pos h12]⟩
  · exact ⟨y, x, rfl, by rw [if_neg h12], by rw [if_neg h12]⟩

theorem collapse_cons_congr {p a : Char} {l l' : Str} (h : collapse (a :: l) = collapse (a :: l')) :
    collapse (p :: a :: l) = collapse (p :: a :: l') := by
  rw [collapse_cons_cons, collapse_cons_cons, h]

theorem collapse_twice (p a : Char) (l : Str) : collapse (p :: a :: a :: l) = collapse (p :: a :: l) := by
  apply collapse_cons_congr
  rw [collapse_cons_cons, if_pos rfl]

theorem ny_core {c : Char} (hc : c ∈ c!"BFGJLMOQSUWXYZ") (m n : Nat) (v : Str) : ∀ (x : Str) (prev : Char), x.length = n →
    collapse (prev :: nysiisLetters (n + 2 + m) prev (x ++ c :: c :: v)) =
      collapse (prev :: nysiisLetters (n + 1 + m) prev (x ++ c :: v)) := by
  have hc' : c ∉ c!"VNCH" := by
    have : ∀ c ∈ c!"BFGJLMOQSUWXYZ", c ∉ c!"VNCH" := by decide
    exact this c hc
  induction n with
  | zero =>
    intro x prev hx
    rw [List.length_eq_zero_iff.mp hx, show 0 + 2 + m = (m + 1) + 1 by omega, show 0 + 1 + m = m + 1 by omega]
    simp only [List.nil_append]
    obtain ⟨b1, b2⟩ := ny_base hc prev v
    have e1 : nysiisLetters (m + 1 + 1) prev (c :: c :: v) = (nysiisLetter prev c v).1 ::
        nysiisLetters (m + 1) (nysiisLetter prev c v).1 (c :: v) := by
      show (nysiisLetter prev c (c :: v)).1 :: nysiisLetters (m + 1) (nysiisLetter prev c (c :: v)).1
        (nysiisLetter prev c (c :: v)).2 = _
      rw [b1]
    have e2 : nysiisLetters (m + 1) (nysiisLetter prev c v).1 (c :: v) = (nysiisLetter prev c v).1 ::
        nysiisLetters m (nysiisLetter prev c v).1 (nysiisLetter prev c v).2 := by
      show (nysiisLetter (nysiisLetter prev c v).1 c v).1 :: nysiisLetters m (nysiisLetter (nysiisLetter prev c v).1 c v).1
        (nysiisLetter (nysiisLetter prev c v).1 c v).2 = _
      rw [b2]
    rw [e1, e2]
    exact collapse_twice _ _ _
  | succ n ih =>
    intro x prev hx
    match x, hx with
    | y :: x, hx =>
      obtain ⟨d, x', l1, s1, s2⟩ := ny_step hc' prev y x v
      have e1 : nysiisLetters (n + 2 + m + 1) prev (y :: x ++ c :: c :: v) = d :: nysiisLetters (n + 2 + m) d (x' ++ c :: c :: v) := by
        show (nysiisLetter prev y (x ++ c :: c :: v)).1 :: nysiisLetters (n + 2 + m) (nysiisLetter prev y (x ++ c :: c :: v)).1
          (nysiisLetter prev y (x ++ c :: c :: v)).2 = _
        rw [s1]
      have e2 : nysiisLetters (n + 1 + m + 1) prev (y :: x ++ c :: v) = d :: nysiisLetters (n + 1 + m) d (x' ++ c :: v) := by
        show (nysiisLetter prev y (x ++ c :: v)).1 :: nysiisLetters (n + 1 + m) (nysiisLetter prev y (x ++ c :: v)).1
          (nysiisLetter prev y (x ++ c :: v)).2 = _
        rw [s2]
      have f1 : n + 1 + 2 + m = n + 2 + m + 1 := by omega
      have f2 : n + 1 + 1 + m = n + 1 + m + 1 := by omega
      have hi := ih x' d (by simpa [l1] using hx)
      rw [f1, e1, f2, e2]
      rw [show n + 1 + m + 1 = n + 2 + m by omega]
      exact collapse_cons_congr hi

theorem suffix_two {c p q : Char} (hp : c ≠ p) (hq : c ≠ q) (z v : Str) : ([p, q] <:+ z ++ c :: v) ↔ ([p, q] <:+ v) := by
  constructor
  · rintro ⟨t, ht⟩
    obtain ⟨v', rfl⟩ : ∃ v', v = v'.reverse := ⟨v.reverse, by simp⟩
    have hr := congrArg List.reverse ht
    simp only [List.reverse_append, List.reverse_cons, List.reverse_nil, List.nil_append, List.reverse_reverse,
      List.cons_append, List.append_assoc] at hr
    match v', hr with
    | [], hr => simp only [List.nil_append, List.cons.injEq] at hr; exact absurd hr.1.symm hq
    | [a], hr => simp only [List.cons_append, List.nil_append, List.cons.injEq] at hr; exact absurd hr.2.1.symm hp
    | a :: b :: v', hr =>
      simp only [List.cons_append, List.cons.injEq] at hr
      exact ⟨v'.reverse, by simp [hr.1, hr.2.1]⟩
  · rintro ⟨t, rfl⟩
    exact ⟨z ++ c :: t, by simp⟩

theorem ny_end {c : Char} (hc : c ∉ c!"EIDRNT") (z v : Str) : nysiisEnd (z ++ c :: v) = z ++ c :: nysiisEnd v := by
  simp only [List.mem_cons, List.not_mem_nil, or_false, not_or] at hc
  obtain ⟨n1, n2, n3, n4, n5, n6⟩ := hc
  have dl : ∀ p q : Char, [p, q] <:+ v → (z ++ c :: v).dropLast.dropLast = z ++ c :: v.dropLast.dropLast := by
    rintro p q ⟨t, rfl⟩
    rw [show z ++ c :: (t ++ [p, q]) = (z ++ c :: t ++ [p]) ++ [q] by simp, List.dropLast_concat, List.dropLast_concat,
      show t ++ [p, q] = (t ++ [p]) ++ [q] by simp, List.dropLast_concat, List.dropLast_concat]
  unfold nysiisEnd
  simp only [suffix_two n1 n1, suffix_two n2 n1, suffix_two n3 n6, suffix_two n4 n6, suffix_two n4 n3, suffix_two n5 n6,
    suffix_two n5 n3]
  by_cases h1 : c!"EE" <:+ v ∨ c!"IE" <:+ v
  · rw [if_pos h1, if_pos h1]
    rcases h1 with h | h <;> (rw [dl _ _ h]; simp)
  · rw [if_neg h1, if_neg h1]
    by_cases h2 : c!"DT" <:+ v ∨ c!"RT" <:+ v ∨ c!"RD" <:+ v ∨ c!"NT" <:+ v ∨ c!"ND" <:+ v
    · rw [if_pos h2, if_pos h2]
      rcases h2 with h | h | h | h | h <;> (rw [dl _ _ h]; simp)
    · rw [if_neg h2, if_neg h2]

theorem ny_end_ch {v : Str} (h : c!"CH" <+: nysiisEnd v) : c!"CH" <+: v := by
  have key : ∀ y : Char, y ≠ 'H' → c!"CH" <+: v.dropLast.dropLast ++ [y] → c!"CH" <+: v := by
    intro y hy h
    have hp : v.dropLast.dropLast <+: v := (List.dropLast_prefix _).trans (List.dropLast_prefix _)
    match hv : v.dropLast.dropLast, h with
    | [], h => simp at h
    | [a], h => simp [List.cons_prefix_cons] at h; exact absurd h.2.symm hy
    | a :: b :: t, h =>
      rw [hv] at hp
      simp [List.cons_prefix_cons] at h
      refine List.IsPrefix.trans ?_ hp
      simp [List.cons_prefix_cons, h.1, h.2]
      exact h
  unfold nysiisEnd at h
  split at h
  · exact key _ (by decide) h
  · split at h
    · exact key _ (by decide) h
    · exact h

theorem ny_start {c : Char} (hc : c ∈ c!"BFGJLMOQSUWXYZ") (a : Char) (x v : Str) : ∃ z0 z,
    nysiisStart (a :: x ++ c :: c :: v) = z0 :: z ++ c :: c :: v ∧ nysiisStart (a :: x ++ c :: v) = z0 :: z ++ c :: v := by
  have hn : c ≠ 'A' ∧ c ≠ 'C' ∧ c ≠ 'N' ∧ c ≠ 'H' := by
    have : ∀ c ∈ c!"BFGJLMOQSUWXYZ", c ≠ 'A' ∧ c ≠ 'C' ∧ c ≠ 'N' ∧ c ≠ 'H' := by decide
    exact this c hc
  obtain ⟨n1, n2, n3, n4⟩ := hn
  have p2 : ∀ p q : Char, ([p, q] <+: a :: x ++ c :: c :: v) ↔ ([p, q] <+: a :: x ++ c :: v) := by
    intro p q
    cases x <;> simp [List.cons_prefix_cons]
  have p1 : ∀ p : Char, ([p] <+: a :: x ++ c :: c :: v) ↔ ([p] <+: a :: x ++ c :: v) := by
    intro p; simp [List.cons_prefix_cons]
  have p3 : ∀ p q r : Char, q ≠ c → r ≠ c → (([p, q, r] <+: a :: x ++ c :: c :: v) ↔ ([p, q, r] <+: a :: x ++ c :: v)) := by
    intro p q r hq hr
    match x with
    | [] => simp [List.cons_prefix_cons, hq]
    | [b] => simp [List.cons_prefix_cons, hr]
    | b :: d :: x => simp [List.cons_prefix_cons]
  have long3 : ∀ p q r : Char, q ≠ c → r ≠ c → ([p, q, r] <+: a :: x ++ c :: v) → ∃ b d x', x = b :: d :: x' := by
    intro p q r hq hr h
    match x, h with
    | [], h => simp [List.cons_prefix_cons, hq] at h
    | [b], h => simp [List.cons_prefix_cons, hr] at h
    | b :: d :: x, _ => exact ⟨b, d, x, rfl⟩
  have long2 : ∀ p q : Char, q ≠ c → ([p, q] <+: a :: x ++ c :: v) → ∃ b x', x = b :: x' := by
    intro p q hq h
    match x, h with
    | [], h => simp [List.cons_prefix_cons, hq] at h
    | b :: x, _ => exact ⟨b, x, rfl⟩
  unfold nysiisStart
  simp only [p3 'M' 'A' 'C' (Ne.symm n1) (Ne.symm n2), p2, p1, p3 'S' 'C' 'H' (Ne.symm n2) (Ne.symm n4)]
  by_cases h1 : c!"MAC" <+: a :: x ++ c :: v
  · obtain ⟨b, d, x', rfl⟩ := long3 _ _ _ (Ne.symm n1) (Ne.symm n2) h1
    exact ⟨'M', 'C' :: 'C' :: x', by rw [if_pos h1]; rfl, by rw [if_pos h1]; rfl⟩
  simp only [if_neg h1]
  by_cases h2 : c!"KN" <+: a :: x ++ c :: v
  · obtain ⟨b, x', rfl⟩ := long2 _ _ (Ne.symm n3) h2
    exact ⟨'N', 'N' :: x', by rw [if_pos h2]; rfl, by rw [if_pos h2]; rfl⟩
  simp only [if_neg h2]
  by_cases h3 : c!"K" <+: a :: x ++ c :: v
  · exact ⟨'C', x, by rw [if_pos h3]; rfl, by rw [if_pos h3]; rfl⟩
  simp only [if_neg h3]
  by_cases h4 : c!"PH" <+: a :: x ++ c :: v ∨ c!"PF" <+: a :: x ++ c :: v
  · cases x with
    | cons b x => exact ⟨'F', 'F' :: x, by rw [if_pos h4]; rfl, by rw [if_pos h4]; rfl⟩
    | nil =>
      rcases h4 with h | h
      · simp [List.cons_prefix_cons, Ne.symm n4] at h
      · have hc : c = 'F' := by simp [List.cons_prefix_cons] at h; exact h.2.symm
        subst hc
        exact ⟨'F', [], by rw [if_pos (.inr h)]; rfl, by rw [if_pos (.inr h)]; rfl⟩
  simp only [if_neg h4]
  by_cases h5 : c!"SCH" <+: a :: x ++ c :: v
  · obtain ⟨b, d, x', rfl⟩ := long3 _ _ _ (Ne.symm n2) (Ne.symm n4) h5
    exact ⟨'S', 'S' :: 'S' :: x', by rw [if_pos h5]; rfl, by rw [if_pos h5]; rfl⟩
  · exact ⟨a, x, by rw [if_neg h5], by rw [if_neg h5]⟩

/-- The code of a word of letters. -/
def nyCode (w : Str) : Str :=
  match nysiisEnd (nysiisStart w) with
  | [] => []
  | c :: rest => nysiisFinish (collapse (c :: nysiisLetters rest.length c rest))

theorem nyCode_of {w : Str} {c : Char} {rest : Str} (h : nysiisEnd (nysiisStart w) = c :: rest) :
    nyCode w = nysiisFinish (collapse (c :: nysiisLetters rest.length c rest)) := by
  unfold nyCode
  rw [h]

theorem ny_doubled_later {c : Char} (hc : c ∈ c!"BFGJLMOQSUWXYZ") (a : Char) (x v : Str) :
    nyCode (a :: x ++ c :: c :: v) = nyCode (a :: x ++ c :: v) := by
  have he : c ∉ c!"EIDRNT" := by
    have : ∀ c ∈ c!"BFGJLMOQSUWXYZ", c ∉ c!"EIDRNT" := by decide
    exact this c hc
  obtain ⟨z0, z, s1, s2⟩ := ny_start hc a x v
  have e1 : nysiisEnd (nysiisStart (a :: x ++ c :: c :: v)) = z0 :: (z ++ c :: c :: nysiisEnd v) := by
    have := ny_end he [] v
    simp only [List.nil_append] at this
    rw [s1, ny_end he, this]
    rfl
  have e2 : nysiisEnd (nysiisStart (a :: x ++ c :: v)) = z0 :: (z ++ c :: nysiisEnd v) := by
    rw [s2, ny_end he]
    rfl
  rw [nyCode_of e1, nyCode_of e2]
  have := ny_core hc (nysiisEnd v).length z.length (nysiisEnd v) z z0 rfl
  have l1 : (z ++ c :: c :: nysiisEnd v).length = z.length + 2 + (nysiisEnd v).length := by simp; omega
  have l2 : (z ++ c :: nysiisEnd v).length = z.length + 1 + (nysiisEnd v).length := by simp; omega
  rw [l1, l2, this]

theorem ny_doubled_first {c : Char} (hc : c ∈ c!"BFGJLSWXY") (v : Str) : nyCode (c :: c :: v) = nyCode (c :: v) := by
  have he : c ∉ c!"EIDRNT" := by
    have : ∀ c ∈ c!"BFGJLSWXY", c ∉ c!"EIDRNT" := by decide
    exact this c hc
  have hn := fun w => ny_end he [] w
  simp only [List.nil_append] at hn
  have hst : ∀ w : Str, ¬ c!"SCH" <+: c :: w → nysiisStart (c :: w) = c :: w := by
    intro w hw
    have np : ∀ (k : Char) (r : Str), k ∈ c!"MKP" → ¬ (k :: r) <+: c :: w := by
      intro k r hk h
      simp only [List.cons_prefix_cons] at h
      rw [h.1] at hk
      have : ∀ c ∈ c!"BFGJLSWXY", c ∉ c!"MKP" := by decide
      exact this c hc hk
    unfold nysiisStart
    rw [if_neg (np 'M' _ (by decide)), if_neg (np 'K' _ (by decide)), if_neg (np 'K' _ (by decide)),
      if_neg (by rintro (h | h) <;> exact np 'P' _ (by decide) h), if_neg hw]
  have hcc : ¬ c!"SCH" <+: c :: c :: v := by
    intro h
    simp only [List.cons_prefix_cons] at h
    have := h.1.trans h.2.1.symm
    revert this; decide
  have e1 : nysiisEnd (nysiisStart (c :: c :: v)) = c :: c :: nysiisEnd v := by
    rw [hst _ hcc, hn, hn]
  rw [nyCode_of e1]
  by_cases hs : c!"SCH" <+: c :: v
  · obtain ⟨t, ht⟩ := hs
    simp only [List.cons_append, List.nil_append, List.cons.injEq] at ht
    obtain ⟨rfl, rfl⟩ := ht
    have e2 : nysiisEnd (nysiisStart ('S' :: 'C' :: 'H' :: t)) = 'S' :: 'S' :: 'S' :: nysiisEnd t := by
      have : nysiisStart ('S' :: 'C' :: 'H' :: t) = 'S' :: 'S' :: 'S' :: t := by
        unfold nysiisStart
        simp [List.cons_prefix_cons]
      rw [this, hn, hn, hn]
    have e3 : nysiisEnd ('C' :: 'H' :: t) = 'C' :: 'H' :: nysiisEnd t := by
      have a1 := ny_end (c := 'C') (by decide) [] ('H' :: t)
      have a2 := ny_end (c := 'H') (by decide) [] t
      simp only [List.nil_append] at a1 a2
      rw [a1, a2]
    rw [nyCode_of e2, e3]
    have e4 : nysiisLetters ('S' :: 'C' :: 'H' :: nysiisEnd t).length 'S' ('S' :: 'C' :: 'H' :: nysiisEnd t) =
        'S' :: nysiisLetters ('S' :: 'S' :: nysiisEnd t).length 'S' ('S' :: 'S' :: nysiisEnd t) := by
      have hl : nysiisLetter 'S' 'S' ('C' :: 'H' :: nysiisEnd t) = ('S', 'S' :: 'S' :: nysiisEnd t) := by
        simp [nysiisLetter, nysiisVowel, List.cons_prefix_cons]
      show (nysiisLetter 'S' 'S' ('C' :: 'H' :: nysiisEnd t)).1 :: nysiisLetters (nysiisEnd t).length.succ.succ
        (nysiisLetter 'S' 'S' ('C' :: 'H' :: nysiisEnd t)).1 (nysiisLetter 'S' 'S' ('C' :: 'H' :: nysiisEnd t)).2 = _
      rw [hl]
      rfl
    rw [e4, collapse_cons_cons, if_pos rfl]
  · have e2 : nysiisEnd (nysiisStart (c :: v)) = c :: nysiisEnd v := by rw [hst _ hs, hn]
    rw [nyCode_of e2]
    have hl : nysiisLetter c c (nysiisEnd v) = (c, nysiisEnd v) ∨ (c = 'S' ∧ c!"CH" <+: nysiisEnd v) := by
      by_cases h : c = 'S' ∧ c!"CH" <+: nysiisEnd v
      · exact .inr h
      · left
        simp only [List.mem_cons, List.not_mem_nil, or_false] at hc
        rcases hc with rfl | rfl | rfl | rfl | rfl | rfl | rfl | rfl | rfl <;> simp [nysiisLetter, nysiisVowel]
        exact fun x => absurd ⟨rfl, x⟩ h
    rcases hl with hl | ⟨rfl, h⟩
    · have : nysiisLetters (c :: nysiisEnd v).length c (c :: nysiisEnd v) =
          c :: nysiisLetters (nysiisEnd v).length c (nysiisEnd v) := by
        show (nysiisLetter c c (nysiisEnd v)).1 :: nysiisLetters (nysiisEnd v).length (nysiisLetter c c (nysiisEnd v)).1
          (nysiisLetter c c (nysiisEnd v)).2 = _
        rw [hl]
      rw [this, collapse_cons_cons, if_pos rfl]
    · exfalso
      apply hs
      have := ny_end_ch h
      simpa [List.cons_prefix_cons] using this

theorem ny_doubled (U : Unicode) (strict : Bool) (u v : Str) {c : Char} (hc : c ∈ allLetters)
    (h : c ∈ c!"BFGJLSWXY" ∨ hasLetter u ∧ c ∈ c!"BFGJLMOQSUWXYZ") :
    (Nysiis.new strict).encode U (u ++ c :: c :: v) = (Nysiis.new strict).encode U (u ++ c :: v) := by
  have l1 : letters U (u ++ c :: c :: v) = letters U u ++ c :: c :: letters U v := by
    have := letters_cap U [] v hc
    have e : letters U [] = [] := rfl
    rw [e, List.nil_append, List.nil_append] at this
    rw [letters_cap U u (c :: v) hc, this]
  have key : nysiis U (u ++ c :: c :: v) = nysiis U (u ++ c :: v) := by
    show nyCode (letters U (u ++ c :: c :: v)) = nyCode (letters U (u ++ c :: v))
    rw [l1, letters_cap U u v hc]
    cases hx : letters U u with
    | cons a x =>
      refine ny_doubled_later ?_ a x _
      have : ∀ c ∈ c!"BFGJLSWXY", c ∈ c!"BFGJLMOQSUWXYZ" := by decide
      rcases h with h | h
      · exact this c h
      · exact h.2
    | nil =>
      rcases h with h | h
      · exact ny_doubled_first h _
      · obtain ⟨a, r, ha⟩ := letters_ne U h.1
        rw [hx] at ha
        cases ha
  have e1 := nysiis_eq_spec U (u ++ c :: c :: v)
  have e2 := nysiis_eq_spec U (u ++ c :: v)
  cases strict
  · rw [e1.1, e2.1, key]
  · rw [e1.2, e2.2, key]

end DoubledProofs
end Verif.Props
