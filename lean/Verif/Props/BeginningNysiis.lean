import Verif.Props.Nysiis
namespace Verif.Props
open Verif.Spec
set_option linter.unusedSimpArgs false

namespace LocalProofs

theorem collapse_append (a b : Str) : collapse a <+: collapse (a ++ b) ∧
    (collapse (a ++ b)).length ≤ (collapse a).length + b.length := by
  induction a with
  | nil => exact ⟨List.nil_prefix, by simpa [collapse] using collapse_length_le b⟩
  | cons x a ih =>
    cases a with
    | nil =>
      obtain ⟨t, ht⟩ := collapse_head x b
      refine ⟨?_, ?_⟩
      · simp only [List.cons_append, List.nil_append]; rw [ht]; simp [collapse]
      · have := collapse_length_le (x :: b)
        simp [collapse] at this ⊢; omega
    | cons y a =>
      simp only [List.cons_append] at ih ⊢
      rw [collapse_cons_cons, collapse_cons_cons]
      by_cases h : x = y
      · rw [if_pos h, if_pos h]; exact ih
      · rw [if_neg h, if_neg h]
        refine ⟨(List.prefix_append_right_inj [x]).mpr ih.1, ?_⟩
        have := ih.2
        simp only [List.length_cons] at this ⊢; omega

theorem start_length (w : Str) : (nysiisStart w).length = w.length := by
  have g : ∀ p w : Str, p <+: w → ∀ q : Str, q.length = p.length → (q ++ w.drop p.length).length = w.length := by
    intro p w h q hq
    have := h.length_le
    simp only [List.length_append, List.length_drop]; omega
  unfold nysiisStart
  repeat' split
  · exact g c!"MAC" w (by assumption) c!"MCC" rfl
  · exact g c!"KN" w (by assumption) c!"NN" rfl
  · exact g c!"K" w (by assumption) c!"C" rfl
  · rename_i h
    rcases h with h | h
    · exact g c!"PH" w h c!"FF" rfl
    · exact g c!"PF" w h c!"FF" rfl
  · exact g c!"SCH" w (by assumption) c!"SSS" rfl
  · rfl

theorem start_append (w t : Str) (h : 3 ≤ w.length) : nysiisStart (w ++ t) = nysiisStart w ++ t := by
  match w, h with
  | a :: b :: c :: r, _ =>
    unfold nysiisStart
    simp only [List.cons_append, List.cons_prefix_cons, List.nil_prefix, and_true]
    repeat' split
    all_goals simp

/-- The end rules change at most the last two letters. -/
theorem end_append (a b : Str) (h : 2 ≤ b.length) : ∃ z, nysiisEnd (a ++ b) = a ++ z ∧ z.length ≤ b.length := by
  have g : ∀ x : Str, x.length = 1 → ∃ z, (a ++ b).dropLast.dropLast ++ x = a ++ z ∧ z.length ≤ b.length := by
    intro x hx
    refine ⟨b.dropLast.dropLast ++ x, ?_, ?_⟩
    · rw [List.dropLast_append_of_ne_nil (by intro h0; subst h0; simp at h), List.dropLast_append_of_ne_nil,
        List.append_assoc]
      intro h0
      have := congrArg List.length h0
      simp at this; omega
    · simp only [List.length_append, List.length_dropLast, hx]; omega
  unfold nysiisEnd
  split
  · exact g _ rfl
  · split
    · exact g _ rfl
    · exact ⟨b, rfl, Nat.le_refl _⟩

theorem end_length (w : Str) : (nysiisEnd w).length ≤ w.length := by
  have g : ∀ p : Str, p.length = 2 → p <:+ w → ∀ x : Str, x.length = 1 → (w.dropLast.dropLast ++ x).length ≤ w.length := by
    intro p hp h x hx
    have := h.length_le
    simp only [List.length_append, List.length_dropLast, hx]; omega
  unfold nysiisEnd
  split
  · rename_i h
    rcases h with h | h <;> exact g _ rfl h _ rfl
  · split
    · rename_i h
      rcases h with h | h | h | h | h <;> exact g _ rfl h _ rfl
    · exact Nat.le_refl _

theorem letter_append (prev c x y : Char) (r z : Str) :
    nysiisLetter prev c (x :: y :: r ++ z) =
      ((nysiisLetter prev c (x :: y :: r)).1, (nysiisLetter prev c (x :: y :: r)).2 ++ z) ∧
    (nysiisLetter prev c (x :: y :: r)).2.length = r.length + 2 := by
  unfold nysiisLetter
  simp only [List.cons_append, List.cons_prefix_cons, List.nil_prefix, and_true,
    show ∀ w : Str, (x :: w).take 1 = [x] from fun _ => rfl]
  by_cases h0 : c = 'E' ∧ 'V' = x
  · simp only [if_pos h0]; exact ⟨rfl, by simp⟩
  simp only [if_neg h0]
  by_cases h1 : nysiisVowel c = true
  · simp only [if_pos h1]; exact ⟨rfl, by simp⟩
  simp only [if_neg h1]
  by_cases h2 : c = 'Q'
  · simp only [if_pos h2]; exact ⟨rfl, by simp⟩
  simp only [if_neg h2]
  by_cases h3 : c = 'Z'
  · simp only [if_pos h3]; exact ⟨rfl, by simp⟩
  simp only [if_neg h3]
  by_cases h4 : c = 'M'
  · simp only [if_pos h4]; exact ⟨rfl, by simp⟩
  simp only [if_neg h4]
  by_cases h5 : c = 'K' ∧ 'N' = x
  · simp only [if_pos h5]; exact ⟨rfl, by simp⟩
  simp only [if_neg h5]
  by_cases h6 : c = 'K'
  · simp only [if_pos h6]; exact ⟨rfl, by simp⟩
  simp only [if_neg h6]
  by_cases h7 : c = 'S' ∧ 'C' = x ∧ 'H' = y
  · simp only [if_pos h7]; exact ⟨rfl, by simp⟩
  simp only [if_neg h7]
  by_cases h8 : c = 'P' ∧ 'H' = x
  · simp only [if_pos h8]; exact ⟨rfl, by simp⟩
  simp only [if_neg h8]
  by_cases h9 : c = 'H'
  · simp only [if_pos h9]
    by_cases h10 : nysiisVowel prev = true ∧ [x].any nysiisVowel = true
    · simp only [if_pos h10]; exact ⟨rfl, by simp⟩
    · simp only [if_neg h10]; exact ⟨rfl, by simp⟩
  simp only [if_neg h9]
  by_cases h11 : c = 'W' ∧ nysiisVowel prev = true
  · simp only [if_pos h11]; exact ⟨rfl, by simp⟩
  · simp only [if_neg h11]; exact ⟨rfl, by simp⟩

/-- A letter is rewritten looking at no more than the next two. -/
theorem letters_local (k : Nat) : ∀ (prev : Char) (r : Str), r.length = k + 2 →
    ∃ (out : Str) (prev' : Char) (r' : Str), out.length = k ∧ r'.length = 2 ∧
      ∀ (z : Str) (n : Nat), k ≤ n → nysiisLetters n prev (r ++ z) = out ++ nysiisLetters (n - k) prev' (r' ++ z) := by
  induction k with
  | zero => exact fun prev r h => ⟨[], prev, r, rfl, h, fun z n _ => by simp⟩
  | succ k ih =>
    intro prev r h
    match r, h with
    | c :: x :: y :: r, h =>
      obtain ⟨_, h2⟩ := letter_append prev c x y r []
      obtain ⟨out, prev', r', g1, g2, g3⟩ := ih (nysiisLetter prev c (x :: y :: r)).1 (nysiisLetter prev c (x :: y :: r)).2
        (by rw [h2]; simp only [List.length_cons] at h; omega)
      refine ⟨(nysiisLetter prev c (x :: y :: r)).1 :: out, prev', r', by simp [g1], g2, fun z n hn => ?_⟩
      obtain ⟨m, rfl⟩ : ∃ m, n = m + 1 := ⟨n - 1, by omega⟩
      rw [List.cons_append, nysiisLetters, (letter_append prev c x y r z).1]
      simp only
      rw [g3 z m (by omega), show m + 1 - (k + 1) = m - k by omega]
      rfl

theorem letters_length (n : Nat) : ∀ (prev : Char) (r : Str), (nysiisLetters n prev r).length ≤ n := by
  induction n with
  | zero => intro prev r; simp [nysiisLetters]
  | succ n ih =>
    intro prev r
    cases r with
    | nil => simp [nysiisLetters]
    | cons c r => simp only [nysiisLetters, List.length_cons]; have := ih (nysiisLetter prev c r).1 (nysiisLetter prev c r).2; omega

theorem take_dropLast {k : Nat} {w : Str} (h : k < w.length) : w.take k <+: w.dropLast := by
  rw [List.dropLast_eq_take]
  exact List.take_prefix_take_left (by omega)

/-- The final rules change at most the last three characters. -/
theorem finish_prefix (key p : Str) (h : p <+: key) (hl : p.length + 3 ≤ key.length) : p <+: nysiisFinish key := by
  have drop : ∀ k : Str, p <+: k → p.length + 1 ≤ k.length → p <+: k.dropLast := by
    intro k hk hl
    rw [List.prefix_iff_eq_take.mp hk]
    exact take_dropLast (by omega)
  unfold nysiisFinish
  split
  · exact h
  · simp only
    generalize hk : (if c!"S" <:+ key then key.dropLast else key) = k
    have h1 : p <+: k ∧ p.length + 2 ≤ k.length := by
      subst hk
      split
      · exact ⟨drop _ h (by omega), by simp; omega⟩
      · exact ⟨h, by omega⟩
    clear hk
    generalize hj : (if c!"AY" <:+ k ∧ k ≠ c!"AY" then k.dropLast.dropLast ++ c!"Y" else k) = j
    have h2 : p <+: j ∧ p.length + 1 ≤ j.length := by
      subst hj
      split
      · refine ⟨(drop _ (drop _ h1.1 (by omega)) (by simp; omega)).trans (List.prefix_append _ _), by simp; omega⟩
      · exact ⟨h1.1, by omega⟩
    split
    · exact drop _ h2.1 h2.2
    · exact h2.1

theorem finish_length (key : Str) : (nysiisFinish key).length ≤ key.length := by
  unfold nysiisFinish
  split
  · exact Nat.le_refl _
  · simp only
    generalize hk : (if c!"S" <:+ key then key.dropLast else key) = k
    have h1 : k.length ≤ key.length := by
      subst hk
      split <;> simp
    generalize hj : (if c!"AY" <:+ k ∧ k ≠ c!"AY" then k.dropLast.dropLast ++ c!"Y" else k) = j
    have h2 : j.length ≤ k.length := by
      subst hj
      split
      · rename_i h
        have := h.1.length_le
        simp at this ⊢; omega
      · exact Nat.le_refl _
    split
    · simp; omega
    · omega

theorem nysiis_length (U : Unicode) (s : Str) : (nysiis U s).length ≤ (letters U s).length := by
  have h := end_length (nysiisStart (letters U s))
  rw [start_length] at h
  unfold nysiis
  split
  · simp
  · rename_i c rest hw
    rw [hw] at h
    refine Nat.le_trans (finish_length _) (Nat.le_trans (collapse_length_le _) ?_)
    have := letters_length rest.length c rest
    simp only [List.length_cons] at h ⊢; omega

/-- If the letter after the next is not H, the rewriting of a letter does not depend on it. -/
theorem letter_two (prev c a x y : Char) (m m' : Str) (hx : x ≠ 'H') (hy : y ≠ 'H') :
    ∃ o a', nysiisLetter prev c (a :: x :: m) = (o, a' :: x :: m) ∧
      nysiisLetter prev c (a :: y :: m') = (o, a' :: y :: m') := by
  unfold nysiisLetter
  simp only [List.cons_append, List.cons_prefix_cons, List.nil_prefix, and_true, hx.symm, hy.symm, and_false, if_false,
    show ∀ w : Str, (a :: w).take 1 = [a] from fun _ => rfl, List.drop_succ_cons, List.drop_zero, List.nil_append]
  by_cases h0 : c = 'E' ∧ 'V' = a
  · exact ⟨_, _, by rw [if_pos h0], by rw [if_pos h0]⟩
  simp only [if_neg h0]
  by_cases h8 : c = 'P' ∧ 'H' = a
  · obtain ⟨rfl, rfl⟩ := h8
    exact ⟨'F', 'F', by simp [nysiisVowel], by simp [nysiisVowel]⟩
  simp only [if_neg h8]
  refine ⟨(nysiisLetter prev c [a]).1, a, ?_, ?_⟩ <;>
  · unfold nysiisLetter
    simp only [List.cons_prefix_cons, List.nil_prefix, and_true, if_neg h0, if_neg h8, List.prefix_nil, List.cons_ne_nil, reduceCtorEq, and_false, if_false,
      show [a].take 1 = [a] from rfl]
    repeat' first | rfl | split

/-- The letter that a letter becomes is decided by the next one. -/
theorem letter_first (prev c a : Char) (m m' : Str) : (nysiisLetter prev c (a :: m)).1 = (nysiisLetter prev c (a :: m')).1 := by
  by_cases hS : c = 'S'
  · subst hS
    have : ∀ w : Str, (nysiisLetter prev 'S' w).1 = 'S' := by
      intro w
      unfold nysiisLetter
      simp [nysiisVowel]
      split <;> rfl
    rw [this, this]
  · unfold nysiisLetter
    simp only [List.cons_prefix_cons, List.nil_prefix, and_true, hS, false_and, if_false,
      show ∀ w : Str, (a :: w).take 1 = [a] from fun _ => rfl, apply_ite Prod.fst]

/-- Only V, H and CH are rewritten together with the letter before them. -/
theorem letter_rest (prev c x : Char) (m : Str) (hx : x ∈ c!"YDEIRN") : (nysiisLetter prev c (x :: m)).2 = x :: m := by
  have h1 : 'V' ≠ x := by intro h; subst h; revert hx; decide
  have h2 : 'C' ≠ x := by intro h; subst h; revert hx; decide
  have h3 : 'H' ≠ x := by intro h; subst h; revert hx; decide
  unfold nysiisLetter
  simp only [List.cons_prefix_cons, List.nil_prefix, and_true, h1, h2, h3, false_and, and_false, if_false]
  repeat' first | rfl | split

theorem letter_not_s (prev x : Char) (m : Str) (hx : x ∈ c!"YDEIRN") : (nysiisLetter prev x m).1 ≠ 'S' := by
  simp only [List.mem_cons, List.not_mem_nil, or_false] at hx
  rcases hx with rfl | rfl | rfl | rfl | rfl | rfl <;> unfold nysiisLetter <;> simp [nysiisVowel] <;> split <;> simp

/-- What becomes of the last letters. -/
theorem end_cases (a : Str) (u v : Char) :
    nysiisEnd (a ++ [u, v]) = a ++ [u, v] ∨
    ∃ x ∈ c!"YD", u ∈ c!"EIDRN" ∧ v ∈ c!"ETD" ∧ nysiisEnd (a ++ [u, v]) = a ++ [x] := by
  have d : (a ++ [u, v]).dropLast.dropLast = a := by
    rw [List.dropLast_append_of_ne_nil (by simp)]; simp
  have e : ∀ p q : Char, [p, q] <:+ a ++ [u, v] ↔ u = p ∧ v = q := by
    intro p q
    constructor
    · rintro ⟨b, h⟩
      have := List.append_inj_right' h rfl
      simp at this; exact ⟨this.1.symm, this.2.symm⟩
    · rintro ⟨rfl, rfl⟩; exact List.suffix_append _ _
  unfold nysiisEnd
  simp only [e, d]
  by_cases h1 : u = 'E' ∧ v = 'E' ∨ u = 'I' ∧ v = 'E'
  · rw [if_pos h1]
    refine .inr ⟨'Y', by simp, ?_, ?_, rfl⟩ <;> rcases h1 with ⟨rfl, rfl⟩ | ⟨rfl, rfl⟩ <;> simp
  rw [if_neg h1]
  split
  · rename_i h2
    refine .inr ⟨'D', by simp, ?_, ?_, rfl⟩ <;>
      rcases h2 with ⟨rfl, rfl⟩ | ⟨rfl, rfl⟩ | ⟨rfl, rfl⟩ | ⟨rfl, rfl⟩ | ⟨rfl, rfl⟩ <;> simp
  · exact .inl rfl

/-- The rewritten letters of a word, before runs are collapsed. -/
def raw (w : Str) : Str :=
  match nysiisEnd w with
  | [] => []
  | c :: rest => c :: nysiisLetters rest.length c rest

theorem raw_of {w : Str} {c : Char} {r : Str} (h : nysiisEnd w = c :: r) : raw w = c :: nysiisLetters r.length c r := by
  unfold raw; rw [h]

theorem raw_local (c : Char) (a : Str) (u v : Char) (ha : 2 ≤ a.length) (t : Str) (ht : t ≠ []) :
    ∃ o x x', o ≠ [] ∧ raw (c :: (a ++ [u, v])) = o ++ x ∧ raw (c :: (a ++ [u, v] ++ t)) = o ++ x' ∧
      (x.length ≤ 1 ∨ x.length ≤ 2 ∧ ∃ y ∈ x', y ≠ 'S') := by
  rcases end_cases (c :: a) u v with h | ⟨x, hx, hu, hv, h⟩ <;> simp only [List.cons_append] at h
  · -- the end of the word is not rewritten
    have second : (∃ t', nysiisEnd (c :: (a ++ [u, v] ++ t)) = c :: (a ++ [u, v] ++ t')) ∨
        ∃ x ∈ c!"YD", v ∈ c!"EIDRN" ∧ nysiisEnd (c :: (a ++ [u, v] ++ t)) = c :: (a ++ [u] ++ [x]) := by
      by_cases h2 : 2 ≤ t.length
      · obtain ⟨z, hz, _⟩ := end_append (c :: (a ++ [u, v])) t h2
        exact .inl ⟨z, by simpa using hz⟩
      · obtain ⟨g, rfl⟩ : ∃ g, t = [g] := by
          cases t with
          | nil => exact absurd rfl ht
          | cons g t => cases t with
            | nil => exact ⟨g, rfl⟩
            | cons _ _ => simp at h2
        rcases end_cases (c :: (a ++ [u])) v g with k | ⟨x, hx, hu, _, k⟩
        · exact .inl ⟨[g], by simpa using k⟩
        · exact .inr ⟨x, hx, hu, by simpa using k⟩
    rcases second with ⟨t', h'⟩ | ⟨x, hx, hv, h'⟩
    · obtain ⟨out, prev, r, h1, h2, h3⟩ := letters_local a.length c (a ++ [u, v]) (by simp)
      obtain ⟨u', v', rfl⟩ : ∃ u' v', r = [u', v'] := by
        match r, h2 with
        | [x, y], _ => exact ⟨x, y, rfl⟩
      have e1 := h3 [] (a.length + 2) (by omega)
      have e2 := h3 t' (a.length + 2 + t'.length) (by omega)
      rw [show a.length + 2 - a.length = 1 + 1 by omega] at e1
      rw [show a.length + 2 + t'.length - a.length = (t'.length + 1) + 1 by omega] at e2
      refine ⟨c :: out ++ [(nysiisLetter prev u' [v']).1], nysiisLetters 1 (nysiisLetter prev u' [v']).1 (nysiisLetter prev u' [v']).2,
        nysiisLetters (t'.length + 1) (nysiisLetter prev u' (v' :: t')).1 (nysiisLetter prev u' (v' :: t')).2, by simp, ?_, ?_, .inl (letters_length _ _ _)⟩
      · rw [raw_of h]
        simp only [List.append_nil] at e1
        rw [show (a ++ [u, v]).length = a.length + 2 by simp, e1, nysiisLetters]
        simp
      · rw [raw_of h', show (a ++ [u, v] ++ t').length = a.length + 2 + t'.length by simp; omega, e2, letter_first prev u' v' [] t']
        simp only [List.cons_append, List.nil_append]
        rw [nysiisLetters]
        simp
    · have hxH : x ≠ 'H' := by intro g; subst g; revert hx; decide
      have hvH : v ≠ 'H' := by intro g; subst g; revert hv; decide
      obtain ⟨k, hk⟩ : ∃ k, a.length = k + 1 := ⟨a.length - 1, by omega⟩
      obtain ⟨out, prev, r, h1, h2, h3⟩ := letters_local k c (a ++ [u]) (by simp [hk])
      obtain ⟨l, u', rfl⟩ : ∃ u' v', r = [u', v'] := by
        match r, h2 with
        | [x, y], _ => exact ⟨x, y, rfl⟩
      have e1 := h3 [v] (k + 3) (by omega)
      have e2 := h3 [x] (k + 3) (by omega)
      rw [show k + 3 - k = 2 + 1 by omega] at e1 e2
      obtain ⟨o, u2, q1, q2⟩ := letter_two prev l u' v x [] [] hvH hxH
      refine ⟨c :: out ++ [o], nysiisLetters 2 o [u2, v], nysiisLetters 2 o [u2, x], by simp, ?_, ?_, .inr ⟨letters_length _ _ _, ?_⟩⟩
      · rw [raw_of h]
        simp only [List.append_assoc, List.cons_append, List.nil_append] at e1 ⊢
        rw [show (a ++ [u, v]).length = k + 3 by simp [hk], e1, nysiisLetters, q1]
      · rw [raw_of h']
        simp only [List.append_assoc, List.cons_append, List.nil_append] at e2 ⊢
        rw [show (a ++ [u, x]).length = k + 3 by simp [hk], e2, nysiisLetters, q2]
      · have hx' : x ∈ c!"YDEIRN" := by
          simp only [List.mem_cons, List.not_mem_nil, or_false] at hx ⊢
          rcases hx with rfl | rfl <;> simp
        refine ⟨_, ?_, letter_not_s (nysiisLetter o u2 [x]).1 x [] hx'⟩
        simp only [nysiisLetters, letter_rest o u2 x [] hx']
        simp
  · -- the end of the word is rewritten
    obtain ⟨m, h'⟩ : ∃ m, nysiisEnd (c :: (a ++ [u, v] ++ t)) = c :: (a ++ u :: m) := by
      obtain ⟨z, hz, _⟩ := end_append (c :: (a ++ [u])) (v :: t) (by cases t; exact absurd rfl ht; simp)
      exact ⟨z, by simpa using hz⟩
    have hxH : x ≠ 'H' := by intro g; subst g; revert hx; decide
    have huH : u ≠ 'H' := by intro g; subst g; revert hu; decide
    obtain ⟨k, hk⟩ : ∃ k, a.length = k + 2 := ⟨a.length - 2, by omega⟩
    obtain ⟨out, prev, r, h1, h2, h3⟩ := letters_local k c a hk
    obtain ⟨g, l, rfl⟩ : ∃ u' v', r = [u', v'] := by
      match r, h2 with
      | [x, y], _ => exact ⟨x, y, rfl⟩
    have e1 := h3 [x] (k + 3) (by omega)
    have e2 := h3 (u :: m) (k + 3 + m.length) (by omega)
    rw [show k + 3 - k = 2 + 1 by omega] at e1
    rw [show k + 3 + m.length - k = (m.length + 1 + 1) + 1 by omega] at e2
    obtain ⟨o, l2, q1, q2⟩ := letter_two prev g l x u [] m hxH huH
    refine ⟨c :: out ++ [o], nysiisLetters 2 o [l2, x], nysiisLetters (m.length + 1 + 1) o (l2 :: u :: m), by simp, ?_, ?_, .inr ⟨letters_length _ _ _, ?_⟩⟩
    · rw [raw_of h]
      simp only [List.append_assoc, List.cons_append, List.nil_append] at e1 ⊢
      rw [show (a ++ [x]).length = k + 3 by simp [hk], e1, nysiisLetters, q1]
    · rw [raw_of h']
      simp only [List.append_assoc, List.cons_append, List.nil_append] at e2 ⊢
      rw [show (a ++ u :: m).length = k + 3 + m.length by simp [hk]; omega, e2, nysiisLetters, q2]
    · have hu' : u ∈ c!"YDEIRN" := by
        simp only [List.mem_cons, List.not_mem_nil, or_false] at hu ⊢
        rcases hu with rfl | rfl | rfl | rfl | rfl <;> simp
      refine ⟨_, ?_, letter_not_s (nysiisLetter o l2 (u :: m)).1 u m hu'⟩
      rw [nysiisLetters, letter_rest o l2 u m hu', nysiisLetters]
      simp

/-- Letters that add nothing to a collapsed word all equal its last one. -/
theorem collapse_same (a b : Str) (ha : a ≠ []) (h : (collapse (a ++ b)).length = (collapse a).length) :
    ∀ y ∈ b, (collapse a).getLast? = some y := by
  induction a with
  | nil => exact absurd rfl ha
  | cons x a ih =>
    cases a with
    | nil =>
      clear ih
      simp only [List.cons_append, List.nil_append] at h
      have : ∀ (b : Str), (collapse (x :: b)).length = 1 → ∀ y ∈ b, y = x := by
        intro b
        induction b with
        | nil => intro _ y hy; cases hy
        | cons z b ih =>
          intro h
          rw [collapse_cons_cons] at h
          by_cases hz : x = z
          · subst hz
            rw [if_pos rfl] at h
            intro y hy
            rcases List.mem_cons.mp hy with rfl | hy
            · rfl
            · exact ih h y hy
          · rw [if_neg hz] at h
            obtain ⟨w, hw⟩ := collapse_head z b
            rw [hw] at h
            simp at h
      intro y hy
      rw [this b (by simpa [collapse] using h) y hy]
      simp [collapse]
    | cons y a =>
      simp only [List.cons_append] at ih h ⊢
      rw [collapse_cons_cons, collapse_cons_cons] at h
      rw [collapse_cons_cons]
      by_cases hxy : x = y
      · rw [if_pos hxy] at h ⊢; rw [if_pos hxy] at h; exact ih (by simp) h
      · rw [if_neg hxy] at h ⊢
        rw [if_neg hxy] at h
        simp only [List.length_cons, Nat.add_right_cancel_iff] at h
        intro z hz
        have := ih (by simp) h z hz
        obtain ⟨w, hw⟩ := collapse_head y a
        rw [hw] at this ⊢
        simpa using this

/-- Without a final S, the final rules change at most the last two characters. -/
theorem finish_prefix_two (key p : Str) (h : p <+: key) (hS : key.getLast? ≠ some 'S') (hl : p.length + 2 ≤ key.length) :
    p <+: nysiisFinish key := by
  have drop : ∀ k : Str, p <+: k → p.length + 1 ≤ k.length → p <+: k.dropLast := by
    intro k hk hl
    rw [List.prefix_iff_eq_take.mp hk]
    exact take_dropLast (by omega)
  have hs : ¬ c!"S" <:+ key := by
    rintro ⟨b, rfl⟩
    exact hS (by simp)
  unfold nysiisFinish
  split
  · exact h
  · simp only [if_neg hs]
    generalize hj : (if c!"AY" <:+ key ∧ key ≠ c!"AY" then key.dropLast.dropLast ++ c!"Y" else key) = j
    have h2 : p <+: j ∧ p.length + 1 ≤ j.length := by
      subst hj
      split
      · refine ⟨(drop _ (drop _ h (by omega)) (by simp; omega)).trans (List.prefix_append _ _), by simp; omega⟩
      · exact ⟨h, by omega⟩
    split
    · exact drop _ h2.1 h2.2
    · exact h2.1

theorem nysiis_raw (U : Unicode) (s : Str) :
    nysiis U s = nysiisFinish (collapse (raw (nysiisStart (letters U s)))) := by
  unfold nysiis raw
  cases hw : nysiisEnd (nysiisStart (letters U s)) with
  | nil => simp [collapse, nysiisFinish, byteLen]
  | cons c r => rfl

theorem finish_local (o x x' : Str) (ho : o ≠ []) (h : x.length ≤ 1 ∨ x.length ≤ 2 ∧ ∃ y ∈ x', y ≠ 'S') :
    ∃ p, p <+: nysiisFinish (collapse (o ++ x)) ∧ p <+: nysiisFinish (collapse (o ++ x')) ∧
      (nysiisFinish (collapse (o ++ x))).length ≤ p.length + 4 := by
  obtain ⟨g1, g2⟩ := collapse_append o x
  obtain ⟨g3, _⟩ := collapse_append o x'
  have f1 := finish_length (collapse (o ++ x))
  have l1 := g1.length_le
  have l3 := g3.length_le
  -- `k` characters less than the common part of the keys
  have take : ∀ k, (k = 2 ∨ k = 3) → (collapse (o ++ x)).length ≤ (collapse o).length + (4 - k) →
      (∀ p : Str, p <+: collapse o → p.length + k ≤ (collapse o).length → p <+: nysiisFinish (collapse (o ++ x'))) →
      (∀ p : Str, p <+: collapse o → p.length + k ≤ (collapse o).length → p <+: nysiisFinish (collapse (o ++ x))) →
      ∃ p, p <+: nysiisFinish (collapse (o ++ x)) ∧ p <+: nysiisFinish (collapse (o ++ x')) ∧
      (nysiisFinish (collapse (o ++ x))).length ≤ p.length + 4 := by
    intro k hk hx H1 H2
    by_cases h3 : k ≤ (collapse o).length
    · have t1 := List.take_prefix ((collapse o).length - k) (collapse o)
      have l2 : ((collapse o).take ((collapse o).length - k)).length + k = (collapse o).length := by simp; omega
      exact ⟨_, H2 _ t1 (by omega), H1 _ t1 (by omega), by omega⟩
    · exact ⟨[], List.nil_prefix, List.nil_prefix, by simp; omega⟩
  by_cases hx : (collapse (o ++ x)).length ≤ (collapse o).length + 1
  · exact take 3 (.inr rfl) (by omega) (fun p hp hl => finish_prefix _ _ (hp.trans g3) (by omega))
      (fun p hp hl => finish_prefix _ _ (hp.trans g1) (by omega))
  · obtain ⟨hx2, y, hy, hyS⟩ := h.resolve_left (by omega)
    refine take 2 (.inl rfl) (by omega) (fun p hp hl => ?_) (fun p hp hl => finish_prefix _ _ (hp.trans g1) (by omega))
    by_cases he : (collapse (o ++ x')).length = (collapse o).length
    · have e : collapse (o ++ x') = collapse o := (g3.eq_of_length he.symm).symm
      rw [e]
      refine finish_prefix_two _ _ hp ?_ hl
      rw [collapse_same o x' ho he y hy]
      simpa using hyS
    · exact finish_prefix _ _ (hp.trans g3) (by omega)

theorem nysiis_local (U : Unicode) (s t : Str) : ∃ p, p <+: nysiis U s ∧ p <+: nysiis U (s ++ t) ∧
    (nysiis U s).length ≤ p.length + 4 := by
  by_cases hs : (letters U s).length ≤ 4
  · exact ⟨[], List.nil_prefix, List.nil_prefix, by have := nysiis_length U s; simp; omega⟩
  by_cases ht : letters U t = []
  · refine ⟨nysiis U s, List.prefix_rfl, ?_, by omega⟩
    unfold nysiis
    rw [letters_append, ht, List.append_nil]
    exact List.prefix_rfl
  obtain ⟨c, a, u, v, hw, ha⟩ : ∃ (c : Char) (a : Str) (u v : Char), nysiisStart (letters U s) = c :: (a ++ [u, v]) ∧
      2 ≤ a.length := by
    have hl := start_length (letters U s)
    cases hv : nysiisStart (letters U s) with
    | nil => rw [hv] at hl; simp at hl; omega
    | cons c w =>
      rw [hv] at hl; simp only [List.length_cons] at hl
      have hd : (w.drop (w.length - 2)).length = 2 := by simp; omega
      obtain ⟨u, v, huv⟩ : ∃ u v, w.drop (w.length - 2) = [u, v] := by
        match w.drop (w.length - 2), hd with
        | [u, v], _ => exact ⟨u, v, rfl⟩
      exact ⟨c, w.take (w.length - 2), u, v, by rw [← huv, List.take_append_drop], by simp; omega⟩
  have hw' : nysiisStart (letters U (s ++ t)) = c :: (a ++ [u, v] ++ letters U t) := by
    rw [letters_append, start_append _ _ (by omega), hw]; simp
  obtain ⟨o, x, x', ho, r1, r2, h⟩ := raw_local c a u v ha (letters U t) ht
  rw [nysiis_raw U s, nysiis_raw U (s ++ t), hw, hw', r1, r2]
  exact finish_local o x x' ho h

end LocalProofs

/-- C91. NYSIIS, not strict: letters appended to a name change at most the last four characters of its code; the
rest is the beginning of the new code (every Unicode text). -/
theorem nysiis_extends (U : Unicode) (s t : Str) :
    ∃ p q r, (Nysiis.new false).encode U s = .ok (p ++ q) ∧ (Nysiis.new false).encode U (s ++ t) = .ok (p ++ r) ∧
      q.length ≤ 4 := by
  obtain ⟨p, ⟨q, h1⟩, ⟨r, h2⟩, h3⟩ := LocalProofs.nysiis_local U s t
  refine ⟨p, q, r, ?_, ?_, ?_⟩
  · rw [(nysiis_eq_spec U s).1, h1]
  · rw [(nysiis_eq_spec U (s ++ t)).1, h2]
  · rw [← h1] at h3; simp at h3; omega

/-- C91. Strict NYSIIS: a name whose full code has at least ten characters has the code of every name that
begins with it. -/
theorem nysiis_beginning (U : Unicode) (s t c : Str) (hs : AsciiStr s) (ht : AsciiStr t)
    (hc : (Nysiis.new false).encode U s = .ok c) (hn : 10 ≤ c.length) :
    (Nysiis.new true).encode U (s ++ t) = (Nysiis.new true).encode U s := by
  obtain ⟨p, q, r, h1, h2, h3⟩ := nysiis_extends U s t
  have ha : AsciiStr (s ++ t) := fun c hc => (List.mem_append.mp hc).elim (hs c) (ht c)
  obtain ⟨c1, g1, g2⟩ := nysiis_strict_prefix U s hs
  obtain ⟨c2, g3, g4⟩ := nysiis_strict_prefix U (s ++ t) ha
  have k1 : p ++ q = c1 := Except.ok.inj (h1.symm.trans g1)
  have k2 : p ++ r = c2 := Except.ok.inj (h2.symm.trans g3)
  have k3 : p ++ q = c := Except.ok.inj (h1.symm.trans hc)
  have hp : 6 ≤ p.length := by
    have := congrArg List.length k3
    rw [List.length_append] at this
    omega
  rw [g2, g4, ← k1, ← k2, List.take_append_of_le_length hp, List.take_append_of_le_length hp]

/-- C91. Both numbers are exact: four characters can change ("Blaysc", "Blaysch"), and a code of nine characters does not
decide the strict code ("Blablaysc", "Blablaysch"). -/
theorem nysiis_extends_sharp : (Nysiis.new false).encode .latin1 c!"Blaysc" = .ok c!"BLAYSC" ∧
    (Nysiis.new false).encode .latin1 c!"Blaysch" = .ok c!"BLY" ∧
    (Nysiis.new false).encode .latin1 c!"Blablaysc" = .ok c!"BLABLAYSC" ∧
    (Nysiis.new true).encode .latin1 c!"Blablaysc" = .ok c!"BLABLA" ∧
    (Nysiis.new true).encode .latin1 c!"Blablaysch" = .ok c!"BLABLY" := by decide +kernel

/-- A name with a code of nineteen characters, and a continuation. -/
theorem nysiis_extends_example :
    (Nysiis.new false).encode .latin1 c!"Wolfeschlegelsteinhausen" = .ok c!"WALFASLAGALSTANASAN" ∧
    (Nysiis.new true).encode .latin1 c!"Wolfeschlegelsteinhausen" = .ok c!"WALFAS" ∧
    (Nysiis.new true).encode .latin1 c!"Wolfeschlegelsteinhausenbergerdorff" = .ok c!"WALFAS" := by decide +kernel

end Verif.Props
