import Verif.Proofs.Str
import Verif.Spec.Common
import Verif.Model.Lib
/-!
# Lemmas about `collapse`, `letters`, `agreements`
-/

namespace Verif
open Spec

theorem soundexClean_eq_letters (U : Unicode) (s : Str) : soundexClean U s = letters U s := rfl

theorem letters_ascii (U : Unicode) {s : Str} (h : AsciiStr s) : letters U s = asciiLetters s := by
  induction s with
  | nil => rfl
  | cons c cs ih =>
    rw [asciiStr_cons] at h
    have ih := ih h.2
    simp only [letters, asciiLetters, List.filter_cons, U.isAlphabetic_ascii c h.1] at ih ⊢
    split
    · simp [U.toUpper_ascii c h.1, ih]
    · exact ih

theorem asciiLetters_upper {s : Str} : ∀ c ∈ asciiLetters s, isAsciiUpper c = true := by
  intro c hc
  simp only [asciiLetters, List.mem_map, List.mem_filter] at hc
  obtain ⟨a, ⟨_, ha⟩, rfl⟩ := hc
  exact isAsciiUpper_asciiUpper ha

theorem letters_append (U : Unicode) (a b : Str) : letters U (a ++ b) = letters U a ++ letters U b := by
  simp [letters]

theorem letters_eq_nil {U : Unicode} {s : Str} : letters U s = [] ↔ ∀ c ∈ s, U.isAlphabetic c = false := by
  induction s with
  | nil => simp [letters]
  | cons c cs ih =>
    simp only [letters, List.filter_cons] at ih ⊢
    split
    · rename_i h
      simp [U.toUpper_ne_nil, h]
    · rename_i h
      rw [ih]; simp_all

theorem collapse_cons_cons (a b : Char) (r : Str) :
    collapse (a :: b :: r) = if a = b then collapse (b :: r) else a :: collapse (b :: r) := by
  simp [collapse]

theorem collapse_head (a : Char) (r : Str) : ∃ t, collapse (a :: r) = a :: t := by
  induction r generalizing a with
  | nil => exact ⟨[], rfl⟩
  | cons b r ih =>
    rw [collapse_cons_cons]
    split
    · rename_i h; subst h; exact ih a
    · exact ⟨_, rfl⟩

theorem collapse_cons_drop (a : Char) (r : Str) : collapse (a :: r) = a :: (collapse (a :: r)).drop 1 := by
  obtain ⟨t, ht⟩ := collapse_head a r
  rw [ht]; rfl

theorem noAdjacentDup_collapse (s : Str) : NoAdjacentDup (collapse s) := by
  induction s with
  | nil => trivial
  | cons a r ih =>
    cases r with
    | nil => trivial
    | cons b r =>
      rw [collapse_cons_cons]
      split
      · exact ih
      · rename_i h
        obtain ⟨t, ht⟩ := collapse_head b r
        rw [ht] at ih ⊢
        exact ⟨h, ih⟩

theorem collapse_sublist (s : Str) : (collapse s).Sublist s := by
  induction s with
  | nil => exact List.Sublist.slnil
  | cons a r ih =>
    cases r with
    | nil => exact List.Sublist.refl _
    | cons b r =>
      rw [collapse_cons_cons]
      split
      · exact List.Sublist.cons _ ih
      · exact List.Sublist.cons_cons _ ih

theorem mem_collapse {c : Char} {s : Str} : c ∈ collapse s ↔ c ∈ s := by
  induction s with
  | nil => simp [collapse]
  | cons a r ih =>
    cases r with
    | nil => simp [collapse]
    | cons b r =>
      rw [collapse_cons_cons]
      split
      · rename_i h; subst h; rw [ih]; simp
      · simp only [List.mem_cons] at ih ⊢; rw [ih]

theorem collapse_length_le (s : Str) : (collapse s).length ≤ s.length := (collapse_sublist s).length_le

theorem agreements_cons (a b : Char) (as bs : Str) :
    agreements (a :: as) (b :: bs) = (if a = b then 1 else 0) + agreements as bs := by
  have hr : ∀ n, List.range (n + 1) = 0 :: (List.range n).map (· + 1) := by
    intro n; rw [List.range_succ_eq_map]
  have hm : min (as.length + 1) (bs.length + 1) = min as.length bs.length + 1 := by omega
  simp only [agreements, List.length_cons, hm, hr, List.countP_cons, List.countP_map]
  have : ((fun i => (a :: as)[i]? == (b :: bs)[i]?) ∘ fun x => x + 1) = fun i => as[i]? == bs[i]? := by
    funext i; simp
  rw [this]
  by_cases h : a = b <;> simp [h]; omega

theorem agreements_nil_left (b : Str) : agreements [] b = 0 := by simp [agreements]
theorem agreements_nil_right (a : Str) : agreements a [] = 0 := by simp [agreements]

theorem differenceLoop_eq (a b : Str) (n : Nat) :
    differenceLoop (a.zip b) n = n + agreements a b := by
  induction a generalizing b n with
  | nil => simp [differenceLoop, agreements_nil_left]
  | cons x xs ih =>
    cases b with
    | nil => simp [differenceLoop, agreements_nil_right]
    | cons y ys =>
      simp only [List.zip_cons_cons, differenceLoop, agreements_cons]
      split <;> rw [ih] <;> omega

theorem agreements_comm (a b : Str) : agreements a b = agreements b a := by
  induction a generalizing b with
  | nil => rw [agreements_nil_left, agreements_nil_right]
  | cons x xs ih =>
    cases b with
    | nil => rw [agreements_nil_left, agreements_nil_right]
    | cons y ys =>
      rw [agreements_cons, agreements_cons, ih]
      by_cases h : x = y
      · simp [h]
      · have : ¬ y = x := fun e => h e.symm
        simp [h, this]

theorem agreements_self (a : Str) : agreements a a = a.length := by
  induction a with
  | nil => rfl
  | cons x xs ih => rw [agreements_cons, ih]; simp; omega

theorem agreements_le (a b : Str) : agreements a b ≤ min a.length b.length := by
  have := List.countP_le_length (p := fun i => a[i]? == b[i]?) (l := List.range (min a.length b.length))
  simpa [agreements] using this

theorem agreements_eq_length_iff {a b : Str} (h : a.length = b.length) :
    agreements a b = a.length ↔ a = b := by
  induction a generalizing b with
  | nil =>
    cases b with
    | nil => simp [agreements]
    | cons y ys => simp at h
  | cons x xs ih =>
    cases b with
    | nil => simp at h
    | cons y ys =>
      simp only [List.length_cons, Nat.add_right_cancel_iff] at h
      have hle := agreements_le xs ys
      rw [agreements_cons, List.length_cons]
      by_cases hxy : x = y
      · subst hxy
        simp only [if_true, List.cons.injEq, true_and]
        rw [← ih h]; omega
      · simp only [hxy, if_false, List.cons.injEq, false_and, iff_false]
        omega

end Verif
