import Verif.Proofs.Str
/-!
# Lemmas about `str::replace`
-/

namespace Verif

theorem replaceAux_nil (pat to : Str) (k : Nat) : replaceAux pat to k [] = [] := by
  cases k <;> rfl

theorem replaceAux_skip (pat to : Str) (k : Nat) (s : Str) :
    replaceAux pat to k s = replaceAux pat to 0 (s.drop k) := by
  induction k generalizing s with
  | zero => simp
  | succ k ih =>
    cases s with
    | nil => simp [replaceAux_nil]
    | cons c cs => simp [replaceAux, ih]

theorem replaceAll_nil (pat to : Str) : replaceAll [] pat to = [] := rfl

/-- One step of `replace`: at an occurrence, emit the replacement and continue after it. -/
theorem replaceAll_cons (c : Char) (cs pat to : Str) (hp : pat ≠ []) :
    replaceAll (c :: cs) pat to =
      if pat.isPrefixOf (c :: cs) then to ++ replaceAll ((c :: cs).drop pat.length) pat to
      else c :: replaceAll cs pat to := by
  simp only [replaceAll, replaceAux]
  split
  · rw [replaceAux_skip]
    cases pat with
    | nil => exact absurd rfl hp
    | cons p ps => simp
  · rfl

/-- Replacing a single character. -/
theorem replaceAll_single (s : Str) (a : Char) (to : Str) :
    replaceAll s [a] to = s.flatMap (fun c => if c = a then to else [c]) := by
  induction s with
  | nil => rfl
  | cons c cs ih =>
    rw [replaceAll_cons _ _ _ _ (by simp), List.flatMap_cons, ← ih]
    by_cases h : a = c
    · subst h; simp
    · have : ¬ c = a := fun e => h e.symm
      simp [h, this]

theorem replaceAll_single_char (s : Str) (a b : Char) :
    replaceAll s [a] [b] = s.map (fun c => if c = a then b else c) := by
  rw [replaceAll_single]
  induction s with
  | nil => rfl
  | cons c cs ih => rw [List.flatMap_cons, ih]; split <;> simp [*]

theorem replaceAll_single_nil (s : Str) (a : Char) :
    replaceAll s [a] [] = s.filter (· ≠ a) := by
  rw [replaceAll_single]
  induction s with
  | nil => rfl
  | cons c cs ih => rw [List.flatMap_cons, ih]; by_cases h : c = a <;> simp [h]

/-- Every character of the result comes from the string or from the replacement. -/
theorem mem_replaceAll {s pat to : Str} {x : Char} (hp : pat ≠ []) (h : x ∈ replaceAll s pat to) :
    x ∈ s ∨ x ∈ to := by
  induction hn : s.length using Nat.strongRecOn generalizing s with
  | ind n ih =>
    cases s with
    | nil => simp [replaceAll_nil] at h
    | cons c cs =>
      rw [replaceAll_cons _ _ _ _ hp] at h
      split at h
      · rcases List.mem_append.mp h with h | h
        · exact Or.inr h
        · have hlen : 0 < pat.length := List.length_pos_iff.mpr hp
          rcases ih _ (by subst hn; simp; omega) h rfl with h | h
          · exact Or.inl (List.mem_of_mem_drop h)
          · exact Or.inr h
      · rcases List.mem_cons.mp h with h | h
        · exact Or.inl (by simp [h])
        · rcases ih _ (by subst hn; simp) h rfl with h | h
          · exact Or.inl (by simp [h])
          · exact Or.inr h

end Verif
