import Verif.Model.BMRule
import Verif.Proofs.Str
/-!
# Lemmas about ordered sets and the order of phonemes
-/

namespace Verif.BMProofs
open BM

/-! ## The order of strings -/

theorem strCmp_lt (a b : Str) : strCmp a b = .lt ↔ a < b := by
  induction a generalizing b with
  | nil => cases b <;> simp [strCmp]
  | cons x xs ih =>
    cases b with
    | nil => simp [strCmp]
    | cons y ys =>
      rw [List.cons_lt_cons_iff]
      unfold strCmp
      by_cases h : x = y
      · subst h
        rw [if_pos rfl, ih]
        simp [Char.lt_irrefl]
      · rw [if_neg h]
        simp only [h, false_and, or_false]
        rw [Nat.compare_eq_lt]
        exact Iff.rfl

theorem strCmp_eq (a b : Str) : strCmp a b = .eq ↔ a = b := by
  induction a generalizing b with
  | nil => cases b <;> simp [strCmp]
  | cons x xs ih =>
    cases b with
    | nil => simp [strCmp]
    | cons y ys =>
      unfold strCmp
      by_cases h : x = y
      · subst h; rw [if_pos rfl, ih]; simp
      · rw [if_neg h]
        constructor
        · intro hc
          rw [Nat.compare_eq_eq] at hc
          exact absurd (Char.toNat_inj.mp hc) h
        · intro hc; cases hc; exact absurd rfl h

theorem strCmp_swap (a b : Str) : strCmp b a = (strCmp a b).swap := by
  induction a generalizing b with
  | nil => cases b <;> rfl
  | cons x xs ih =>
    cases b with
    | nil => rfl
    | cons y ys =>
      unfold strCmp
      by_cases h : x = y
      · subst h; simp [ih]
      · rw [if_neg h, if_neg (Ne.symm h)]
        exact (Nat.compare_swap _ _).symm

theorem strCmp_gt (a b : Str) : strCmp a b = .gt ↔ b < a := by
  rw [← strCmp_lt, strCmp_swap a b]
  cases strCmp a b <;> simp

theorem cmpZip_eq (a b : Str) :
    (match Phoneme.cmpZip (a.zip b) with
      | some o => o
      | none => compare (byteLen a) (byteLen b)) = strCmp a b := by
  induction a generalizing b with
  | nil =>
    cases b with
    | nil => rfl
    | cons y ys =>
      simp only [List.zip_nil_left, Phoneme.cmpZip, strCmp, byteLen]
      rw [Nat.compare_eq_lt]
      have := Char.utf8Size_pos y
      omega
  | cons x xs ih =>
    cases b with
    | nil =>
      simp only [List.zip_nil_right, Phoneme.cmpZip, strCmp, byteLen]
      rw [Nat.compare_eq_gt]
      have := Char.utf8Size_pos x
      omega
    | cons y ys =>
      simp only [List.zip_cons_cons, Phoneme.cmpZip, strCmp]
      by_cases h : x = y
      · subst h
        have e : compare (byteLen (x :: xs)) (byteLen (x :: ys)) = compare (byteLen xs) (byteLen ys) := by
          simp only [byteLen]
          rcases Nat.lt_trichotomy (byteLen xs) (byteLen ys) with h | h | h
          · rw [Nat.compare_eq_lt.mpr h, Nat.compare_eq_lt.mpr (by omega)]
          · rw [Nat.compare_eq_eq.mpr h, Nat.compare_eq_eq.mpr (by omega)]
          · rw [Nat.compare_eq_gt.mpr h, Nat.compare_eq_gt.mpr (by omega)]
        simp only [ne_eq, not_true_eq_false, if_false, if_true, e]
        exact ih ys
      · simp [h]

/-- Phonemes are compared by their texts. -/
theorem cmp_eq (p q : Phoneme) : p.cmp q = strCmp p.text q.text := by
  unfold Phoneme.cmp
  exact cmpZip_eq p.text q.text

/-! ## Ordered sets with an order given by a key -/

section sets
variable {α : Type} (key : α → Str) (cmp : α → α → Ordering)

/-- Strictly increasing keys. -/
def SortedBy (key : α → Str) (l : List α) : Prop := l.Pairwise fun x y => key x < key y

variable (hc : ∀ x y, cmp x y = strCmp (key x) (key y))

include hc in
theorem setInsert_keys (x : α) (s : List α) (k : Str) :
    k ∈ (setInsert cmp x s).map key ↔ k = key x ∨ k ∈ s.map key := by
  induction s with
  | nil => simp [setInsert]
  | cons y ys ih =>
    unfold setInsert
    cases h : cmp x y with
    | lt => simp
    | eq =>
      rw [hc, strCmp_eq] at h
      simp only [List.map_cons, List.mem_cons, h]
      exact ⟨fun h => .inr h, fun h => h.elim .inl id⟩
    | gt =>
      simp only [List.map_cons, List.mem_cons, ih]
      constructor
      · rintro (h | h | h)
        · exact .inr (.inl h)
        · exact .inl h
        · exact .inr (.inr h)
      · rintro (h | h | h)
        · exact .inr (.inl h)
        · exact .inl h
        · exact .inr (.inr h)

theorem mem_setInsert {x y : α} {s : List α} (h : y ∈ setInsert cmp x s) : y = x ∨ y ∈ s := by
  induction s with
  | nil => simp only [setInsert, List.mem_singleton] at h; exact .inl h
  | cons z zs ih =>
    unfold setInsert at h
    split at h
    · simpa using h
    · exact .inr h
    · rcases List.mem_cons.mp h with h | h
      · exact .inr (by simp [h])
      · rcases ih h with h | h
        · exact .inl h
        · exact .inr (by simp [h])

theorem mem_setInsert_of_mem {x y : α} {s : List α} (h : y ∈ s) : y ∈ setInsert cmp x s := by
  induction s with
  | nil => simp at h
  | cons z zs ih =>
    unfold setInsert
    split
    · simp [h]
    · exact h
    · rcases List.mem_cons.mp h with h | h
      · simp [h]
      · simp [ih h]

include hc in
theorem setInsert_sorted (x : α) {s : List α} (hs : SortedBy key s) : SortedBy key (setInsert cmp x s) := by
  induction s with
  | nil => simp [setInsert, SortedBy]
  | cons y ys ih =>
    have hp := List.pairwise_cons.mp hs
    unfold setInsert
    cases h : cmp x y with
    | lt =>
      rw [hc, strCmp_lt] at h
      refine List.pairwise_cons.mpr ⟨fun z hz => ?_, hs⟩
      rcases List.mem_cons.mp hz with rfl | hz
      · exact h
      · exact List.lt_trans h (hp.1 z hz)
    | eq => exact hs
    | gt =>
      rw [hc, strCmp_gt] at h
      refine List.pairwise_cons.mpr ⟨fun z hz => ?_, ih hp.2⟩
      rcases mem_setInsert cmp hz with rfl | hz
      · exact h
      · exact hp.1 z hz

include hc in
/-- Inserting a key that is there changes nothing. -/
theorem setInsert_old {x : α} {s : List α} (hs : SortedBy key s) (h : key x ∈ s.map key) :
    setInsert cmp x s = s := by
  induction s with
  | nil => simp at h
  | cons y ys ih =>
    have hp := List.pairwise_cons.mp hs
    unfold setInsert
    cases e : cmp x y with
    | eq => rfl
    | lt =>
      rw [hc, strCmp_lt] at e
      rcases List.mem_map.mp h with ⟨z, hz, hk⟩
      rcases List.mem_cons.mp hz with rfl | hz
      · rw [hk] at e; exact absurd e (List.lt_irrefl _)
      · have := hp.1 z hz
        rw [hk] at this
        exact absurd (List.lt_trans e this) (List.lt_irrefl _)
    | gt =>
      rw [hc, strCmp_gt] at e
      simp only [List.cons.injEq, true_and]
      apply ih hp.2
      rcases List.mem_map.mp h with ⟨z, hz, hk⟩
      rcases List.mem_cons.mp hz with rfl | hz
      · rw [hk] at e; exact absurd e (List.lt_irrefl _)
      · exact List.mem_map.mpr ⟨z, hz, hk⟩

include hc in
theorem setInsert_length {x : α} {s : List α} (hs : SortedBy key s) (h : key x ∉ s.map key) :
    (setInsert cmp x s).length = s.length + 1 := by
  induction s with
  | nil => rfl
  | cons y ys ih =>
    have hp := List.pairwise_cons.mp hs
    unfold setInsert
    cases e : cmp x y with
    | eq =>
      rw [hc, strCmp_eq] at e
      exact absurd (List.mem_map.mpr ⟨y, by simp, e.symm⟩) h
    | lt => simp
    | gt =>
      simp only [List.length_cons]
      rw [ih hp.2]
      intro h'
      apply h
      simp only [List.map_cons, List.mem_cons]
      exact .inr h'

theorem foldl_setInsert_keys (hc : ∀ x y, cmp x y = strCmp (key x) (key y)) (l s : List α) (k : Str) :
    k ∈ (l.foldl (fun s x => setInsert cmp x s) s).map key ↔ k ∈ s.map key ∨ k ∈ l.map key := by
  induction l generalizing s with
  | nil => simp
  | cons x xs ih =>
    rw [List.foldl_cons, ih, setInsert_keys key cmp hc]
    simp only [List.map_cons, List.mem_cons]
    constructor
    · rintro ((h | h) | h)
      · exact .inr (.inl h)
      · exact .inl h
      · exact .inr (.inr h)
    · rintro (h | h | h)
      · exact .inl (.inr h)
      · exact .inl (.inl h)
      · exact .inr h

theorem foldl_setInsert_sorted (hc : ∀ x y, cmp x y = strCmp (key x) (key y)) (l s : List α)
    (hs : SortedBy key s) : SortedBy key (l.foldl (fun s x => setInsert cmp x s) s) := by
  induction l generalizing s with
  | nil => exact hs
  | cons x xs ih => exact ih _ (setInsert_sorted key cmp hc x hs)

theorem mem_foldl_setInsert {l s : List α} {y : α}
    (h : y ∈ l.foldl (fun s x => setInsert cmp x s) s) : y ∈ s ∨ y ∈ l := by
  induction l generalizing s with
  | nil => exact .inl h
  | cons x xs ih =>
    rcases ih h with h | h
    · rcases mem_setInsert cmp h with rfl | h
      · exact .inr (by simp)
      · exact .inl h
    · exact .inr (by simp [h])

theorem setOfList_sorted (hc : ∀ x y, cmp x y = strCmp (key x) (key y)) (l : List α) :
    SortedBy key (setOfList cmp l) :=
  foldl_setInsert_sorted key cmp hc l [] List.Pairwise.nil

theorem setOfList_keys (hc : ∀ x y, cmp x y = strCmp (key x) (key y)) (l : List α) (k : Str) :
    k ∈ (setOfList cmp l).map key ↔ k ∈ l.map key := by
  unfold setOfList
  rw [foldl_setInsert_keys key cmp hc]
  simp

theorem mem_setOfList {l : List α} {y : α} (h : y ∈ setOfList cmp l) : y ∈ l := by
  rcases mem_foldl_setInsert cmp h with h | h
  · simp at h
  · exact h

theorem setReplace_sorted (hc : ∀ x y, cmp x y = strCmp (key x) (key y)) (x : α) {s : List α}
    (hs : SortedBy key s) : SortedBy key (setReplace cmp x s) := by
  induction s with
  | nil => simp [setReplace, SortedBy]
  | cons y ys ih =>
    have hp := List.pairwise_cons.mp hs
    have hm : ∀ z ∈ setReplace cmp x ys, z = x ∨ z ∈ ys := by
      clear ih hs hp
      induction ys with
      | nil => simp [setReplace]
      | cons w ws ihw =>
        intro z hz
        unfold setReplace at hz
        split at hz
        · simpa using hz
        · rcases List.mem_cons.mp hz with h | h
          · exact .inl h
          · exact .inr (by simp [h])
        · rcases List.mem_cons.mp hz with h | h
          · exact .inr (by simp [h])
          · rcases ihw z h with h | h
            · exact .inl h
            · exact .inr (by simp [h])
    unfold setReplace
    cases h : cmp x y with
    | lt =>
      rw [hc, strCmp_lt] at h
      refine List.pairwise_cons.mpr ⟨fun z hz => ?_, hs⟩
      rcases List.mem_cons.mp hz with rfl | hz
      · exact h
      · exact List.lt_trans h (hp.1 z hz)
    | eq =>
      rw [hc, strCmp_eq] at h
      refine List.pairwise_cons.mpr ⟨fun z hz => ?_, hp.2⟩
      rw [h]; exact hp.1 z hz
    | gt =>
      rw [hc, strCmp_gt] at h
      refine List.pairwise_cons.mpr ⟨fun z hz => ?_, ih hp.2⟩
      rcases hm z hz with rfl | hz
      · exact h
      · exact hp.1 z hz

theorem mem_setReplace {x y : α} {s : List α} (h : y ∈ setReplace cmp x s) : y = x ∨ y ∈ s := by
  induction s with
  | nil => simp only [setReplace, List.mem_singleton] at h; exact .inl h
  | cons z zs ih =>
    unfold setReplace at h
    split at h
    · simpa using h
    · rcases List.mem_cons.mp h with h | h
      · exact .inl h
      · exact .inr (by simp [h])
    · rcases List.mem_cons.mp h with h | h
      · exact .inr (by simp [h])
      · rcases ih h with h | h
        · exact .inl h
        · exact .inr (by simp [h])

theorem setReplace_keys (hc : ∀ x y, cmp x y = strCmp (key x) (key y)) (x : α) (s : List α) (k : Str) :
    k ∈ (setReplace cmp x s).map key ↔ k = key x ∨ k ∈ s.map key := by
  induction s with
  | nil => simp [setReplace]
  | cons y ys ih =>
    unfold setReplace
    cases h : cmp x y with
    | lt => simp
    | eq =>
      rw [hc, strCmp_eq] at h
      simp only [List.map_cons, List.mem_cons, h]
      exact ⟨fun h => .inr h, fun h => h.elim .inl id⟩
    | gt =>
      simp only [List.map_cons, List.mem_cons, ih]
      constructor
      · rintro (h | h | h)
        · exact .inr (.inl h)
        · exact .inl h
        · exact .inr (.inr h)
      · rintro (h | h | h)
        · exact .inr (.inl h)
        · exact .inl h
        · exact .inr (.inr h)

/-- A set is determined by its keys. -/
theorem sorted_ext {α : Type} {key : α → Str} {s t : List α} (hs : SortedBy key s) (ht : SortedBy key t)
    (h : ∀ x, x ∈ s ↔ x ∈ t) : s = t := by
  induction s generalizing t with
  | nil =>
    cases t with
    | nil => rfl
    | cons y ys => exact absurd ((h y).mpr (by simp)) (by simp)
  | cons x xs ih =>
    cases t with
    | nil => exact absurd ((h x).mp (by simp)) (by simp)
    | cons y ys =>
      have hp := List.pairwise_cons.mp hs
      have hq := List.pairwise_cons.mp ht
      have hxy : x = y := by
        rcases List.mem_cons.mp ((h x).mp (by simp)) with h1 | h1
        · exact h1
        · rcases List.mem_cons.mp ((h y).mpr (by simp)) with h2 | h2
          · exact h2.symm
          · exact absurd (List.lt_trans (hq.1 x h1) (hp.1 y h2)) (List.lt_irrefl _)
      subst hxy
      congr 1
      apply ih hp.2 hq.2
      intro z
      constructor
      · intro hz
        rcases List.mem_cons.mp ((h z).mp (by simp [hz])) with rfl | h1
        · exact absurd (hp.1 z hz) (List.lt_irrefl _)
        · exact h1
      · intro hz
        rcases List.mem_cons.mp ((h z).mpr (by simp [hz])) with rfl | h1
        · exact absurd (hq.1 z hz) (List.lt_irrefl _)
        · exact h1

end sets

theorem strSet_cmp (x y : Str) : strCmp x y = strCmp (id x) (id y) := rfl

end Verif.BMProofs
