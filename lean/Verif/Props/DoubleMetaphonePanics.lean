import Verif.Proofs.DoubleMetaphonePanics
/-!
# Double Metaphone: accents that make it panic (C78)
-/

set_option linter.unusedSimpArgs false

namespace Verif.Props
open Verif.DMProofs Verif.DoubleMetaphone Verif.Spec

theorem dm_awkward_stops {v : Str} (hU : ∀ x ∈ v, isAsciiLower x = false) (ha : DM.Awkward v) (max : Option Nat)
    (r : DMResult) (h : loop v (isSlavoGermanic v) v 0 (dmSkip v) (dmEmpty max) = .ok r) :
    ∃ n, max = some n ∧ r.primary.length = n ∧ r.alternate.length = n := by
  have hskip1 : dmSkip v ≤ 1 := by unfold dmSkip; split <;> omega
  rcases ha with ⟨b, c, y, t, hv, hc, hy, hb⟩ | ⟨b, y, t, hv, hy⟩ | ⟨b, y, c, d, t, hv, hy, hc⟩
  · refine run_stops hv hU (Or.inr ⟨fun d hd => ?_, by simpa using hc, ?_⟩) ?_ ?_ max r h
    · have := hb d hd
      simpa using this
    · intro h1
      simp only [List.head?_cons, Option.some.injEq] at h1
      rw [h1] at hy; cases hy
    · intro hlt
      have hb0 : b = [] := List.length_eq_zero_iff.mp (by omega)
      subst hb0
      unfold dmSkip at hlt
      split at hlt
      · next hs =>
        rw [hv] at hs
        simp only [List.nil_append, silentStart, List.any_cons, List.any_nil, List.isPrefixOf, Bool.or_eq_true,
          Bool.and_eq_true, beq_iff_eq, Bool.or_false, and_true] at hs
        rcases hs with ⟨-, h⟩ | ⟨-, h⟩ | ⟨-, h⟩ | ⟨-, h⟩ | ⟨-, h⟩ <;> (rw [← h] at hy; cases hy)
      · simp at hlt
    · intro res hh
      rw [hv] at hh
      simp only [List.mem_cons, List.not_mem_nil, or_false] at hc
      rcases hc with rfl | rfl | rfl | rfl | rfl | rfl | rfl
      · exact stop_C b t hy res hh
      · exact stop_D b t hy res hh
      · exact stop_G b t hy _ res hh
      · exact stop_P b t hy res hh
      · exact stop_S b t hy _ res hh
      · exact stop_T b t hy res hh
      · exact stop_W b t hy res hh
  · refine run_stops (x := b ++ [y]) (c := 'H') (y := t) (by rw [hv]; simp) hU (Or.inl fun d hd => ?_) (by simp; omega) ?_ max r h
    · rw [List.getLast?_append] at hd
      simp only [List.getLast?_singleton, Option.some_or, Option.some.injEq] at hd
      rw [← hd]; exact hy
    · intro res hh
      rw [hv] at hh
      exact after_stop_H b hy res t hh
  · refine run_stops (x := b ++ [y]) (c := c) (y := d :: t) (by rw [hv]; simp) hU (Or.inl fun d hd => ?_) (by simp; omega) ?_ max r h
    · rw [List.getLast?_append] at hd
      simp only [List.getLast?_singleton, Option.some_or, Option.some.injEq] at hd
      rw [← hd]; exact hy
    · intro res hh
      rw [hv] at hh
      rcases hc with rfl | ⟨rfl, hd⟩ | ⟨rfl, hd⟩
      · exact after_stop_S b hy _ res d t hh
      · exact after_stop_M b hy _ res d t hd hh
      · exact after_stop_C b hy res d t (by rw [← Bool.not_eq_true, List.isPrefixOf_iff_prefix]; exact hd) hh

/-- C78. On a text with a letter beyond ASCII at an awkward place, Double Metaphone without a limit panics; with a limit it
can return only codes that have both reached the limit. -/
theorem double_metaphone_awkward (U : Unicode) (s : Str) (hU : ∀ x ∈ U.strUpper (U.trim s), isAsciiLower x = false)
    (ha : DM.Awkward (U.strUpper (U.trim s))) :
    (∃ p, (DoubleMetaphone.new none).doubleMetaphone U s = .error p) ∧
    ∀ n r, (DoubleMetaphone.new (some n)).doubleMetaphone U s = .ok r → r.primary.length = n ∧ r.alternate.length = n := by
  constructor
  · cases h : (DoubleMetaphone.new none).doubleMetaphone U s with
    | error p => exact ⟨p, rfl⟩
    | ok r =>
      rw [doubleMetaphone_eq _ _ _ (allocatable_of_ok h)] at h
      obtain ⟨n, hn, -⟩ := dm_awkward_stops hU ha none r h
      cases hn
  · intro n r h
    rw [doubleMetaphone_eq _ _ _ (allocatable_of_ok h)] at h
    obtain ⟨m, hm, h1, h2⟩ := dm_awkward_stops hU ha (some n) r h
    injection hm with hm
    subst hm
    exact ⟨h1, h2⟩

/-- C78, not vacuous: everyday names. -/
example : DM.Awkward (Unicode.latin1.strUpper (Unicode.latin1.trim c!"García")) ∧
    DM.Awkward (Unicode.latin1.strUpper (Unicode.latin1.trim c!"Gómez")) ∧
    DM.Awkward (Unicode.latin1.strUpper (Unicode.latin1.trim c!"Éclair")) ∧
    DoubleMetaphone.default.doubleMetaphone .latin1 c!"Gómez" = .error .slice ∧
    ∀ x ∈ Unicode.latin1.strUpper (Unicode.latin1.trim c!"García"), isAsciiLower x = false := by
  refine ⟨Or.inl ⟨c!"GAR", 'C', 'Í', c!"A", by decide +kernel, by decide, by decide, ?_⟩,
    Or.inl ⟨[], 'G', 'Ó', c!"MEZ", by decide +kernel, by decide, by decide, by simp⟩,
    Or.inr (Or.inr ⟨[], 'É', 'C', 'L', c!"AIR", by decide +kernel, by decide, by decide⟩), by decide +kernel, by decide +kernel⟩
  intro d hd
  simp only [List.getLast?_cons_cons, List.getLast?_singleton, Option.some.injEq] at hd
  subst hd
  decide

end Verif.Props
