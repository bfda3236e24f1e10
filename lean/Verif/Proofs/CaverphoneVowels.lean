import Verif.Proofs.CaverphoneSpec
/-!
# Caverphone: the prefix rules, the vowel rules and the rule for gh between vowels, in closed form
-/

set_option linter.unusedSimpArgs false

namespace Verif.CavSpec

/-- The effect of the vowel rules. -/
structure Vowels (f f' : Int → Option Char) : Prop where
  A : ∀ i, f' i = some 'A' ↔ f i = some 'A' ∨ i = 0 ∧ (f i = some 'a' ∨ f i = some 'e' ∨ f i = some 'i' ∨ f i = some 'o' ∨ f i = some 'u')
  three : ∀ i, f' i = some '3' ↔ f i = some '3' ∨
    i ≠ 0 ∧ (f i = some 'a' ∨ f i = some 'e' ∨ f i = some 'i' ∨ f i = some 'o' ∨ f i = some 'u')
  same : ∀ i, ∀ x, x ∉ c!"A3aeiou" → (f' i = some x ↔ f i = some x)
  none : ∀ i, f' i = none ↔ f i = none

theorem replaceCharFrom_get (F : Nat → Char → Char) (t : Str) (k n : Nat) :
    (replaceCharFrom F k t)[n]? = t[n]?.map (F (k + n)) := by
  induction t generalizing k n with
  | nil => simp [replaceCharFrom]
  | cons c cs ih =>
    cases n with
    | zero => simp [replaceCharFrom]
    | succ n => simp only [replaceCharFrom, List.getElem?_cons_succ, ih]; congr 2; omega

theorem g_replaceChar (F : Nat → Char → Char) (t : Str) (i : Int) :
    g (replaceChar t F) i = (g t i).map (F i.toNat) := by
  by_cases hi : i < 0
  · rw [g_neg _ hi, g_neg _ hi]; rfl
  · obtain ⟨n, rfl⟩ : ∃ n : Nat, i = n := ⟨i.toNat, by omega⟩
    rw [g_nat, g_nat, replaceChar, replaceCharFrom_get, Nat.zero_add]; rfl

theorem g_none_neg (t : Str) (i : Int) (h : g t i ≠ none) : 0 ≤ i := by
  by_cases hi : i < 0
  · exact absurd (g_neg t hi) h
  · omega

theorem vowels_ok (t : Str) : Vowels (g t) (g (replaceChar (replaceChar t vowelStartF) vowelF)) := by
  have key : ∀ i c, g t i = some c → g (replaceChar (replaceChar t vowelStartF) vowelF) i =
      some (if c ∈ c!"aeiou" then (if i = 0 then 'A' else '3') else c) := by
    intro i c hc
    rw [g_replaceChar, g_replaceChar, hc]
    have hi : 0 ≤ i := g_none_neg t i (by rw [hc]; simp)
    have e : (i.toNat == 0) = decide (i = 0) := by
      by_cases h : i = 0
      · simp [h]
      · have : ¬ i.toNat = 0 := by omega
        simp [h]; omega
    simp only [Option.map_some, vowelStartF, vowelF, isVowel, e]
    by_cases hv : c ∈ c!"aeiou"
    · rw [if_pos hv]
      simp only [List.mem_cons, List.not_mem_nil, or_false] at hv
      by_cases h0 : i = 0
      · rcases hv with rfl | rfl | rfl | rfl | rfl <;> simp [h0]
      · rcases hv with rfl | rfl | rfl | rfl | rfl <;> simp [h0]
    · rw [if_neg hv]
      simp only [List.mem_cons, List.not_mem_nil, or_false, not_or] at hv
      simp [hv]
  have keyN : ∀ i, g (replaceChar (replaceChar t vowelStartF) vowelF) i = none ↔ g t i = none := by
    intro i; rw [g_replaceChar, g_replaceChar]; simp
  constructor
  case none => exact keyN
  all_goals intro i
  all_goals rcases h : g t i with _ | c
  all_goals try rw [(keyN i).2 h]
  all_goals try rw [key i c h]
  all_goals clear key keyN h
  all_goals simp only [List.mem_cons, List.not_mem_nil, or_false, Option.some.injEq, reduceCtorEq, and_false]
  all_goals grind

/-- The places where `3gh3` is replaced: an occurrence that does not share its first letter with a replaced one. -/
def hit (f : Int → Option Char) : Nat → Prop
  | n + 3 => (f (n + 3) = some '3' ∧ f (n + 4) = some 'g' ∧ f (n + 5) = some 'h' ∧ f (n + 6) = some '3') ∧ ¬ hit f n
  | n => f n = some '3' ∧ f (n + 1) = some 'g' ∧ f (n + 2) = some 'h' ∧ f (n + 3) = some '3'

/-- An occurrence of `3gh3`. -/
def occ (t : Str) (n : Nat) : Prop := t[n]? = some '3' ∧ t[n + 1]? = some 'g' ∧ t[n + 2]? = some 'h' ∧ t[n + 3]? = some '3'

theorem hit_small (t : Str) {n : Nat} (h : n < 3) : hit (g t) n ↔ occ t n := by
  have e1 := g_nat t n; have e2 := g_nat t (n + 1); have e3 := g_nat t (n + 2); have e4 := g_nat t (n + 3)
  match n, h with
  | 0, _ => simp only [hit]; unfold occ; rw [← e1, ← e2, ← e3, ← e4]; rfl
  | 1, _ => simp only [hit]; unfold occ; rw [← e1, ← e2, ← e3, ← e4]; rfl
  | 2, _ => simp only [hit]; unfold occ; rw [← e1, ← e2, ← e3, ← e4]; rfl

theorem hit_step (t : Str) (n : Nat) : hit (g t) (n + 3) ↔ occ t (n + 3) ∧ ¬ hit (g t) n := by
  have e1 := g_nat t (n + 3); have e2 := g_nat t (n + 4); have e3 := g_nat t (n + 5); have e4 := g_nat t (n + 6)
  rw [hit]; unfold occ
  rw [← e1, ← e2, ← e3, ← e4]
  rfl

theorem hit_occ (t : Str) (n : Nat) (h : hit (g t) n) : occ t n := by
  by_cases hn : n < 3
  · exact (hit_small t hn).1 h
  · obtain ⟨k, rfl⟩ : ∃ k, n = k + 3 := ⟨n - 3, by omega⟩
    exact ((hit_step t k).1 h).1

theorem prefix_gh (t : Str) (n : Nat) : ['3', 'g', 'h', '3'] <+: t.drop n ↔ occ t n := by
  have e : t.drop (n + 2) = (t.drop n).drop 2 := by simp
  unfold occ
  have h1 := prefix_two t n '3' 'g'
  have h2 := prefix_two t (n + 2) 'h' '3'
  rw [show n + 3 = n + 2 + 1 from rfl]
  constructor
  · rintro ⟨r, hr⟩
    have a := h1.1 ⟨'h' :: '3' :: r, by rw [← hr]; rfl⟩
    have b := h2.1 ⟨r, by rw [e, ← hr]; rfl⟩
    exact ⟨a.1, a.2, b.1, b.2⟩
  · rintro ⟨a, b, c, d⟩
    obtain ⟨r1, hr1⟩ := h1.2 ⟨a, b⟩
    obtain ⟨r2, hr2⟩ := h2.2 ⟨c, d⟩
    refine ⟨r2, ?_⟩
    rw [e, ← hr1] at hr2
    simp at hr2
    rw [← hr1, ← hr2]; rfl

theorem hard_get (t rest : Str) (m : Nat) (hr : rest = t.drop m)
    (hinv : ∀ k, k < m → m ≤ k + 3 → ¬ hit (g t) k) (n : Nat) :
    (replaceAll rest c!"3gh3" c!"3kh3")[n]? = some 'k' ∧ t[m + n]? = some 'g' ∧ (∃ k, m + n = k + 1 ∧ hit (g t) k) ∨
    (replaceAll rest c!"3gh3" c!"3kh3")[n]? = t[m + n]? ∧ ¬ (t[m + n]? = some 'g' ∧ ∃ k, m + n = k + 1 ∧ hit (g t) k) := by
  induction hn : rest.length using Nat.strongRecOn generalizing rest m n with
  | ind l ih =>
    cases rest with
    | nil =>
      right
      have : t[m + n]? = none := by
        rw [← List.getElem?_drop, ← hr]; rfl
      rw [replaceAll_nil, this]; simp
    | cons c cs =>
      have hget : ∀ j, t[m + j]? = (c :: cs)[j]? := fun j => by rw [hr, List.getElem?_drop]
      rw [replaceAll_cons _ _ _ _ (by simp)]
      by_cases ho : occ t m
      · have hhit : hit (g t) m := by
          by_cases hm : m < 3
          · exact (hit_small t hm).2 ho
          · obtain ⟨k, rfl⟩ : ∃ k, m = k + 3 := ⟨m - 3, by omega⟩
            exact (hit_step t k).2 ⟨ho, hinv k (by omega) (by omega)⟩
        rw [if_pos (by rw [List.isPrefixOf_iff_prefix, hr]; exact (prefix_gh t m).2 ho)]
        have ⟨o1, o2, o3, o4⟩ := ho
        match n with
        | 0 =>
          right
          rw [Nat.add_zero, o1]; simp
        | 1 => left; exact ⟨rfl, o2, m, rfl, hhit⟩
        | 2 => right; rw [o3]; simp
        | 3 => right; rw [o4]; simp
        | n + 4 =>
          have hd : (c :: cs).drop 4 = t.drop (m + 4) := by rw [hr, List.drop_drop]
          have hl : ((c :: cs).drop 4).length < l := by subst hn; simp; omega
          have := ih _ hl ((c :: cs).drop 4) (m + 4) hd (by
            intro k h1 h2 h3
            have hk := hit_occ t k h3
            have : k = m + 1 ∨ k = m + 2 ∨ k = m + 3 := by omega
            rcases this with rfl | rfl | rfl
            · have := hk.1; rw [o2] at this; simp at this
            · have := hk.1; rw [o3] at this; simp at this
            · exact ((hit_step t m).1 h3).2 hhit) n rfl
          rw [show m + 4 + n = m + (n + 4) by omega] at this
          exact this
      · have hno : ¬ hit (g t) m := fun h => ho (hit_occ t m h)
        rw [if_neg (by rw [List.isPrefixOf_iff_prefix, hr]; exact fun h => ho ((prefix_gh t m).1 h))]
        cases n with
        | zero =>
          right
          refine ⟨by rw [hget 0]; rfl, ?_⟩
          rintro ⟨_, k, hk, h⟩
          exact hinv k (by omega) (by omega) h
        | succ n =>
          have hd : cs = t.drop (m + 1) := by
            rw [show cs = (c :: cs).drop 1 from rfl, hr, List.drop_drop]
          have := ih _ (by subst hn; simp) cs (m + 1) hd (by
            intro k h1 h2 h3
            by_cases hkm : k = m
            · subst hkm; exact hno h3
            · exact hinv k (by omega) (by omega) h3) n rfl
          rw [show m + 1 + n = m + (n + 1) by omega] at this
          exact this

theorem sub_hard (t : Str) : Sub (g t) (g (replaceAll t c!"3gh3" c!"3kh3")) 'g' 'k'
    (fun i => ∃ k : Nat, i = k + 1 ∧ hit (g t) k) := by
  apply sub_of_nat
  intro n
  have := hard_get t t 0 (by simp) (by omega) n
  simp only [Nat.zero_add] at this
  have e : (∃ k : Nat, (n : Int) = k + 1 ∧ hit (g t) k) ↔ ∃ k, n = k + 1 ∧ hit (g t) k :=
    ⟨fun ⟨k, h, h'⟩ => ⟨k, by omega, h'⟩, fun ⟨k, h, h'⟩ => ⟨k, by omega, h'⟩⟩
  rw [e]; exact this

end Verif.CavSpec
