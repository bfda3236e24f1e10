import Verif.Proofs.CaverphoneSpec
/-!
# Caverphone: the prefix rules in closed form
-/

set_option linter.unusedSimpArgs false

namespace Verif.CavSpec
open Spec.Caverphone

/-- A gh that sounds like f starts here. -/
def toughAt (v : Version) (w : Str) (i : Int) : Prop := ∃ a ∈ tough v, i = a.length ∧ a ++ c!"gh" <+: w

/-- The effect of the prefix rules. -/
structure Prefixes (T : Int → Prop) (f f' : Int → Option Char) : Prop where
  two : ∀ i, f' i = some '2' ↔ f i = some '2' ∨ f i = some 'g' ∧ (T i ∨ i = 0 ∧ f (i + 1) = some 'n')
  g_ : ∀ i, f' i = some 'g' ↔ f i = some 'g' ∧ ¬ (T i ∨ i = 0 ∧ f (i + 1) = some 'n')
  f_ : ∀ i, f' i = some 'f' ↔ f i = some 'f' ∨ f i = some 'h' ∧ T (i - 1)
  h : ∀ i, f' i = some 'h' ↔ f i = some 'h' ∧ ¬ T (i - 1)
  same : ∀ i, ∀ x, x ∉ c!"2gfh" → (f' i = some x ↔ f i = some x)
  none : ∀ i, f' i = none ↔ f i = none

theorem start_yes {a r b : Str} : replaceStart (a ++ r) a b = b ++ r := by
  simp [replaceStart]

theorem start_no {a b w : Str} (h : ¬ a <+: w) : replaceStart w a b = w := by
  unfold replaceStart
  rw [if_neg (by simpa [List.isPrefixOf_iff_prefix] using h)]

theorem prefixes_cases1 (w : Str) :
    (∃ a ∈ tough .v1, ∃ r, w = a ++ 'g' :: 'h' :: r ∧ Caverphone1.prefixes w = a ++ '2' :: 'f' :: r) ∨
    ((∀ a ∈ tough .v1, ¬ a ++ c!"gh" <+: w) ∧ Caverphone1.prefixes w = replaceStart w c!"gn" c!"2n") := by
  unfold Caverphone1.prefixes
  dsimp only
  by_cases h1 : c!"cough" <+: w
  · obtain ⟨r, rfl⟩ := h1
    exact Or.inl ⟨c!"cou", by simp [tough], r, rfl, by rw [start_yes]; simp [replaceStart]⟩
  rw [start_no h1]
  by_cases h2 : c!"rough" <+: w
  · obtain ⟨r, rfl⟩ := h2
    exact Or.inl ⟨c!"rou", by simp [tough], r, rfl, by rw [start_yes]; simp [replaceStart]⟩
  rw [start_no h2]
  by_cases h3 : c!"tough" <+: w
  · obtain ⟨r, rfl⟩ := h3
    exact Or.inl ⟨c!"tou", by simp [tough], r, rfl, by rw [start_yes]; simp [replaceStart]⟩
  rw [start_no h3]
  by_cases h4 : c!"enough" <+: w
  · obtain ⟨r, rfl⟩ := h4
    exact Or.inl ⟨c!"enou", by simp [tough], r, rfl, by rw [start_yes]; simp [replaceStart]⟩
  rw [start_no h4]
  right
  refine ⟨?_, rfl⟩
  intro a ha
  simp only [tough, List.mem_cons, List.not_mem_nil, or_false] at ha
  rcases ha with rfl | rfl | rfl | rfl
  · exact h1
  · exact h2
  · exact h3
  · exact h4

theorem prefixes_cases2 (w : Str) :
    (∃ a ∈ tough .v2, ∃ r, replaceEnd w c!"e" [] = a ++ 'g' :: 'h' :: r ∧ Caverphone2.prefixes w = a ++ '2' :: 'f' :: r) ∨
    ((∀ a ∈ tough .v2, ¬ a ++ c!"gh" <+: replaceEnd w c!"e" []) ∧
      Caverphone2.prefixes w = replaceStart (replaceEnd w c!"e" []) c!"gn" c!"2n") := by
  unfold Caverphone2.prefixes
  dsimp only
  generalize replaceEnd w c!"e" [] = w
  by_cases h1 : c!"cough" <+: w
  · obtain ⟨r, rfl⟩ := h1
    exact Or.inl ⟨c!"cou", by simp [tough], r, rfl, by rw [start_yes]; simp [replaceStart]⟩
  rw [start_no h1]
  by_cases h2 : c!"rough" <+: w
  · obtain ⟨r, rfl⟩ := h2
    exact Or.inl ⟨c!"rou", by simp [tough], r, rfl, by rw [start_yes]; simp [replaceStart]⟩
  rw [start_no h2]
  by_cases h3 : c!"tough" <+: w
  · obtain ⟨r, rfl⟩ := h3
    exact Or.inl ⟨c!"tou", by simp [tough], r, rfl, by rw [start_yes]; simp [replaceStart]⟩
  rw [start_no h3]
  by_cases h4 : c!"enough" <+: w
  · obtain ⟨r, rfl⟩ := h4
    exact Or.inl ⟨c!"enou", by simp [tough], r, rfl, by rw [start_yes]; simp [replaceStart]⟩
  rw [start_no h4]
  by_cases h5 : c!"trough" <+: w
  · obtain ⟨r, rfl⟩ := h5
    exact Or.inl ⟨c!"trou", by simp [tough], r, rfl, by rw [start_yes]; simp [replaceStart]⟩
  rw [start_no h5]
  right
  refine ⟨?_, rfl⟩
  intro a ha
  simp only [tough, List.mem_cons, List.not_mem_nil, or_false] at ha
  rcases ha with rfl | rfl | rfl | rfl | rfl
  · exact h1
  · exact h2
  · exact h3
  · exact h4
  · exact h5

theorem g_mid (a r : Str) (x y : Char) (i : Int) :
    g (a ++ x :: y :: r) i =
      if i = a.length then some x else if i = a.length + 1 then some y
      else g (a ++ 'g' :: 'h' :: r) i := by
  by_cases hi : i < 0
  · rw [g_neg _ hi, g_neg _ hi, if_neg (by omega), if_neg (by omega)]
  · obtain ⟨n, rfl⟩ : ∃ n : Nat, i = n := ⟨i.toNat, by omega⟩
    rw [g_nat, g_nat]
    by_cases h1 : n < a.length
    · rw [if_neg (by omega), if_neg (by omega), List.getElem?_append_left h1, List.getElem?_append_left h1]
    · rw [List.getElem?_append_right (by omega), List.getElem?_append_right (by omega)]
      obtain ⟨k, hk⟩ : ∃ k, n = a.length + k := ⟨n - a.length, by omega⟩
      subst hk
      rw [Nat.add_sub_cancel_left]
      match k with
      | 0 => simp
      | 1 => rw [if_neg (by omega), if_pos (by omega)]; simp
      | k + 2 => rw [if_neg (by omega), if_neg (by omega)]; simp

theorem toughAt_unique {v : Version} {a r : Str} (ha : a ∈ tough v) (i : Int) :
    toughAt v (a ++ 'g' :: 'h' :: r) i ↔ i = a.length := by
  constructor
  · rintro ⟨b, hb, rfl, hp⟩
    cases v
    all_goals
      simp only [tough, List.mem_cons, List.not_mem_nil, or_false] at ha hb
      rcases ha with rfl | ha
      · rcases hb with rfl | hb
        · rfl
        · exfalso
          revert hp
          rcases hb with rfl | hb <;> (try rcases hb with rfl | hb) <;> (try rcases hb with rfl | hb) <;> (try subst hb) <;> simp
      · revert hp
        rcases ha with rfl | ha <;> (try rcases ha with rfl | ha) <;> (try rcases ha with rfl | ha) <;> (try subst ha) <;>
        rcases hb with rfl | hb <;> (try rcases hb with rfl | hb) <;> (try rcases hb with rfl | hb) <;> (try rcases hb with rfl | hb) <;> (try subst hb) <;> simp
  · rintro rfl
    exact ⟨a, ha, rfl, r, by simp⟩

theorem prefixes_of {v : Version} {w w' : Str}
    (h : (∃ a ∈ tough v, ∃ r, w = a ++ 'g' :: 'h' :: r ∧ w' = a ++ '2' :: 'f' :: r) ∨
      ((∀ a ∈ tough v, ¬ a ++ c!"gh" <+: w) ∧ w' = replaceStart w c!"gn" c!"2n")) :
    Prefixes (toughAt v w) (g w) (g w') := by
  rcases h with ⟨a, ha, r, rfl, rfl⟩ | ⟨h, rfl⟩
  · have hT := fun i => toughAt_unique (r := r) ha i
    have h0 : g (a ++ 'g' :: 'h' :: r) 0 ≠ some 'g' := by
      rw [show (0 : Int) = (0 : Nat) from rfl, g_nat]
      cases v
      all_goals
        simp only [tough, List.mem_cons, List.not_mem_nil, or_false] at ha
        rcases ha with rfl | ha <;> (try rcases ha with rfl | ha) <;> (try rcases ha with rfl | ha) <;> (try rcases ha with rfl | ha) <;> (try subst ha) <;> simp
    have hf := g_mid a r '2' 'f'
    have hG := g_mid a r 'g' 'h'
    generalize g (a ++ '2' :: 'f' :: r) = f' at *
    generalize g (a ++ 'g' :: 'h' :: r) = f at *
    generalize (a.length : Int) = n at *
    have e1 : f n = some 'g' := by rw [hG]; simp
    have e2 : f (n + 1) = some 'h' := by
      rw [hG, if_neg (by omega)]; simp
    constructor
    all_goals intro i
    all_goals simp only [hT, hf]
    all_goals by_cases c1 : i = n
    all_goals by_cases c2 : i = n + 1
    all_goals try omega
    all_goals try subst c1
    all_goals try subst c2
    all_goals grind
  · have hT : ∀ i, ¬ toughAt v w i := by
      rintro i ⟨a, ha, _, hp⟩; exact h a ha hp
    have hS := sub_start2 w 'g' '2' 'n'
    generalize g w = f at *
    generalize g (replaceStart w c!"gn" c!"2n") = f' at *
    constructor
    case same =>
      intro i x hx
      simp only [List.mem_cons, List.not_mem_nil, or_false, not_or] at hx
      exact hS.other hx.2.1 hx.1 i
    all_goals intro i
    all_goals simp only [hT, hS.other, hS.new, hS.old, hS.none_iff, ne_eq, Char.reduceEq, not_false_eq_true, false_or, and_false, or_false, and_true]

theorem prefixes1 (w : Str) : Prefixes (toughAt .v1 w) (g w) (g (Caverphone1.prefixes w)) :=
  prefixes_of (prefixes_cases1 w)

theorem prefixes2 (w : Str) :
    Prefixes (toughAt .v2 (replaceEnd w c!"e" [])) (g (replaceEnd w c!"e" [])) (g (Caverphone2.prefixes w)) :=
  prefixes_of (prefixes_cases2 w)

end Verif.CavSpec
