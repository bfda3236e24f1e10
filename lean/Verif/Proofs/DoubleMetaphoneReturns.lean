import Verif.Proofs.DoubleMetaphonePanics
/-!
# Double Metaphone: texts on which it returns
-/

set_option linter.unusedSimpArgs false
set_option linter.unusedSectionVars false
set_option linter.unusedVariables false

namespace Verif
namespace DMProofs
open DoubleMetaphone Spec.DM

/-- A place between two letters, counted in bytes. -/
def Bd (v : Str) (k : Nat) : Prop := ∃ a b, v = a ++ b ∧ byteLen a = k

theorem bd_contains {v : Str} {i : Int} {n : Nat} {ws : List Str}
    (h : 0 ≤ i → i.toNat + n ≤ byteLen v → Bd v i.toNat ∧ Bd v (i.toNat + n)) : NoPanic (contains v i n ws) := by
  unfold contains
  refine ite_ind NoPanic (fun _ => noPanic_ok _) (fun h0 => ite_ind NoPanic (fun h1 => ?_) (fun _ => noPanic_ok _))
  obtain ⟨⟨a, b, e, ha⟩, a', b', e', ha'⟩ := h (by omega) h1
  have : ∃ m, b = m ++ b' := by
    rcases List.append_eq_append_iff.mp (e.symm.trans e') with ⟨m, h2, h3⟩ | ⟨m, h2, h3⟩
    · exact ⟨m, h3⟩
    · refine ⟨[], ?_⟩
      have : byteLen m = 0 := by
        have := congrArg byteLen h2
        rw [byteLen_append] at this
        omega
      have hm : m = [] := by
        cases m with
        | nil => rfl
        | cons c m => have := Char.utf8Size_pos c; simp only [byteLen] at *; omega
      subst hm
      simpa using h3.symm
  obtain ⟨m, rfl⟩ := this
  unfold slice
  rw [if_pos (by omega), e, ← ha, splitAtByte_append]
  dsimp only
  unfold sliceTo
  have hm : byteLen a + n - byteLen a = byteLen m := by
    have e2 : a' = a ++ m := by
      have : a' ++ b' = (a ++ m) ++ b' := by rw [← e', e]; simp
      exact List.append_cancel_right this
    rw [e2, byteLen_append] at ha'
    omega
  rw [hm, splitAtByte_append]
  exact noPanic_ok _

theorem bd_charAt {v : Str} {i : Int} (h : 0 ≤ i → i.toNat < byteLen v → Bd v i.toNat) : NoPanic (charAt v i) := by
  unfold charAt
  refine ite_ind NoPanic (fun h1 => ?_) (fun _ => noPanic_ok _)
  obtain ⟨a, b, e, ha⟩ := h h1.1 h1.2
  unfold sliceFrom
  rw [e, ← ha, splitAtByte_append]
  exact noPanic_ok _

theorem bd_isAt {v : Str} {i : Int} {c : Char} (h : 0 ≤ i → i.toNat < byteLen v → Bd v i.toNat) : NoPanic (isAt v i c) :=
  noPanic_bind (bd_charAt h) fun _ => noPanic_ok _

theorem bd_vowelAt {v : Str} {i : Int} (h : 0 ≤ i → i.toNat < byteLen v → Bd v i.toNat) : NoPanic (vowelAt v i) :=
  noPanic_bind (bd_charAt h) fun _ => noPanic_ok _

/-- The places within reach of a letter. -/
structure Room (v : Str) (p back ahead first last : Nat) : Prop where
  near : ∀ k, p ≤ k + back → k ≤ p + 1 + ahead → k ≤ byteLen v → Bd v k
  first : ∀ k, k ≤ first → k ≤ byteLen v → Bd v k
  last : ∀ k, byteLen v ≤ k + last → k ≤ byteLen v → Bd v k

/-- One place. -/
macro "dm_bd" H:ident : tactic => `(tactic| first
  | exact ($H).near _ (by omega) (by omega) (by omega)
  | exact ($H).first _ (by omega) (by omega)
  | exact ($H).last _ (by omega) (by omega))

theorem noPanic_okR_and {q : Prop} [Decidable q] {b : Res Bool} (h : q → NoPanic b) : NoPanic (okR q &? b) := by
  unfold okR andR
  by_cases hq : q
  · rw [decide_eq_true hq]; exact h hq
  · rw [decide_eq_false hq]; exact noPanic_ok _

theorem noPanic_okR_or {q : Prop} [Decidable q] {b : Res Bool} (h : ¬ q → NoPanic b) : NoPanic (okR q |? b) := by
  unfold okR orR
  by_cases hq : q
  · rw [decide_eq_true hq]; exact noPanic_ok _
  · rw [decide_eq_false hq]; exact h hq

theorem noPanic_and_known {a b : Res Bool} (ha : NoPanic a) (h : a = .ok true → NoPanic b) : NoPanic (a &? b) := by
  obtain ⟨t, rfl⟩ := ha
  cases t with
  | true => exact h rfl
  | false => exact noPanic_ok _

theorem noPanic_step {α : Type} {c : Res Bool} {x y : Res α} (hc : NoPanic c) (h1 : c = .ok true → NoPanic x)
    (h2 : c = .ok false → NoPanic y) : NoPanic (do if ← c then x else y) := by
  obtain ⟨t, rfl⟩ := hc
  cases t with
  | true => exact h1 rfl
  | false => exact h2 rfl

/-- Proves that a handler does not panic, branch by branch. -/
macro "dm_room" H:ident : tactic => `(tactic| repeat' first
  | assumption
  | exact noPanic_ok _
  | exact noPanic_okR _
  | (refine bd_contains fun h0 h1 => ⟨?_, ?_⟩ <;> dm_bd $H)
  | (refine bd_isAt fun h0 h1 => ?_; dm_bd $H)
  | (refine bd_vowelAt fun h0 h1 => ?_; dm_bd $H)
  | (refine bd_charAt fun h0 h1 => ?_; dm_bd $H)
  | exact noPanic_usub (by omega)
  | refine noPanic_okR_and fun _ => ?_
  | refine noPanic_okR_or fun _ => ?_
  | refine noPanic_orR ?_ ?_
  | refine noPanic_andR ?_ ?_
  | refine noPanic_notR ?_
  | refine noPanic_bind ?_ fun _ => ?_
  | refine ite_ind NoPanic (fun _ => ?_) (fun _ => ?_))

section
variable (v : Str) (p : Nat) (hp : p < byteLen v) (sg : Bool)
include hp

theorem room_D (H : Room v p 0 2 0 0) : NoPanic (handleD v p) := by
  unfold handleD; dm_room H
theorem room_C (H : Room v p 2 5 5 0) : NoPanic (handleC v p) := by
  have : NoPanic (conditionC0 v p) := by unfold conditionC0; dm_room H
  have : NoPanic (conditionCh0 v p) := by unfold conditionCh0; dm_room H
  have : NoPanic (conditionCh1 v p) := by unfold conditionCh1; dm_room H
  have : NoPanic (handleCh v p) := by unfold handleCh; dm_room H
  have : NoPanic (handleCc v p) := by unfold handleCc; dm_room H
  unfold handleC; dm_room H
theorem room_H (H : Room v p 1 0 0 0) : NoPanic (handleH v p) := by
  unfold handleH; dm_room H
theorem room_J (H : Room v p 1 3 4 0) : NoPanic (handleJ v p sg) := by
  have : NoPanic (handleJ' v p sg) := by unfold handleJ'; dm_room H
  unfold handleJ; dm_room H
theorem room_P (H : Room v p 0 1 0 0) : NoPanic (handleP v p) := by
  unfold handleP; dm_room H
theorem room_S (H : Room v p (if p + 1 = byteLen v then 2 else 1) 4 0 0) : NoPanic (handleS v p sg) := by
  by_cases h1 : p + 1 = byteLen v
  · rw [if_pos h1] at H
    have : NoPanic (handleSc v p) := by unfold handleSc; dm_room H
    have : NoPanic (handleS' v p) := by unfold handleS'; dm_room H
    unfold handleS; dm_room H
  · rw [if_neg h1] at H
    have : NoPanic (handleSc v p) := by unfold handleSc; dm_room H
    have : NoPanic (handleS' v p) := by unfold handleS'; dm_room H
    unfold handleS; dm_room H
theorem room_T (H : Room v p 0 3 4 0) : NoPanic (handleT v p) := by
  unfold handleT; dm_room H
theorem room_W (H : Room v p 1 3 3 0) : NoPanic (handleW v p) := by
  unfold handleW; dm_room H
theorem room_Z (H : Room v p 1 2 0 0) : NoPanic (handleZ v p sg) := by
  have : NoPanic (handleZ' v p sg) := by unfold handleZ'; dm_room H
  unfold handleZ; dm_room H
theorem room_simple (H : Room v p 0 0 0 0) (c d : Char) : NoPanic (simple v p c d) := by
  unfold simple; dm_room H
theorem room_X (H : Room v p (if p + 1 = byteLen v then 3 else 0) (if p = 0 ∨ p + 1 = byteLen v then 0 else 1) 0 0) :
    NoPanic (handleX v p) := by
  by_cases h1 : p + 1 = byteLen v
  · rw [if_pos h1, if_pos (Or.inr h1)] at H
    have : NoPanic (handleX' v p) := by unfold handleX'; dm_room H
    unfold handleX; dm_room H
  · by_cases h2 : p = 0
    · rw [if_neg h1, if_pos (Or.inl h2)] at H
      unfold handleX
      rw [if_pos (by omega)]
      exact noPanic_ok _
    · rw [if_neg h1, if_neg (by omega)] at H
      have : NoPanic (handleX' v p) := by unfold handleX'; dm_room H
      unfold handleX; dm_room H
end

theorem isAt_next {b : Str} {c : Char} {a : Str} (hc : isAscii c = true) (d : Char) :
    isAt (b ++ c :: a) ((byteLen b : Int) + 1) d = .ok (a.head? == some d) := by
  have e : byteLen (b ++ c :: a) = byteLen b + 1 + byteLen a := by
    rw [byteLen_append]; simp only [byteLen, utf8Size_ascii hc]; omega
  unfold isAt charAt
  cases a with
  | nil =>
    rw [if_neg (by rw [e]; simp only [byteLen]; omega)]
    rfl
  | cons f a =>
    have := Char.utf8Size_pos f
    rw [if_pos (by rw [e]; simp only [byteLen]; omega), show ((byteLen b : Int) + 1).toNat = byteLen b + 1 by omega]
    unfold sliceFrom
    rw [(splitAtByte_eq_some_iff (a := b ++ [c]) (b := f :: a)).mpr ⟨by simp, by rw [byteLen_append]; simp [byteLen, utf8Size_ascii hc]⟩]
    rfl

section
variable (b a : Str) (sg : Bool)

theorem room_G (H : Room (b ++ 'G' :: a) (byteLen b) (if a.head? = some 'H' then 4 else 1) 3 6 0) :
    NoPanic (handleG (b ++ 'G' :: a) (byteLen b) sg) := by
  have hp : byteLen b < byteLen (b ++ 'G' :: a) := by
    have : ('G' : Char).utf8Size = 1 := rfl
    rw [byteLen_append]; simp only [byteLen]; omega
  unfold handleG
  refine noPanic_step (by rw [isAt_next (by decide)]; exact noPanic_ok _) (fun h1 => ?_) fun h1 => ?_
  · rw [isAt_next (by decide)] at h1
    injection h1 with h1
    rw [if_pos (by simpa using h1)] at H
    unfold handleGh; dm_room H
  · rw [isAt_next (by decide)] at h1
    injection h1 with h1
    rw [if_neg (by simpa using h1)] at H
    have : NoPanic (conditionG0 (b ++ 'G' :: a) (byteLen b)) := by unfold conditionG0; dm_room H
    dm_room H

theorem ends_of_contains {v : Str} {k : Nat} {ws ws' : List Str} (hws : ∀ x ∈ ws, x ∈ ws' ∧ byteLen x = k)
    (h : contains v ((byteLen v : Int) - k) k ws = .ok true) : ends v ws' = true := by
  obtain ⟨u, x, t, hx, e, hu⟩ := contains_true h
  have hk := (hws x hx).2
  have : byteLen t = 0 := by
    have := congrArg byteLen e
    rw [byteLen_append, byteLen_append] at this
    omega
  have ht : t = [] := by
    cases t with
    | nil => rfl
    | cons c t => have := Char.utf8Size_pos c; simp only [byteLen] at *; omega
  subst ht
  unfold ends
  rw [List.any_eq_true]
  exact ⟨x, (hws x hx).1, List.isSuffixOf_iff_suffix.mpr ⟨u, by rw [e]; simp⟩⟩

theorem room_L (H : Room (b ++ 'L' :: a) (byteLen b)
      (if a.head? = some 'L' ∧ (a.length = 2 ∨ ends (b ++ 'L' :: a) [c!"AS", c!"OS", c!"A", c!"O"] = true) then 1 else 0)
      (if a.head? = some 'L' ∧ (a.length = 2 ∨ ends (b ++ 'L' :: a) [c!"AS", c!"OS", c!"A", c!"O"] = true) then 2 else 0) 0
      (if a.head? = some 'L' then 2 else 0)) : NoPanic (handleL (b ++ 'L' :: a) (byteLen b)) := by
  have eL : ('L' : Char).utf8Size = 1 := rfl
  have hlen : byteLen (b ++ 'L' :: a) = byteLen b + 1 + byteLen a := by
    rw [byteLen_append]; simp only [byteLen]; omega
  unfold handleL
  refine noPanic_step (by rw [isAt_next (by decide)]; exact noPanic_ok _) (fun h1 => ?_) fun h1 => noPanic_ok _
  rw [isAt_next (by decide)] at h1
  injection h1 with h1
  have h1 : a.head? = some 'L' := by simpa using h1
  rw [if_pos h1] at H
  have near : (a.length = 2 ∨ ends (b ++ 'L' :: a) [c!"AS", c!"OS", c!"A", c!"O"] = true) →
      NoPanic (contains (b ++ 'L' :: a) ((byteLen b : Int) - 1) 4 [c!"ILLO", c!"ILLA", c!"ALLE"]) ∧
      NoPanic (contains (b ++ 'L' :: a) ((byteLen b : Int) - 1) 4 [c!"ALLE"]) := by
    intro hcond
    rw [if_pos ⟨h1, hcond⟩, if_pos ⟨h1, hcond⟩] at H
    constructor <;> dm_room H
  have hL0 : NoPanic (conditionL0 (b ++ 'L' :: a) (byteLen b)) := by
    unfold conditionL0
    refine noPanic_bind ?_ fun _ => ite_ind NoPanic (fun _ => noPanic_ok _) fun _ => ?_
    · refine noPanic_okR_and fun h2 => noPanic_okR_and fun h3 => noPanic_okR_and fun h4 => (near (Or.inl ?_)).1
      have h5 : byteLen a = 2 := by omega
      cases a with
      | nil => simp at h1
      | cons d a =>
        simp only [List.head?_cons, Option.some.injEq] at h1
        subst h1
        simp only [byteLen, eL] at h5
        have h6 := length_le_byteLen a
        have : a ≠ [] := by rintro rfl; simp [byteLen] at h5
        have := List.length_pos_iff.mpr this
        simp only [List.length_cons]
        omega
    · refine noPanic_and_known ?_ fun h2 => noPanic_okR_and fun _ => (near (Or.inr ?_)).2
      · clear near
        dm_room H
      · apply Classical.byContradiction
        intro hn
        refine orR_nt (andR_nt_right ?_) (andR_nt_right ?_) h2
        · intro h3
          exact hn (ends_of_contains (k := 2) (by decide) h3)
        · intro h3
          exact hn (ends_of_contains (k := 1) (by decide) h3)
  dm_room H

theorem ends_before {b c a : Str} {k : Nat} {ws : List Str} (hk : ∀ x ∈ ws, byteLen x = k)
    (h : contains (b ++ (c ++ a)) ((byteLen b : Int) - k) k ws = .ok true) : ends b ws = true := by
  obtain ⟨u, x, t, hx, e, hu⟩ := contains_true h
  have := hk x hx
  have h2 := congrArg byteLen e
  rw [byteLen_append] at h2
  have hpos : 0 ≤ (byteLen b : Int) - k := by
    apply Classical.byContradiction
    intro hn
    unfold contains at h
    rw [if_pos (by omega)] at h
    cases h
  obtain ⟨rfl, -⟩ := split_at (b := b) (u := u ++ x) e (by rw [byteLen_append]; omega)
  unfold ends
  rw [List.any_eq_true]
  exact ⟨x, hx, List.isSuffixOf_iff_suffix.mpr ⟨u, rfl⟩⟩

theorem room_R (H : Room (b ++ 'R' :: a) (byteLen b) (if a = [] then (if ends b [c!"IE"] = true then 4 else 2) else 0) 0 0 0) :
    NoPanic (handleR (b ++ 'R' :: a) (byteLen b) sg) := by
  have e1 : ('R' : Char).utf8Size = 1 := rfl
  have hlen : byteLen (b ++ 'R' :: a) = byteLen b + 1 + byteLen a := by
    rw [byteLen_append]; simp only [byteLen]; omega
  have : NoPanic (handleR' (b ++ 'R' :: a) (byteLen b) sg) := by
    unfold handleR'
    refine noPanic_bind ?_ fun _ => ite_ind NoPanic (fun _ => noPanic_ok _) (fun _ => noPanic_ok _)
    refine noPanic_okR_and fun h1 => noPanic_okR_and fun h2 => noPanic_okR_and fun _ => ?_
    have ha : a = [] := by
      cases a with
      | nil => rfl
      | cons d a => have := Char.utf8Size_pos d; simp only [byteLen] at *; omega
    rw [if_pos ha] at H
    refine noPanic_and_known ?_ fun h3 => ?_
    · split at H <;> dm_room H
    · rw [if_pos (ends_before (c := ['R']) (by decide) h3)] at H
      dm_room H
  have h2 : NoPanic (isAt (b ++ 'R' :: a) (byteLen b + 1) 'R') := by rw [isAt_next (by decide)]; exact noPanic_ok _
  unfold handleR
  refine noPanic_bind this fun _ => noPanic_bind h2 fun _ => ite_ind NoPanic (fun _ => noPanic_ok _) (fun _ => noPanic_ok _)

theorem room_M (H : Room (b ++ 'M' :: a) (byteLen b) (if b = [] ∨ a.head? = some 'M' then 0 else 1)
    (if b = [] ∨ a.head? = some 'M' then 0 else if a.head? = some 'B' then 3 else 1) 0 0) :
    NoPanic (conditionM0 (b ++ 'M' :: a) (byteLen b)) := by
  have hp : byteLen b < byteLen (b ++ 'M' :: a) := by
    have : ('M' : Char).utf8Size = 1 := rfl
    rw [byteLen_append]; simp only [byteLen]; omega
  unfold conditionM0
  refine noPanic_step (by rw [isAt_next (by decide)]; exact noPanic_ok _) (fun h1 => noPanic_ok _) fun h1 => ?_
  rw [isAt_next (by decide)] at h1
  injection h1 with h1
  refine noPanic_okR_and fun h2 => ?_
  have hb : ¬ (b = [] ∨ a.head? = some 'M') := by
    rintro (rfl | h)
    · simp [byteLen] at h2
    · simp [h] at h1
  rw [if_neg hb, if_neg hb] at H
  refine noPanic_and_known ?_ fun h3 => ?_
  · split at H <;> dm_room H
  · obtain ⟨u, x, t, hx, e, hu⟩ := contains_true h3
    simp only [List.mem_singleton] at hx
    subst hx
    rw [show u ++ c!"UMB" ++ t = (u ++ ['U']) ++ ('M' :: 'B' :: t) by simp] at e
    obtain ⟨-, e⟩ := split_at e (by
      have : ('U' : Char).utf8Size = 1 := rfl
      rw [byteLen_append]; simp only [byteLen]; omega)
    injection e with _ e
    subst e
    have hB : ('B' :: t).head? = some 'B' := rfl
    rw [if_pos hB] at H
    dm_room H

end

/-! ## Windows -/

theorem bd_mid {v x m y : Str} (e : v = x ++ m ++ y) (hm : ∀ c ∈ m, isAscii c = true) {k : Nat}
    (h1 : byteLen x ≤ k) (h2 : k ≤ byteLen x + m.length) : Bd v k := by
  refine ⟨x ++ m.take (k - byteLen x), m.drop (k - byteLen x) ++ y, ?_, ?_⟩
  · rw [e, ← List.append_assoc, List.append_assoc x (m.take _), List.take_append_drop]
  · have : AsciiStr (m.take (k - byteLen x)) := fun c hc => hm c (List.mem_of_mem_take hc)
    rw [byteLen_append, byteLen_ascii this, List.length_take]
    omega

theorem ascii_reverse_take {b : Str} {n : Nat} (h : ∀ x ∈ b.reverse.take n, isAscii x = true) :
    ∀ x ∈ b.drop (b.length - n), isAscii x = true := by
  intro x hx
  apply h
  rw [List.take_reverse, List.mem_reverse]
  exact hx

theorem room_of {b a : Str} {c : Char} (hc : isAscii c = true) {back ahead first last : Nat}
    (h : ∀ x ∈ b.reverse.take back ++ a.take ahead ++ (b ++ c :: a).take first ++ (b ++ c :: a).reverse.take last,
      isAscii x = true) : Room (b ++ c :: a) (byteLen b) back ahead first last := by
  simp only [List.mem_append] at h
  have h1 := ascii_reverse_take (b := b) (n := back) fun x hx => h x (Or.inl (Or.inl (Or.inl hx)))
  have h2 : ∀ x ∈ a.take ahead, isAscii x = true := fun x hx => h x (Or.inl (Or.inl (Or.inr hx)))
  have h3 : ∀ x ∈ (b ++ c :: a).take first, isAscii x = true := fun x hx => h x (Or.inl (Or.inr hx))
  have h4 := ascii_reverse_take (b := b ++ c :: a) (n := last) fun x hx => h x (Or.inr hx)
  have hb := congrArg byteLen (List.take_append_drop (b.length - back) b)
  rw [byteLen_append, byteLen_ascii (s := b.drop _) h1, List.length_drop] at hb
  have ha := congrArg byteLen (List.take_append_drop ahead a)
  rw [byteLen_append, byteLen_ascii (s := a.take _) h2, List.length_take] at ha
  refine ⟨fun k k1 k2 k3 => ?_, fun k k1 k2 => ?_, fun k k1 k2 => ?_⟩
  · refine bd_mid (x := b.take (b.length - back)) (m := b.drop (b.length - back) ++ c :: a.take ahead) (y := a.drop ahead) ?_ ?_ ?_ ?_
    · have e1 := List.take_append_drop (b.length - back) b
      have e2 := List.take_append_drop ahead a
      rw [← List.append_assoc, e1, List.append_assoc, List.cons_append, e2]
    · intro x hx
      simp only [List.mem_append, List.mem_cons] at hx
      rcases hx with hx | rfl | hx
      · exact h1 x hx
      · exact hc
      · exact h2 x hx
    · by_cases hl : b.length ≤ back
      · rw [show b.length - back = 0 by omega]; simp [byteLen]
      · omega
    · rw [byteLen_append] at k3
      simp only [byteLen, utf8Size_ascii hc] at k3
      simp only [List.length_append, List.length_drop, List.length_cons, List.length_take]
      by_cases hl : a.length ≤ ahead
      · rw [List.drop_eq_nil_of_le hl] at ha
        simp only [byteLen] at ha
        omega
      · omega
  · refine bd_mid (x := []) (m := (b ++ c :: a).take first) (y := (b ++ c :: a).drop first) (by simp) h3 (by simp [byteLen]) ?_
    simp only [byteLen, Nat.zero_add, List.length_take]
    by_cases hl : (b ++ c :: a).length ≤ first
    · have := byteLen_ascii (s := (b ++ c :: a).take first) h3
      rw [List.take_of_length_le hl] at this
      omega
    · omega
  · have he := congrArg byteLen (List.take_append_drop ((b ++ c :: a).length - last) (b ++ c :: a))
    rw [byteLen_append, byteLen_ascii (s := (b ++ c :: a).drop _) h4, List.length_drop] at he
    refine bd_mid (x := (b ++ c :: a).take ((b ++ c :: a).length - last)) (m := (b ++ c :: a).drop ((b ++ c :: a).length - last))
      (y := []) (by simp) h4 ?_ ?_
    · by_cases hl : (b ++ c :: a).length ≤ last
      · rw [show (b ++ c :: a).length - last = 0 by omega]; simp [byteLen]
      · omega
    · rw [List.length_drop]
      omega

theorem ite_nat {p : Prop} [Decidable p] {α : Type} (f : α → Nat) (x y : α) : f (if p then x else y) = if p then f x else f y := by
  split <;> rfl

theorem handle_returns {b a : Str} {c : Char} (sg : Bool) (h : Unobstructed b c a) :
    NoPanic (handle (b ++ c :: a) sg (byteLen b) c) := by
  by_cases hc : isAscii c = true
  · have hlen : byteLen (b ++ c :: a) = byteLen b + 1 + byteLen a := by
      rw [byteLen_append]; simp only [byteLen, utf8Size_ascii hc]; omega
    have hp : byteLen b < byteLen (b ++ c :: a) := by omega
    have H := room_of hc h
    have hlast : byteLen b + 1 = byteLen (b ++ c :: a) ↔ a = [] := by
      rw [hlen]
      cases a with
      | nil => simp [byteLen]
      | cons d a => have := Char.utf8Size_pos d; simp only [byteLen]; simp; omega
    have hfirst : byteLen b = 0 ↔ b = [] := by
      cases b with
      | nil => simp [byteLen]
      | cons d b => have := Char.utf8Size_pos d; simp only [byteLen]; simp; omega
    unfold handle
    split
    any_goals exact noPanic_ok _
    all_goals simp only [window] at H
    any_goals exact room_simple _ _ hp H _ _
    · exact room_C _ _ hp H
    · exact room_D _ _ hp H
    · exact room_G _ _ _ H
    · exact room_H _ _ hp H
    · exact room_J _ _ hp _ H
    · refine room_L _ _ ?_
      by_cases h1 : a.head? = some 'L'
      · by_cases h2 : a.length = 2 ∨ ends (b ++ 'L' :: a) [c!"AS", c!"OS", c!"A", c!"O"] = true
        · rw [if_pos h1, if_pos h2] at H
          rw [if_pos ⟨h1, h2⟩, if_pos ⟨h1, h2⟩, if_pos h1]; exact H
        · rw [if_pos h1, if_neg h2] at H
          rw [if_neg (fun h => h2 h.2), if_neg (fun h => h2 h.2), if_pos h1]; exact H
      · rw [if_neg h1] at H
        rw [if_neg (fun h => h1 h.1), if_neg (fun h => h1 h.1), if_neg h1]; exact H
    · refine noPanic_bind (room_M _ _ ?_) fun _ => ite_ind NoPanic (fun _ => noPanic_ok _) (fun _ => noPanic_ok _)
      by_cases h1 : b = [] ∨ a.head? = some 'M'
      · rw [if_pos h1] at H
        rw [if_pos h1, if_pos h1]; exact H
      · by_cases h2 : a.head? = some 'B'
        · rw [if_neg h1, if_pos h2] at H
          rw [if_neg h1, if_neg h1, if_pos h2]; exact H
        · rw [if_neg h1, if_neg h2] at H
          rw [if_neg h1, if_neg h1, if_neg h2]; exact H
    · exact room_P _ _ hp H
    · refine room_R _ _ _ ?_
      by_cases h1 : a = []
      · by_cases h2 : ends b [c!"IE"] = true
        · rw [if_pos h1, if_pos h2] at H
          rw [if_pos h1, if_pos h2]; exact H
        · rw [if_pos h1, if_neg h2] at H
          rw [if_pos h1, if_neg h2]; exact H
      · rw [if_neg h1] at H
        rw [if_neg h1]; exact H
    · refine room_S _ _ hp _ ?_
      by_cases h1 : a = []
      · rw [if_pos h1] at H; rw [if_pos (hlast.mpr h1)]; exact H
      · rw [if_neg h1] at H; rw [if_neg (fun h => h1 (hlast.mp h))]; exact H
    · exact room_T _ _ hp H
    · exact room_W _ _ hp H
    · refine room_X _ _ hp ?_
      by_cases h1 : a = []
      · rw [if_pos h1] at H; rw [if_pos (hlast.mpr h1), if_pos (Or.inr (hlast.mpr h1))]; exact H
      · rw [if_neg h1] at H; rw [if_neg (fun h => h1 (hlast.mp h))]
        by_cases h2 : b = []
        · rw [if_pos h2] at H; rw [if_pos (Or.inl (hfirst.mpr h2))]; exact H
        · rw [if_neg h2] at H
          rw [if_neg (fun h => h.elim (fun h => h2 (hfirst.mp h)) (fun h => h1 (hlast.mp h)))]; exact H
    · exact room_Z _ _ hp _ H
  · unfold handle
    split
    all_goals first
      | exact absurd (by decide) hc
      | exact noPanic_ok _

theorem loop_returns (v : Str) (sg : Bool) (H : Roomy v) (rest : Str) :
    ∀ (b : Str) (skip : Nat) (r : DMResult), v = b ++ rest → Good r → NoPanic (loop v sg rest (byteLen b) skip r) := by
  induction rest with
  | nil => intro b skip r _ _; exact noPanic_ok _
  | cons c rest ih =>
    intro b skip r hv hr
    have e2 : v = (b ++ [c]) ++ rest := by rw [hv]; simp
    have e1 : byteLen b + c.utf8Size = byteLen (b ++ [c]) := by rw [byteLen_append]; simp [byteLen]
    cases skip with
    | succ skip => rw [loop, e1]; exact ih _ _ _ e2 hr
    | zero =>
      rw [loop]
      refine ite_ind NoPanic (fun _ => noPanic_ok _) (fun _ => ?_)
      have hU : Unobstructed b c rest := by
        have := H b.length (by rw [hv]; simp)
        simpa [hv] using this
      have hne : 1 ≤ byteLen v := byteLen_pos (by rw [hv]; simp)
      obtain ⟨⟨calls, k⟩, hh⟩ := handle_returns sg hU
      rw [← hv] at hh
      rw [hh]
      obtain ⟨e, a1, a2⟩ := runAll_eq hr (handle_ok v (byteLen b) sg c hne _ hh)
      show NoPanic (do let r ← DMAppend.runAll r calls; loop v sg rest (byteLen b + c.utf8Size) k r)
      rw [e, e1]
      exact ih _ _ _ e2 (good_extend hr a1 a2)

end DMProofs
end Verif
