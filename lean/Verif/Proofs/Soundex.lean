import Verif.Proofs.Common
import Verif.Spec.Soundex
import Verif.Model.Soundex
/-!
# Soundex: the loop against the declarative definition
-/

namespace Verif
open Spec

theorem getMappingCode_upper (m : Mapping) {c : Char} (h : isAsciiUpper c = true) :
    getMappingCode m c = .ok (codeOf m.val c) := by
  simp only [isAsciiUpper, Bool.and_eq_true, decide_eq_true_eq] at h
  have hA : 'A'.toNat = 65 := rfl
  have hlt : c.toNat - 65 < m.val.length := by rw [m.property]; omega
  simp only [getMappingCode, usub, codeOf, hA, if_pos h.1]
  simp [bind, Except.bind, List.getElem?_eq_getElem hlt]

theorem getMappingCode_not_upper (m : Mapping) {c : Char} (h : isAsciiUpper c = false) :
    ∃ e, getMappingCode m c = .error e := by
  simp only [isAsciiUpper, Bool.and_eq_false_iff, decide_eq_false_iff_not] at h
  unfold getMappingCode usub
  by_cases h1 : 65 ≤ c.toNat
  · have hlt : m.val.length ≤ c.toNat - 65 := by rw [m.property]; omega
    simp [h1, bind, Except.bind, List.getElem?_eq_none hlt]
  · simp [h1, bind, Except.bind]

namespace Soundex

/-- Digits produced from `rest` when the previous code is `prev`. -/
def digitsFrom (table : Str) (hw : Bool) (prev : Char) (rest : Str) : Str :=
  ((collapse (prev :: (((rest.filter fun c => !(hw && (c == 'H' || c == 'W'))).map
    (codeOf table)).filter (· ≠ '-')))).drop 1).filter (· ≠ '0')

theorem digitsFrom_nil (table : Str) (hw : Bool) (prev : Char) : digitsFrom table hw prev [] = [] := by
  simp [digitsFrom, collapse]

theorem digitsFrom_hw (table : Str) (hw : Bool) (prev c : Char) (rest : Str)
    (h : (hw && (c == 'H' || c == 'W')) = true) :
    digitsFrom table hw prev (c :: rest) = digitsFrom table hw prev rest := by
  simp only [digitsFrom, List.filter_cons, h, Bool.not_true]; rfl

theorem digitsFrom_silent (table : Str) (hw : Bool) (prev c : Char) (rest : Str)
    (h : (hw && (c == 'H' || c == 'W')) = false) (hs : codeOf table c = '-') :
    digitsFrom table hw prev (c :: rest) = digitsFrom table hw prev rest := by
  simp only [digitsFrom, List.filter_cons, h, Bool.not_false, if_true, List.map_cons, hs, ne_eq,
    not_true_eq_false, decide_false, Bool.false_eq_true, if_false]

theorem digitsFrom_code (table : Str) (hw : Bool) (prev c : Char) (rest : Str)
    (h : (hw && (c == 'H' || c == 'W')) = false) (hs : codeOf table c ≠ '-') :
    digitsFrom table hw prev (c :: rest) =
      if codeOf table c ≠ '0' ∧ codeOf table c ≠ prev then
        codeOf table c :: digitsFrom table hw (codeOf table c) rest
      else digitsFrom table hw (codeOf table c) rest := by
  simp only [digitsFrom, List.filter_cons, h, Bool.not_false, if_true, List.map_cons, hs,
    decide_true, ne_eq, not_false_eq_true]
  rw [collapse_cons_cons]
  by_cases hp : prev = codeOf table c
  · simp only [hp, if_true, not_true_eq_false, and_false, if_false]
  · have hp' : ¬ codeOf table c = prev := fun e => hp e.symm
    simp only [hp, if_false, hp', not_false_eq_true, and_true]
    rw [List.drop_one, List.tail_cons, collapse_cons_drop]
    simp only [List.filter_cons]
    by_cases h0 : codeOf table c = '0'
    · simp [h0]
    · simp [h0]

theorem set_pad (f d : Char) (pushed : Str) (h : pushed.length < 3) :
    (f :: (pushed ++ List.replicate (3 - pushed.length) '0')).set (pushed.length + 1) d =
      f :: ((pushed ++ [d]) ++ List.replicate (3 - (pushed ++ [d]).length) '0') := by
  match pushed, h with
  | [], _ => rfl
  | [a], _ => rfl
  | [a, b], _ => rfl

theorem three_of_ge {ds : Str} (h : 3 ≤ ds.length) : three ds = ds.take 3 := by
  simp [three, List.take_append_of_le_length h]

theorem three_of_le {ds : Str} (h : ds.length ≤ 3) :
    three ds = ds ++ List.replicate (3 - ds.length) '0' := by
  match ds, h with
  | [], _ => rfl
  | [a], _ => rfl
  | [a, b], _ => rfl
  | [a, b, c], _ => rfl

theorem three_append {pushed ds : Str} (h : pushed.length = 3) : three (pushed ++ ds) = pushed := by
  rw [three_of_ge (by simp; omega)]
  rw [List.take_append_of_le_length (by omega), List.take_of_length_le (by omega)]

/-- What the loop does on letters A–Z. -/
theorem loop_eq (sx : Soundex) (f : Char) (rest : Str) :
    ∀ (pushed : Str) (prev : Char), pushed.length ≤ 3 → (∀ c ∈ rest, isAsciiUpper c = true) →
    loop sx rest (pushed.length + 1) prev
        (f :: (pushed ++ List.replicate (3 - pushed.length) '0')) =
      .ok (f :: three (pushed ++ digitsFrom sx.mapping.val sx.specialCaseHW prev rest)) := by
  induction rest with
  | nil =>
    intro pushed prev hl _
    simp only [loop, digitsFrom_nil, List.append_nil]
    rw [three_of_le hl]
  | cons ch rest ih =>
    intro pushed prev hl hup
    have hch := hup ch (by simp)
    have hrest : ∀ c ∈ rest, isAsciiUpper c = true := fun c hc => hup c (by simp [hc])
    simp only [loop]
    by_cases hcnt : pushed.length + 1 < 4
    · rw [if_pos hcnt]
      by_cases hhw : (sx.specialCaseHW && (ch == 'H' || ch == 'W')) = true
      · rw [if_pos hhw, ih pushed prev hl hrest, digitsFrom_hw _ _ _ _ _ hhw]
      · rw [if_neg hhw, getMappingCode_upper _ hch]
        simp only [bind, Except.bind]
        have hhw' := Bool.eq_false_iff.mpr hhw
        by_cases hs : codeOf sx.mapping.val ch = '-'
        · rw [if_pos hs, ih pushed prev hl hrest, digitsFrom_silent _ _ _ _ _ hhw' hs]
        · rw [if_neg hs, digitsFrom_code _ _ _ _ _ hhw' hs]
          by_cases hd : codeOf sx.mapping.val ch ≠ '0' ∧ codeOf sx.mapping.val ch ≠ prev
          · rw [if_pos hd, if_pos hd, set_pad _ _ _ (by omega)]
            have := ih (pushed ++ [codeOf sx.mapping.val ch]) (codeOf sx.mapping.val ch)
              (by simp; omega) hrest
            rw [show (pushed ++ [codeOf sx.mapping.val ch]).length + 1 = pushed.length + 1 + 1 by simp] at this
            rw [this]
            simp
          · rw [if_neg hd, if_neg hd, ih pushed _ hl hrest]
    · rw [if_neg hcnt]
      have h3 : pushed.length = 3 := by omega
      rw [three_append h3, h3]
      simp

/-- What the loop does when it meets a character outside A–Z. -/
theorem loop_bad (sx : Soundex) (f bad : Char) (post pre : Str) (hbad : isAsciiUpper bad = false) :
    ∀ (pushed : Str) (prev : Char), pushed.length ≤ 3 → (∀ c ∈ pre, isAsciiUpper c = true) →
    (pushed.length + (digitsFrom sx.mapping.val sx.specialCaseHW prev pre).length < 3 →
      ∃ e, loop sx (pre ++ bad :: post) (pushed.length + 1) prev
        (f :: (pushed ++ List.replicate (3 - pushed.length) '0')) = .error e) ∧
    (3 ≤ pushed.length + (digitsFrom sx.mapping.val sx.specialCaseHW prev pre).length →
      loop sx (pre ++ bad :: post) (pushed.length + 1) prev
        (f :: (pushed ++ List.replicate (3 - pushed.length) '0')) =
      .ok (f :: three (pushed ++ digitsFrom sx.mapping.val sx.specialCaseHW prev pre))) := by
  have hbH : (sx.specialCaseHW && (bad == 'H' || bad == 'W')) = false := by
    have h1 : (bad == 'H') = false := by
      rw [beq_eq_false_iff_ne]; rintro rfl; exact absurd hbad (by decide)
    have h2 : (bad == 'W') = false := by
      rw [beq_eq_false_iff_ne]; rintro rfl; exact absurd hbad (by decide)
    simp [h1, h2]
  induction pre with
  | nil =>
    intro pushed prev hl _
    simp only [digitsFrom_nil, List.length_nil, List.nil_append, List.append_nil, loop]
    constructor
    · intro h
      rw [if_pos (by omega), if_neg (by simp [hbH])]
      obtain ⟨e, he⟩ := getMappingCode_not_upper sx.mapping hbad
      exact ⟨e, by rw [he]; rfl⟩
    · intro h
      rw [if_neg (by omega), three_of_le hl]
  | cons ch pre ih =>
    intro pushed prev hl hup
    have hch := hup ch (by simp)
    have hrest : ∀ c ∈ pre, isAsciiUpper c = true := fun c hc => hup c (by simp [hc])
    simp only [List.cons_append, loop]
    by_cases hcnt : pushed.length + 1 < 4
    · rw [if_pos hcnt]
      by_cases hhw : (sx.specialCaseHW && (ch == 'H' || ch == 'W')) = true
      · rw [if_pos hhw, digitsFrom_hw _ _ _ _ _ hhw]
        exact ih pushed prev hl hrest
      · rw [if_neg hhw, getMappingCode_upper _ hch]
        simp only [bind, Except.bind]
        have hhw' := Bool.eq_false_iff.mpr hhw
        by_cases hs : codeOf sx.mapping.val ch = '-'
        · rw [if_pos hs, digitsFrom_silent _ _ _ _ _ hhw' hs]
          exact ih pushed prev hl hrest
        · rw [if_neg hs, digitsFrom_code _ _ _ _ _ hhw' hs]
          by_cases hd : codeOf sx.mapping.val ch ≠ '0' ∧ codeOf sx.mapping.val ch ≠ prev
          · rw [if_pos hd, if_pos hd, set_pad _ _ _ (by omega)]
            have := ih (pushed ++ [codeOf sx.mapping.val ch]) (codeOf sx.mapping.val ch)
              (by simp; omega) hrest
            rw [show (pushed ++ [codeOf sx.mapping.val ch]).length + 1 = pushed.length + 1 + 1 by simp] at this
            simp only [List.append_assoc, List.singleton_append] at this ⊢
            simp only [List.length_append, List.length_cons, List.length_nil] at this ⊢
            refine ⟨fun h => this.1 (by omega), fun h => this.2 (by omega)⟩
          · rw [if_neg hd, if_neg hd]
            exact ih pushed _ hl hrest
    · rw [if_neg hcnt]
      have h3 : pushed.length = 3 := by omega
      refine ⟨fun h => by omega, fun _ => ?_⟩
      rw [three_append h3, h3]
      simp

/-- The first character outside A–Z splits a string. -/
theorem split_bad (l : Str) : (∀ c ∈ l, isAsciiUpper c = true) ∨
    ∃ pre bad post, l = pre ++ bad :: post ∧ (∀ c ∈ pre, isAsciiUpper c = true) ∧
      isAsciiUpper bad = false := by
  induction l with
  | nil => left; simp
  | cons c cs ih =>
    cases hc : isAsciiUpper c with
    | false => right; exact ⟨[], c, cs, rfl, by simp, hc⟩
    | true =>
      rcases ih with h | ⟨pre, bad, post, rfl, hp, hb⟩
      · left; intro x hx; rcases List.mem_cons.mp hx with rfl | h'
        · exact hc
        · exact h x h'
      · right
        refine ⟨c :: pre, bad, post, rfl, ?_, hb⟩
        intro x hx; rcases List.mem_cons.mp hx with rfl | h'
        · exact hc
        · exact hp x h'

end Soundex

namespace RefinedSoundex

theorem loop_eq (m : Mapping) (rest : Str) (h : ∀ c ∈ rest, isAsciiUpper c = true) :
    ∀ (prev : Char) (code : Str), loop m rest (some prev) code =
      .ok (code ++ (collapse (prev :: rest.map (codeOf m.val))).drop 1) := by
  induction rest with
  | nil => intro prev code; simp [loop, collapse]
  | cons ch rest ih =>
    intro prev code
    have hch := h ch (by simp)
    have hr : ∀ c ∈ rest, isAsciiUpper c = true := fun c hc => h c (by simp [hc])
    simp only [loop, getMappingCode_upper _ hch, bind, Except.bind, List.map_cons]
    rw [collapse_cons_cons]
    by_cases hp : prev = codeOf m.val ch
    · rw [if_neg (by simp [hp]), if_pos hp, ih hr]
    · rw [if_pos (by simpa using fun e => hp e.symm), if_neg hp, ih hr]
      simp only [List.append_assoc, List.drop_one, List.tail_cons]
      conv => rhs; rw [collapse_cons_drop]
      simp

theorem loop_bad (m : Mapping) (rest : Str) (h : ∃ c ∈ rest, isAsciiUpper c = false) :
    ∀ (prev : Option Char) (code : Str), ∃ e, loop m rest prev code = .error e := by
  induction rest with
  | nil => simp at h
  | cons ch rest ih =>
    intro prev code
    simp only [loop]
    cases hc : isAsciiUpper ch with
    | false =>
      obtain ⟨e, he⟩ := getMappingCode_not_upper m hc
      exact ⟨e, by rw [he]; rfl⟩
    | true =>
      rw [getMappingCode_upper _ hc]
      simp only [bind, Except.bind]
      obtain ⟨c, hcm, hcb⟩ := h
      have : c ∈ rest := by
        rcases List.mem_cons.mp hcm with rfl | h'
        · rw [hc] at hcb; simp at hcb
        · exact h'
      split <;> exact ih ⟨c, this, hcb⟩ _ _

end RefinedSoundex

end Verif
