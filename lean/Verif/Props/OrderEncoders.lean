import Verif.Model.OrderEncoders
import Verif.Props.Orders
import Verif.Props.Settings
/-!
# C119: comparing encoders
-/
namespace Verif.Props
open Verif.Spec BM OrderProofs

theorem char_total : TotalOrder (fun c d : Char => natCmp c.toNat d.toNat) where
  eq_iff a b := by
    rw [nat_total.eq_iff]
    exact ⟨fun h => Char.toNat_inj.1 h, fun h => by rw [h]⟩
  swap a b := nat_total.swap _ _
  trans a b c := nat_total.trans _ _ _

theorem bool_total : TotalOrder boolCmp where
  eq_iff a b := by cases a <;> cases b <;> decide
  swap a b := by cases a <;> cases b <;> decide
  trans a b c := by cases a <;> cases b <;> cases c <;> decide

theorem map_total {α β : Type} {c : β → β → Ordering} (h : TotalOrder c) (f : α → β)
    (inj : ∀ x y, f x = f y → x = y) : TotalOrder (fun x y => c (f x) (f y)) where
  eq_iff x y := by rw [h.eq_iff]; exact ⟨inj x y, fun e => by rw [e]⟩
  swap x y := h.swap _ _
  trans x y z := h.trans _ _ _

theorem mapping_total : TotalOrder mappingCmp :=
  map_total (set_total char_total) (fun m : Mapping => m.val) fun _ _ h => Subtype.ext h

/-- C119. The derived comparisons of the encoders and of the settings of Beider-Morse are total
orders that agree with `==`. -/
theorem encoder_orders_total :
    TotalOrder Soundex.cmp ∧ TotalOrder RefinedSoundex.cmp ∧ TotalOrder Metaphone.cmp ∧
    TotalOrder DoubleMetaphone.cmp ∧ TotalOrder Nysiis.cmp ∧ TotalOrder Phonex.cmp ∧
    TotalOrder NameType.cmp ∧ TotalOrder RuleType.cmp := by
  refine ⟨?_, ?_, ?_, ?_, ?_, ?_, ?_, ?_⟩
  · exact lex_total mapping_total bool_total Soundex.mapping Soundex.specialCaseHW
      (by rintro ⟨a, b⟩ ⟨c, d⟩ h1 h2; cases h1; cases h2; rfl)
  · exact map_total mapping_total RefinedSoundex.mapping (by rintro ⟨a⟩ ⟨b⟩ h; cases h; rfl)
  · exact map_total (option_total nat_total) Metaphone.maxCodeLength (by rintro ⟨a⟩ ⟨b⟩ h; cases h; rfl)
  · exact map_total (option_total nat_total) DoubleMetaphone.maxCodeLength (by rintro ⟨a⟩ ⟨b⟩ h; cases h; rfl)
  · exact map_total bool_total Nysiis.strict (by rintro ⟨a⟩ ⟨b⟩ h; cases h; rfl)
  · exact map_total nat_total Phonex.maxCodeLength (by rintro ⟨a⟩ ⟨b⟩ h; cases h; rfl)
  · constructor
    · intro a b; cases a <;> cases b <;> decide
    · intro a b; cases a <;> cases b <;> decide
    · intro a b c; cases a <;> cases b <;> cases c <;> decide
  · constructor
    · intro a b; cases a <;> cases b <;> decide
    · intro a b; cases a <;> cases b <;> decide
    · intro a b c; cases a <;> cases b <;> cases c <;> decide

theorem limit_order (m n : Option Nat) : optionCmp natCmp m n = .lt ↔ limitBelow m n := by
  cases m <;> cases n <;> simp [optionCmp, limitBelow, natCmp, Nat.compare_eq_lt]

/-- C119. Encoders with limits are ordered by their limits, one without limit being the first
(though its codes are the longest); a Nysiis encoder that is not strict comes before the strict one. -/
theorem encoder_order_limits :
    (∀ m n, (Metaphone.new m).cmp (Metaphone.new n) = .lt ↔ limitBelow m n) ∧
    (∀ m n, (DoubleMetaphone.new m).cmp (DoubleMetaphone.new n) = .lt ↔ limitBelow m n) ∧
    (∀ m n, (Phonex.new m).cmp (Phonex.new n) = .lt ↔ m < n) ∧
    (∀ a b, (Nysiis.new a).cmp (Nysiis.new b) = .lt ↔ a = false ∧ b = true) := by
  refine ⟨fun m n => limit_order m n, fun m n => limit_order m n, fun m n => ?_, fun a b => ?_⟩
  · exact Nat.compare_eq_lt
  · cases a <;> cases b <;> decide

theorem char_lt_toNat {c d : Char} : natCmp c.toNat d.toNat = .lt ↔ c < d := by
  unfold natCmp
  rw [Nat.compare_eq_lt]
  exact Iff.rfl

theorem chars_order (a b : Str) : setCmp (fun c d : Char => natCmp c.toNat d.toNat) a b = .lt ↔ a < b := by
  induction a generalizing b with
  | nil => cases b <;> simp [setCmp]
  | cons x a ih =>
    cases b with
    | nil => simp [setCmp]
    | cons y b =>
      rw [setCmp, Ordering.then_eq_lt, ih, List.cons_lt_cons_iff, char_lt_toNat, char_total.eq_iff]

/-- C119. Soundex encoders are ordered by their mappings, as texts, then by the flag for H and W. -/
theorem encoder_order_mappings (m n : Mapping) (h k : Bool) :
    ((Soundex.new m h).cmp (Soundex.new n k) = .lt ↔ m.val < n.val ∨ m = n ∧ h = false ∧ k = true) ∧
    ((RefinedSoundex.new m).cmp (RefinedSoundex.new n) = .lt ↔ m.val < n.val) := by
  refine ⟨?_, chars_order _ _⟩
  change (mappingCmp m n).then (boolCmp h k) = .lt ↔ _
  rw [Ordering.then_eq_lt, mapping_total.eq_iff]
  have : boolCmp h k = .lt ↔ h = false ∧ k = true := by cases h <;> cases k <;> decide
  rw [this]
  exact or_congr_left (chars_order _ _)

/-- C119. Encoders that compare equal encode every text alike; and, for Metaphone, Nysiis and
Refined Soundex, encoders that encode every ASCII text alike compare equal. -/
theorem encoder_order_codes (U : Unicode) :
    (∀ a b : Soundex, a.cmp b = .eq → ∀ s, a.encode U s = b.encode U s) ∧
    (∀ a b : DoubleMetaphone, a.cmp b = .eq → ∀ s, a.encode U s = b.encode U s) ∧
    (∀ a b : Phonex, a.cmp b = .eq → ∀ s, a.encode U s = b.encode U s) ∧
    (∀ a b : Metaphone, a.cmp b = .eq ↔ ∀ s, AsciiStr s → a.encode U s = b.encode U s) ∧
    (∀ a b : Nysiis, a.cmp b = .eq ↔ ∀ s, AsciiStr s → a.encode U s = b.encode U s) ∧
    (∀ a b : RefinedSoundex, a.cmp b = .eq ↔ ∀ s, AsciiStr s → a.encode U s = b.encode U s) := by
  obtain ⟨h1, h2, h3, h4, h5, h6, -⟩ := encoder_orders_total
  refine ⟨fun a b h s => ?_, fun a b h s => ?_, fun a b h s => ?_, fun a b => ?_, fun a b => ?_, fun a b => ?_⟩
  · rw [(h1.eq_iff a b).1 h]
  · rw [(h4.eq_iff a b).1 h]
  · rw [(h6.eq_iff a b).1 h]
  · obtain ⟨m⟩ := a; obtain ⟨n⟩ := b
    rw [h3.eq_iff]
    exact Iff.trans (by simp) (metaphone_settings U m n).symm
  · obtain ⟨m⟩ := a; obtain ⟨n⟩ := b
    rw [h5.eq_iff]
    exact Iff.trans (by simp) (nysiis_settings U m n).symm
  · obtain ⟨m⟩ := a; obtain ⟨n⟩ := b
    rw [h2.eq_iff]
    exact Iff.trans (by simp) (refined_soundex_settings U m n).symm

/-- C119. The name types are ordered as their names, the approximate rules come before the exact ones. -/
theorem settings_order :
    (∀ a b : NameType, a.cmp b = .lt ↔ a.display < b.display) ∧
    (∀ a b : RuleType, a.cmp b = .lt ↔ a = .approx ∧ b = .exact) := by
  refine ⟨fun a b => ?_, fun a b => ?_⟩ <;> cases a <;> cases b <;> decide

example : Metaphone.default.cmp (Metaphone.new none) = .gt ∧
    (Soundex.new defaultMapping true).cmp (Soundex.new genealogyMapping false) = .gt ∧
    (Soundex.new defaultMapping false).cmp (Soundex.new defaultMapping true) = .lt ∧
    NameType.generic.cmp .sephardic = .lt := by decide +kernel

end Verif.Props
