import Verif.Proofs.DoubleMetaphoneSpec
/-!
# Double Metaphone: C70 and C71
-/

set_option linter.unusedSimpArgs false

namespace Verif.Props
open Verif.DMProofs Verif.DoubleMetaphone Verif.Spec

/-- C70. The codes of an ASCII text are the codes of the specification for the trimmed text in upper case, cut to the limit. -/
theorem double_metaphone_spec (U : Unicode) (max : Option Nat) (s : Str) (h : AsciiStr s)
    (hmax : Allocatable max) :
    (DoubleMetaphone.new max).doubleMetaphone U s =
      .ok { primary := DM.limited max (DM.primary ((U.trim s).map asciiUpper)),
            alternate := DM.limited max (DM.alternate ((U.trim s).map asciiUpper)), maxLength := max } ∧
    (DoubleMetaphone.new max).encode U s = .ok (DM.limited max (DM.primary ((U.trim s).map asciiUpper))) ∧
    (DoubleMetaphone.new max).encodeAlternate U s = .ok (DM.limited max (DM.alternate ((U.trim s).map asciiUpper))) := by
  have ht := ascii_trim U h
  have hv : dmValue U s = (U.trim s).map asciiUpper := by
    unfold dmValue Unicode.strUpper
    generalize U.trim s = t at ht
    induction t with
    | nil => rfl
    | cons c t ih =>
      rw [List.flatMap_cons, List.map_cons, U.toUpper_ascii c (ht c (by simp)), ih (fun x hx => ht x (by simp [hx]))]
      rfl
  have hA : AsciiStr ((U.trim s).map asciiUpper) := by
    intro c hc
    obtain ⟨x, hx, rfl⟩ := List.mem_map.mp hc
    exact isAscii_asciiUpper (ht x hx)
  have hU : ∀ x ∈ (U.trim s).map asciiUpper, isAsciiLower x = false := by
    intro c hc
    obtain ⟨x, hx, rfl⟩ := List.mem_map.mp hc
    have key : ∀ c, isAscii c = true → isAsciiLower (asciiUpper c) = false := by
      apply forall_ascii; decide +kernel
    exact key x (ht x hx)
  have h0 : (DoubleMetaphone.new none).doubleMetaphone U s =
      .ok { primary := DM.primary ((U.trim s).map asciiUpper),
            alternate := DM.alternate ((U.trim s).map asciiUpper), maxLength := none } := by
    rw [doubleMetaphone_eq _ _ _ (by rintro _ ⟨⟩), hv, isSlavoGermanic_eq]
    have := loop_spec _ hA hU _ [] (dmSkip ((U.trim s).map asciiUpper)) (dmEmpty none) rfl (dm_good_new none) rfl
    exact this
  have h1 : (DoubleMetaphone.new max).doubleMetaphone U s =
      .ok { primary := DM.limited max (DM.primary ((U.trim s).map asciiUpper)),
            alternate := DM.limited max (DM.alternate ((U.trim s).map asciiUpper)), maxLength := max } := by
    cases max with
    | none => exact h0
    | some n => exact (dm_run U none n (by simp) (hmax n rfl) s _ h0).1
  exact ⟨h1, by unfold encode; rw [h1]; rfl, by unfold encodeAlternate; rw [h1]; rfl⟩

/-- C70, not vacuous: the codes of two words by the specification alone. -/
example : DM.primary c!"SCHWARZENEGGER" = c!"XRSNKR" ∧ DM.alternate c!"SCHWARZENEGGER" = c!"XFRTSNKR" ∧
    DM.primary c!"CAESAR" = c!"SSR" ∧ DM.primary c!"FILIPOWICZ" = c!"FLPTS" ∧ DM.alternate c!"FILIPOWICZ" = c!"FLPFX" ∧
    AsciiStr c!"Schwarzenegger" := by decide +kernel

/-- C71. In a text without English consonants, an initial vowel gives A, Ç gives S and Ñ gives N; nothing else counts,
in any alphabet. -/
theorem double_metaphone_vocalic (U : Unicode) (max : Option Nat) (s : Str) (hmax : Allocatable max)
    (h : ∀ c ∈ U.strUpper (U.trim s), c ∉ c!"BCDFGHJKLMNPQRSTVWXZ") :
    (DoubleMetaphone.new max).doubleMetaphone U s =
      .ok { primary := DM.limited max (DM.vocalic (U.strUpper (U.trim s))),
            alternate := DM.limited max (DM.vocalic (U.strUpper (U.trim s))), maxLength := max } := by
  have h0 : (DoubleMetaphone.new none).doubleMetaphone U s =
      .ok { primary := DM.vocalic (U.strUpper (U.trim s)),
            alternate := DM.vocalic (U.strUpper (U.trim s)), maxLength := none } := by
    rw [doubleMetaphone_eq _ _ _ (by rintro _ ⟨⟩)]
    exact loop_vocalic (dmValue U s) h
  cases max with
  | none => exact h0
  | some n => exact (dm_run U none n (by simp) (hmax n rfl) s _ h0).1

example : DoubleMetaphone.default.doubleMetaphone .latin1 c!"açaí" =
    .ok { primary := c!"AS", alternate := c!"AS", maxLength := some 4 } := by decide +kernel

end Verif.Props
