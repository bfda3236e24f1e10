import Verif.Props.CaverphoneSpec
import Verif.Props.Nysiis
/-!
# Codes that are cut at a byte (C75)
-/

set_option linter.unusedSimpArgs false

namespace Verif.Props
open Spec CaverphoneProofs NysiisProofs

theorem sliceTo_iff (w r : Str) (n : Nat) : sliceTo w n = .ok r ↔ FirstBytes n w r := by
  constructor
  · intro h
    obtain ⟨h1, b, h2⟩ := sliceTo_ok h
    exact ⟨⟨b, h2.symm⟩, h1⟩
  · rintro ⟨⟨b, rfl⟩, rfl⟩
    exact sliceTo_append r b

theorem sliceTo_error_iff (w : Str) (n : Nat) : (∃ e, sliceTo w n = .error e) ↔ ¬ ∃ r, FirstBytes n w r := by
  constructor
  · rintro ⟨e, he⟩ ⟨r, hr⟩
    rw [(sliceTo_iff w r n).mpr hr] at he
    cases he
  · intro h
    cases hs : sliceTo w n with
    | ok r => exact absurd ⟨r, (sliceTo_iff w r n).mp hs⟩ h
    | error e => exact ⟨e, rfl⟩

/-- C75. Caverphone 1 returns a code exactly if it is the first six bytes of the sounds of the letters followed by
'1's, and panics exactly if byte six lies inside a letter. -/
theorem caverphone1_outcome (U : Unicode) (s : Str) :
    let full := Spec.Caverphone.code .v1 ((U.strLower s).filter U.isLowercase) ++ List.replicate 6 '1'
    (∀ r, Caverphone1.encode U s = .ok r ↔ FirstBytes 6 full r) ∧
      ((∃ e, Caverphone1.encode U s = .error e) ↔ ¬ ∃ r, FirstBytes 6 full r) := by
  simp only [caverphone1_spec, slice_zero]
  exact ⟨fun r => sliceTo_iff _ r 6, sliceTo_error_iff _ 6⟩

/-- C75. The same of Caverphone 2, with ten bytes. -/
theorem caverphone2_outcome (U : Unicode) (s : Str) :
    let full := Spec.Caverphone.code .v2 ((U.strLower s).filter U.isLowercase) ++ List.replicate 10 '1'
    (∀ r, Caverphone2.encode U s = .ok r ↔ FirstBytes 10 full r) ∧
      ((∃ e, Caverphone2.encode U s = .error e) ↔ ¬ ∃ r, FirstBytes 10 full r) := by
  simp only [caverphone2_spec, slice_zero]
  exact ⟨fun r => sliceTo_iff _ r 10, sliceTo_error_iff _ 10⟩

/-- C75. Caverphone returns if the lower-case letters of the lower-cased text are a–z; other characters may be
anything. -/
theorem caverphone_ascii_letters (U : Unicode) (s : Str)
    (h : ∀ c ∈ U.strLower s, U.isLowercase c = true → isAscii c = true) :
    (∃ r, Caverphone1.encode U s = .ok r) ∧ (∃ r, Caverphone2.encode U s = .ok r) := by
  have hw : removeAllNonLetter U (U.strLower s) ⊆ c!"abcdefghijklmnopqrstuvwxyz" := by
    intro c hc
    obtain ⟨h1, h2⟩ := List.mem_filter.mp hc
    have ha := h c h1 h2
    rw [U.isLowercase_ascii c ha] at h2
    revert h2
    revert c
    have : ∀ c, isAscii c = true → isAsciiLower c = true → c ∈ c!"abcdefghijklmnopqrstuvwxyz" := by
      apply forall_ascii; decide +kernel
    exact fun c _ _ ha h2 => this c ha h2
  have b1 : Caverphone1.body U s ⊆ c!"AFKLMNPRSTWY" := by
    rw [cav1_body_eq]
    exact fun x hx => cav1_alpha x (runStages_alpha cav1Stages (by decide) hw hx)
  have b2 : Caverphone2.body U s ⊆ c!"AFKLMNPRSTWY" := by
    rw [cav2_body_eq]
    exact fun x hx => cav2_alpha x (runStages_alpha cav2Stages (by decide) hw hx)
  rw [encode1_eq, encode2_eq, slice_cut (ascii_of_alphabet b1), slice_cut (ascii_of_alphabet b2)]
  exact ⟨⟨_, rfl⟩, ⟨_, rfl⟩⟩

/-- C75. Non-strict NYSIIS always returns; strict NYSIIS returns the full code if it has at most six bytes and else
its first six bytes, and panics exactly if byte six lies inside a letter of the full code. -/
theorem nysiis_outcome (U : Unicode) (s : Str) :
    ∃ full, (Nysiis.new false).encode U s = .ok full ∧
      (byteLen full ≤ 6 → (Nysiis.new true).encode U s = .ok full) ∧
      (6 ≤ byteLen full → (∀ r, (Nysiis.new true).encode U s = .ok r ↔ FirstBytes 6 full r) ∧
        ((∃ e, (Nysiis.new true).encode U s = .error e) ↔ ¬ ∃ r, FirstBytes 6 full r)) := by
  refine ⟨nysiis U s, (nysiis_eq_spec U s).1, fun h => ?_, fun h => ?_⟩
  · rw [(nysiis_eq_spec U s).2, Nat.min_eq_left h, sliceTo_iff]
    exact ⟨List.prefix_refl _, rfl⟩
  · rw [(nysiis_eq_spec U s).2, Nat.min_eq_right h]
    exact ⟨fun r => sliceTo_iff _ r 6, sliceTo_error_iff _ 6⟩

/-- Both outcomes occur. -/
example : (∃ r, FirstBytes 6 (Spec.Caverphone.code .v1 c!"papañ" ++ List.replicate 6 '1') r) ∧
    ¬ ∃ r, FirstBytes 6 (Spec.Caverphone.code .v1 c!"papapapapañ" ++ List.replicate 6 '1') r := by
  constructor
  · exact ⟨c!"PPñ11", ⟨c!"1111", by decide +kernel⟩, by decide +kernel⟩
  · exact (sliceTo_error_iff _ 6).mp ⟨.slice, by decide +kernel⟩

example : ∀ c ∈ Unicode.latin1.strLower c!"Lee–Smith №7", Unicode.latin1.isLowercase c = true → isAscii c = true := by
  decide +kernel

end Verif.Props
