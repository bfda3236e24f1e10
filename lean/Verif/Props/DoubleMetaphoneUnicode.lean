import Verif.Proofs.DoubleMetaphoneUnicode
/-!
# Double Metaphone beyond ASCII: C77
-/

set_option linter.unusedSimpArgs false

namespace Verif.Props
open Verif.DMProofs Verif.DoubleMetaphone Verif.Spec

/-- C77. Whatever the alphabet of the text, when the encoder returns, its codes are those of the specification for the
trimmed text in upper case where each multi-byte letter is followed by one placeholder for every further byte, cut to the
limit. -/
theorem double_metaphone_beyond_ascii (U : Unicode) (max : Option Nat) (s : Str) (r : DMResult)
    (hU : ∀ x ∈ U.strUpper (U.trim s), isAsciiLower x = false)
    (h : (DoubleMetaphone.new max).doubleMetaphone U s = .ok r) :
    r = { primary := DM.limited max (DM.primary (DM.padded (U.strUpper (U.trim s)))),
          alternate := DM.limited max (DM.alternate (DM.padded (U.strUpper (U.trim s)))), maxLength := max } := by
  rw [doubleMetaphone_eq _ _ _ (allocatable_of_ok h)] at h
  have := run_any (dmValue U s) hU max r h
  rw [this]
  cases max <;> rfl

/-- C77, not vacuous: texts with letters beyond ASCII that the encoder accepts, and their codes by the specification. -/
example : (DoubleMetaphone.default.doubleMetaphone .latin1 c!"Müller").isOk = true ∧
    (DoubleMetaphone.default.doubleMetaphone .latin1 c!"François").isOk = true ∧
    (DoubleMetaphone.default.doubleMetaphone .latin1 c!"Muñoz").isOk = true ∧
    (∀ x ∈ Unicode.latin1.strUpper (Unicode.latin1.trim c!"François"), isAsciiLower x = false) ∧
    DM.primary (DM.padded c!"MÜLLER") = c!"MLR" ∧ DM.primary (DM.padded c!"FRANÇOIS") = c!"FRNS" ∧ DM.alternate (DM.padded c!"FRANÇOIS") = c!"FRNSS" ∧
    DM.primary (DM.padded c!"MUÑOZ") = c!"MNS" := by decide +kernel

end Verif.Props
