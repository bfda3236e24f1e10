import Verif.Proofs.DoubleMetaphoneReturns
/-!
# Double Metaphone: accents that do no harm (C79)
-/

set_option linter.unusedSimpArgs false

namespace Verif.Props
open Verif.DMProofs Verif.DoubleMetaphone Verif.Spec

/-- C79. On a text where the window of every letter holds nothing but ASCII, Double Metaphone with an allocatable limit
returns, and its codes are those of the specification, cut to the limit. -/
theorem double_metaphone_returns (U : Unicode) (max : Option Nat) (s : Str) (hmax : Allocatable max)
    (hU : ∀ x ∈ U.strUpper (U.trim s), isAsciiLower x = false) (hR : DM.Roomy (U.strUpper (U.trim s))) :
    (DoubleMetaphone.new max).doubleMetaphone U s =
      .ok { primary := DM.limited max (DM.primary (DM.padded (U.strUpper (U.trim s)))),
            alternate := DM.limited max (DM.alternate (DM.padded (U.strUpper (U.trim s)))), maxLength := max } := by
  rw [doubleMetaphone_eq _ _ _ hmax]
  obtain ⟨r, hr⟩ := loop_returns (dmValue U s) (isSlavoGermanic (dmValue U s)) hR (dmValue U s) [] (dmSkip (dmValue U s))
    (dmEmpty max) rfl (dm_good_new max)
  have := run_any (dmValue U s) hU max r hr
  rw [show byteLen [] = 0 from rfl] at hr
  rw [this] at hr
  rw [hr]
  cases max <;> rfl

/-- C79, not vacuous: everyday names. -/
example : DM.Roomy (Unicode.latin1.strUpper (Unicode.latin1.trim c!"Müller")) ∧
    DM.Roomy (Unicode.latin1.strUpper (Unicode.latin1.trim c!"François")) ∧
    DM.Roomy (Unicode.latin1.strUpper (Unicode.latin1.trim c!"Núñez")) ∧
    DM.Roomy (Unicode.latin1.strUpper (Unicode.latin1.trim c!"Renée")) ∧
    ¬ DM.Roomy (Unicode.latin1.strUpper (Unicode.latin1.trim c!"Gómez")) ∧
    (∀ x ∈ Unicode.latin1.strUpper (Unicode.latin1.trim c!"Renée"), isAsciiLower x = false) ∧
    Allocatable (some 4) :=
  ⟨by decide +kernel, by decide +kernel, by decide +kernel, by decide +kernel, by decide +kernel, by decide +kernel,
    fun n h => by injection h with h; omega⟩

end Verif.Props
