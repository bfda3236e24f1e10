import Verif.Spec.Soundex
/-!
# Letters at a seam between two texts
-/

namespace Verif.Spec

/-- A letter that separates what stands before it from what follows it: its code is not silent, and it is not H or W where
these are ignored. -/
def Separates (table : Str) (hw : Bool) (c : Char) : Prop :=
  codeOf table c ≠ '-' ∧ (hw = true → c ≠ 'H' ∧ c ≠ 'W')

end Verif.Spec
