import Verif.Spec.Soundex
/-!
# What the mapping of a Soundex encoder does with a letter
-/

namespace Verif.Spec

/-- A letter that leaves no trace after the first: its code is silent, or it is H or W and these are ignored. -/
def PassedOver (table : Str) (hw : Bool) (c : Char) : Prop := codeOf table c = '-' ∨ hw = true ∧ (c = 'H' ∨ c = 'W')

/-- A letter that is heard as a digit after the first. -/
def HeardAs (table : Str) (hw : Bool) (c d : Char) : Prop := ¬ PassedOver table hw c ∧ codeOf table c = d ∧ d ≠ '0'

end Verif.Spec
