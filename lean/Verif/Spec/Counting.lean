import Verif.Spec.Codes
/-!
# Numbers of codes

Nothing here refers to the model of the code.
-/

namespace Verif.Spec

/-- Exactly `n` strings have the property: they can be listed without repetition, and the list has `n` entries. -/
def HasExactly (P : Str → Prop) (n : Nat) : Prop :=
  ∃ codes : List Str, codes.Nodup ∧ codes.length = n ∧ ∀ code, code ∈ codes ↔ P code

/-- `1 + a + a² + … + aⁿ`: the number of words of at most `n` letters of an alphabet of `a` letters. -/
def wordsUpTo (a n : Nat) : Nat := ((List.range (n + 1)).map fun i => a ^ i).sum

end Verif.Spec
