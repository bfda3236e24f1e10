import Verif.Spec.Doubled
/-!
# Neighbouring letters that may change places (C120)
-/

namespace Verif.Spec

/-- Two neighbouring letters can always change places: between every two texts, the first of them with the property `before`
and the second with the property `after`. -/
def Swappable {β : Type} (encode : Str → β) (before after : Str → Prop) (a b : Char) : Prop :=
  ∀ u v, before u → after v → encode (u ++ a :: b :: v) = encode (u ++ b :: a :: v)

end Verif.Spec
