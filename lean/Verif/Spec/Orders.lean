import Verif.Basic
/-!
# Comparisons
-/

namespace Verif.Spec

/-- A comparison that is a total order and agrees with equality. -/
structure TotalOrder {α : Type} (cmp : α → α → Ordering) : Prop where
  eq_iff : ∀ a b, cmp a b = .eq ↔ a = b
  swap : ∀ a b, cmp b a = (cmp a b).swap
  trans : ∀ a b c, cmp a b = .lt → cmp b c = .lt → cmp a c = .lt

/-- The order of limits: no limit comes first. -/
def limitBelow : Option Nat → Option Nat → Prop
  | _, none => False
  | none, some _ => True
  | some m, some n => m < n

end Verif.Spec
