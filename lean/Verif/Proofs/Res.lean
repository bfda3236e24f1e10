import Verif.Basic
/-!
# Reasoning about computations that may panic
-/

namespace Verif

theorem ite_ind {α : Type} {P : Prop} [Decidable P] (M : α → Prop) {a b : α}
    (h1 : P → M a) (h2 : ¬ P → M b) : M (if P then a else b) := by
  by_cases h : P
  · rw [if_pos h]; exact h1 h
  · rw [if_neg h]; exact h2 h

/-- Whatever is returned satisfies `P`. -/
def Returns {α : Type} (P : α → Prop) (r : Res α) : Prop := ∀ a, r = .ok a → P a

theorem returns_ok {α : Type} {P : α → Prop} {a : α} (h : P a) : Returns P (.ok a) := by
  intro b hb; cases hb; exact h

theorem returns_bind {α β : Type} {P : β → Prop} {m : Res α} {f : α → Res β}
    (h : ∀ a, Returns P (f a)) : Returns P (m >>= f) := by
  cases m with
  | ok a => exact h a
  | error e => intro b hb; cases hb

theorem returns_bind' {α β : Type} {Q : α → Prop} {P : β → Prop} {m : Res α} {f : α → Res β}
    (hm : Returns Q m) (h : ∀ a, Q a → Returns P (f a)) : Returns P (m >>= f) := by
  cases m with
  | ok a => exact h a (hm a rfl)
  | error e => intro b hb; cases hb

/-- The computation does not panic. -/
def NoPanic {α : Type} (r : Res α) : Prop := ∃ a, r = .ok a

theorem noPanic_ok {α : Type} (a : α) : NoPanic (.ok a : Res α) := ⟨a, rfl⟩

theorem noPanic_bind {α β : Type} {m : Res α} {f : α → Res β} (hm : NoPanic m)
    (h : ∀ a, NoPanic (f a)) : NoPanic (m >>= f) := by
  obtain ⟨a, rfl⟩ := hm
  exact h a

end Verif
