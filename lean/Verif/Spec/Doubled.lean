import Verif.Spec.Interchange
/-!
# Letters that may be written twice, and letters that may be left out (C101, C102)
-/

namespace Verif.Spec

/-- The letter can always be written twice instead of once: between every two texts, the first of them with the property
`before` and the second with the property `after`. -/
def Doublable {β : Type} (encode : Str → β) (before after : Str → Prop) (c : Char) : Prop :=
  ∀ u v, before u → after v → encode (u ++ c :: c :: v) = encode (u ++ c :: v)

/-- The letter can always be left out: between every two texts that together have the property `around`. -/
def Omissible {β : Type} (encode : Str → β) (around : Str → Str → Prop) (c : Char) : Prop :=
  ∀ u v, around u v → encode (u ++ c :: v) = encode (u ++ v)

/-- An ASCII text with a letter. -/
def asciiWithLetter (s : Str) : Prop := AsciiStr s ∧ hasLetter s

/-- A text without a capital sigma and with a letter. -/
def letterWithoutSigma (s : Str) : Prop := withoutSigma s ∧ hasLetter s

/-- ASCII texts, the first of them with a letter. -/
def afterLetter (u v : Str) : Prop := AsciiStr u ∧ AsciiStr v ∧ hasLetter u

/-- The first text has a letter, and both together have at least two. -/
def afterLetterOfTwo (u v : Str) : Prop := hasLetter u ∧ 2 ≤ ((u ++ v).filter isAsciiAlpha).length

end Verif.Spec
