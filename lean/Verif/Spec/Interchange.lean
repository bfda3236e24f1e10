import Verif.Spec.Common
/-!
# Letters that an encoder does not tell apart (C100)
-/

namespace Verif.Spec

/-- One letter can always be written for the other: between every two texts, the first of them with the property `before`
and the second with the property `after`. -/
def Interchangeable {β : Type} (encode : Str → β) (before after : Str → Prop) (a b : Char) : Prop :=
  ∀ u v, before u → after v → encode (u ++ a :: v) = encode (u ++ b :: v)

/-- Every text. -/
def anyText (_ : Str) : Prop := True

/-- A text with a letter A to Z or a to z. -/
def hasLetter (s : Str) : Prop := ∃ c ∈ s, isAsciiAlpha c = true

/-- A text without a capital sigma, whose lower case depends on its place in a word. -/
def withoutSigma (s : Str) : Prop := 'Σ' ∉ s

/-- The capital letters. -/
def allLetters : Str := c!"ABCDEFGHIJKLMNOPQRSTUVWXYZ"

/-- The letters are equal or stand together in one of the groups. -/
def together (groups : List Str) (a b : Char) : Bool := a == b || groups.any fun g => g.contains a && g.contains b

end Verif.Spec
