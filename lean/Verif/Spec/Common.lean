import Verif.Basic
/-!
# Shared vocabulary of the specifications

Nothing here refers to the model of the code.
-/

namespace Verif.Spec

/-- The letters of a word as the soundex family sees them: alphabetic characters, upper-cased. -/
def letters (U : Unicode) (s : Str) : Str := (s.filter U.isAlphabetic).flatMap U.toUpper

/-- The letters of an ASCII word, upper-cased. -/
def asciiLetters (s : Str) : Str := (s.filter isAsciiAlpha).map asciiUpper

/-- Collapse every run of equal adjacent elements to one element. -/
def collapse : Str → Str
  | [] => []
  | [a] => [a]
  | a :: b :: r => if a = b then collapse (b :: r) else a :: collapse (b :: r)

/-- No two adjacent elements are equal. -/
def NoAdjacentDup : Str → Prop
  | [] => True
  | [_] => True
  | a :: b :: r => a ≠ b ∧ NoAdjacentDup (b :: r)

instance : (s : Str) → Decidable (NoAdjacentDup s)
  | [] => isTrue trivial
  | [_] => isTrue trivial
  | a :: b :: r =>
    have := instDecidableNoAdjacentDup (b :: r)
    inferInstanceAs (Decidable (a ≠ b ∧ NoAdjacentDup (b :: r)))

/-- Number of positions at which two strings both have a character and the characters agree. -/
def agreements (a b : Str) : Nat :=
  (List.range (min a.length b.length)).countP fun i => a[i]? == b[i]?

/-- A maximum length for which the memory can be requested: at most `isize::MAX` bytes. -/
def Allocatable (max : Option Nat) : Prop := ∀ n, max = some n → n < 2 ^ 63

/-- `r` is the first `n` bytes of `w`: there is none if byte `n` lies inside a character. -/
def FirstBytes (n : Nat) (w r : Str) : Prop := r <+: w ∧ byteLen r = n

end Verif.Spec
