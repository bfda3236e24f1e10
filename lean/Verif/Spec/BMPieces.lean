import Verif.Spec.BMConfig
/-!
# Taking Beider-Morse codes apart (C89)
-/

namespace Verif.Spec
open BM

/-- The number of parentheses open after a character, if it is not a `)` without a `(`. -/
def opened (n : Nat) (c : Char) : Option Nat :=
  if c = '(' then some (n + 1)
  else if c = ')' then (match n with
    | 0 => none
    | n + 1 => some n)
  else some n

/-- The number of parentheses open after a text, when `n` are open before it. -/
def parens (n : Nat) : Str → Option Nat
  | [] => some n
  | c :: s =>
    match opened n c with
    | none => none
    | some m => parens m s

/-- The parentheses of a text are balanced. -/
def Balanced (s : Str) : Prop := parens 0 s = some 0

instance (s : Str) : Decidable (Balanced s) := inferInstanceAs (Decidable (_ = _))

/-- `c` before the first of some texts. -/
def consHead (c : Char) : List Str → List Str
  | [] => [[c]]
  | p :: ps => (c :: p) :: ps

/-- `a` before the first of some texts. -/
def prepend (a : Str) : List Str → List Str
  | [] => [a]
  | p :: ps => (a ++ p) :: ps

/-- The pieces of a text between the hyphens outside parentheses, when `n` parentheses are open before it. -/
def pieces (n : Nat) : Str → List Str
  | [] => [[]]
  | c :: s => if n = 0 ∧ c = '-' then [] :: pieces 0 s else consHead c (pieces ((opened n c).getD 0) s)

/-- No phoneme of the rules contains a character that has a meaning in codes. -/
def NoSeparators (e : Engine) : Prop :=
  ∀ k m, e.rules.get? k = some m → ∀ c, ∀ r ∈ rulesFor m c, ∀ p ∈ r.phoneme, ∀ x ∈ p.text, x ∉ c!"|()-"

end Verif.Spec
