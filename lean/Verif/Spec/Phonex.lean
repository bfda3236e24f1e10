import Verif.Spec.Common
/-!
# Declarative definition of the Phonex code
-/

namespace Verif.Spec

/-- Remove every trailing `S`. -/
def dropFinalS (w : Str) : Str := (w.reverse.dropWhile (· == 'S')).reverse

/-- The first letter, by similar sound. -/
def phonexFirst (c : Char) : Char :=
  if c!"EIOUY".contains c then 'A'
  else if c = 'P' then 'B'
  else if c = 'V' then 'F'
  else if c = 'K' ∨ c = 'Q' then 'C'
  else if c = 'J' then 'G'
  else if c = 'Z' then 'S'
  else c

/-- Rewriting of the start of the word: KN, PH, WR; then a leading H is dropped; then the first
letter is replaced. -/
def phonexPrepare (w : Str) : Str :=
  let w := dropFinalS w
  let w := if c!"KN" <+: w then 'N' :: w.drop 1
    else if c!"PH" <+: w then 'F' :: w.drop 1
    else if c!"WR" <+: w then 'R' :: w.drop 1
    else w
  let w := if c!"H" <+: w then w.drop 1 else w
  match w with
  | [] => []
  | c :: r => phonexFirst c :: r

/-- `M` or `N` followed by `D` or `G`. -/
def nasalGroup (w : Str) : Bool :=
  match w with
  | a :: b :: _ => (a == 'M' || a == 'N') && (b == 'D' || b == 'G')
  | _ => false

/-- `D` and `G` are silent right after `M` or `N`. -/
def dropAfterNasal : Str → Str
  | [] => []
  | [a] => [a]
  | a :: b :: r =>
    if nasalGroup (a :: b :: r) then a :: dropAfterNasal r else a :: dropAfterNasal (b :: r)

/-- The digit of a letter followed by `after`; `none` means that the letter repeats the digit of its
predecessor. -/
def phonexDigit (c : Char) (after : Str) : Option Char :=
  if c!"BPFV".contains c then some '1'
  else if c!"CSKGJQXZ".contains c then some '2'
  else if c = 'D' ∨ c = 'T' then (if c!"C" <+: after then none else some '3')
  else if c = 'L' ∨ c = 'R' then
    (if after = [] ∨ (∃ v ∈ c!"AEIOUYaeiouy", [v] <+: after) then some (if c = 'L' then '4' else '6')
     else none)
  else if c = 'M' ∨ c = 'N' then some '5'
  else some '0'

/-- The digits of all letters. -/
def phonexDigits (previous : Char) : Str → Str
  | [] => []
  | c :: after => (phonexDigit c after).getD previous :: phonexDigits ((phonexDigit c after).getD previous) after

/-- The digits that follow the first letter, before repetitions and zeros are removed: those of the
further letters, except that the second letter is silent if it has the digit of the first one. A first
letter that forms a group with its successor also contributes its own digit. -/
def phonexTail (w : Str) : Str :=
  match phonexDigits '0' (dropAfterNasal w) with
  | [] => []
  | d :: ds =>
    if nasalGroup w then d :: ds
    else match ds with
      | [] => []
      | e :: es => if e = d then es else e :: es

/-- The unlimited Phonex code of a sequence of capital letters. -/
def phonex (letters : Str) : Str :=
  match phonexPrepare letters with
  | [] => []
  | c :: r => c :: collapse ((phonexTail (c :: r)).filter (· ≠ '0'))

/-- Exactly `n` characters: cut, or padded with '0'. -/
def exactly (n : Nat) (code : Str) : Str := code.take n ++ List.replicate (n - code.length) '0'

/-- The Phonex code with a maximum of `n` bytes. The limit is missed, and the code is not limited at
all, when the first letter alone exceeds it, and when `n = 1` and the first letter forms a group with
its successor. -/
def phonexLimited (n : Nat) (letters : Str) : Str :=
  match phonex letters with
  | [] => List.replicate n '0'
  | c :: digits =>
    if n = 0 then []
    else if n < c.utf8Size ∨ (n = 1 ∧ nasalGroup (phonexPrepare letters) = true) then c :: digits
    else c :: exactly (n - c.utf8Size) digits

end Verif.Spec
