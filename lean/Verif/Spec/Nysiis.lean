import Verif.Spec.Common
/-!
# Declarative definition of the NYSIIS code

The published rules, as functions on the word.  Nothing here refers to the model of the code.
-/

namespace Verif.Spec

/-- A, E, I, O, U in either case. -/
def nysiisVowel (c : Char) : Bool := c!"AEIOUaeiou".contains c

/-- Rewriting of the first letters. -/
def nysiisStart (w : Str) : Str :=
  if c!"MAC" <+: w then c!"MCC" ++ w.drop 3
  else if c!"KN" <+: w then c!"NN" ++ w.drop 2
  else if c!"K" <+: w then c!"C" ++ w.drop 1
  else if c!"PH" <+: w ∨ c!"PF" <+: w then c!"FF" ++ w.drop 2
  else if c!"SCH" <+: w then c!"SSS" ++ w.drop 3
  else w

/-- Rewriting of the last letters: EE, IE become Y; DT, RT, RD, NT, ND become D. -/
def nysiisEnd (w : Str) : Str :=
  if c!"EE" <:+ w ∨ c!"IE" <:+ w then w.dropLast.dropLast ++ c!"Y"
  else if c!"DT" <:+ w ∨ c!"RT" <:+ w ∨ c!"RD" <:+ w ∨ c!"NT" <:+ w ∨ c!"ND" <:+ w then
    w.dropLast.dropLast ++ c!"D"
  else w

/-- A letter `c` after the (already rewritten) letter `prev` and before `rest`: the letter that it
becomes, and what becomes of the following letters. -/
def nysiisLetter (prev c : Char) (rest : Str) : Char × Str :=
  if c = 'E' ∧ c!"V" <+: rest then ('A', c!"F" ++ rest.drop 1)
  else if nysiisVowel c then ('A', rest)
  else if c = 'Q' then ('G', rest)
  else if c = 'Z' then ('S', rest)
  else if c = 'M' then ('N', rest)
  else if c = 'K' ∧ c!"N" <+: rest then ('N', rest)
  else if c = 'K' then ('C', rest)
  else if c = 'S' ∧ c!"CH" <+: rest then ('S', c!"SS" ++ rest.drop 2)
  else if c = 'P' ∧ c!"H" <+: rest then ('F', c!"F" ++ rest.drop 1)
  else if c = 'H' then
    (if nysiisVowel prev ∧ (rest.take 1).any nysiisVowel then ('H', rest) else (prev, rest))
  else if c = 'W' ∧ nysiisVowel prev then (prev, rest)
  else (c, rest)

/-- The rewritten letters, left to right (the first argument bounds the number of letters). -/
def nysiisLetters : Nat → Char → Str → Str
  | 0, _, _ => []
  | _ + 1, _, [] => []
  | n + 1, prev, c :: rest =>
    let r := nysiisLetter prev c rest
    r.1 :: nysiisLetters n r.1 r.2

/-- Final rules on a key of more than one character (in bytes): drop an S; AY becomes Y, if
something stands before it; drop an A. -/
def nysiisFinish (key : Str) : Str :=
  if byteLen key ≤ 1 then key
  else
    let k := if c!"S" <:+ key then key.dropLast else key
    let k := if c!"AY" <:+ k ∧ k ≠ c!"AY" then k.dropLast.dropLast ++ c!"Y" else k
    if c!"A" <:+ k then k.dropLast else k

/-- The full (non-strict) NYSIIS code: clean, rewrite the ends, rewrite every letter after the
first, collapse runs, apply the final rules. -/
def nysiis (U : Unicode) (s : Str) : Str :=
  match nysiisEnd (nysiisStart (letters U s)) with
  | [] => []
  | c :: rest => nysiisFinish (collapse (c :: nysiisLetters rest.length c rest))

end Verif.Spec
