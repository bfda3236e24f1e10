import Verif.Spec.Common
/-!
# Declarative definition of Soundex and Refined Soundex
-/

namespace Verif.Spec

/-- The code that a mapping table (26 entries, for `A` to `Z`) gives to a letter. -/
def codeOf (table : Str) (c : Char) : Char := table.getD (c.toNat - 'A'.toNat) '0'

/-- The digits of a word with first letter `f` and further letters `rest`: map the further letters
(without H and W if `hw`), drop silent codes, collapse runs together with the code of the first
letter, drop zeros. -/
def soundexDigits (table : Str) (hw : Bool) (f : Char) (rest : Str) : Str :=
  let kept := rest.filter fun c => !(hw && (c == 'H' || c == 'W'))
  let codes := (kept.map (codeOf table)).filter (· ≠ '-')
  ((collapse (codeOf table f :: codes)).drop 1).filter (· ≠ '0')

/-- Exactly three digits: the first three, padded with '0'. -/
def three (digits : Str) : Str := (digits ++ ['0', '0', '0']).take 3

/-- The Soundex code of a sequence of capital letters. -/
def soundex (table : Str) (hw : Bool) : Str → Str
  | [] => []
  | f :: rest => f :: three (soundexDigits table hw f rest)

/-- The Refined Soundex code of a sequence of capital letters. -/
def refinedSoundex (table : Str) : Str → Str
  | [] => []
  | f :: rest => f :: collapse ((f :: rest).map (codeOf table))

end Verif.Spec
