import Verif.Spec.Common
/-!
# Which strings are codes

For each encoder, the set of all codes it can give.  Nothing here refers to the model of the code.
-/

namespace Verif.Spec

/-- The capital letters. -/
def capitals : Str := c!"ABCDEFGHIJKLMNOPQRSTUVWXYZ"

/-- Soundex: nothing, or a capital letter, up to three digits from 1 to 6, and zeros up to four characters. -/
def SoundexCode (code : Str) : Prop :=
  code = [] ∨ ∃ (f : Char) (digits : Str) (k : Nat), f ∈ capitals ∧ (∀ d ∈ digits, d ∈ c!"123456") ∧
    digits.length + k = 3 ∧ code = f :: digits ++ List.replicate k '0'

/-- The digit that Refined Soundex gives to a letter. -/
def refinedDigit (c : Char) : Char :=
  if c!"AEHIOUWY".contains c then '0'
  else if c!"BP".contains c then '1'
  else if c!"FV".contains c then '2'
  else if c!"CKS".contains c then '3'
  else if c!"GJ".contains c then '4'
  else if c!"QXZ".contains c then '5'
  else if c!"DT".contains c then '6'
  else if c = 'L' then '7'
  else if c!"MN".contains c then '8'
  else '9'

/-- Refined Soundex: nothing, or a capital letter followed by its digit and further digits, where no two neighbours are
equal. -/
def RefinedSoundexCode (code : Str) : Prop :=
  code = [] ∨ ∃ (f : Char) (digits : Str), f ∈ capitals ∧ (∀ d ∈ digits, d ∈ c!"0123456789") ∧
    NoAdjacentDup (refinedDigit f :: digits) ∧ code = f :: refinedDigit f :: digits

/-- Cologne: digits from 0 to 8, and 0 only at the beginning. -/
def CologneCode (code : Str) : Prop := (∀ d ∈ code, d ∈ c!"012345678") ∧ ∀ d ∈ code.drop 1, d ≠ '0'

/-- Metaphone: a vowel or not, then consonants; 0 stands for TH, X for SH. -/
def MetaphoneCode (code : Str) : Prop :=
  ∃ first rest : Str, code = first ++ rest ∧ first.length ≤ 1 ∧ (∀ x ∈ first, x ∈ c!"AEIOU") ∧
    ∀ x ∈ rest, x ∈ c!"0BFHJKLMNPRSTWXY"

/-- At most `limit` characters, if there is a limit. -/
def Within (limit : Option Nat) (code : Str) : Prop := ∀ n, limit = some n → code.length ≤ n

/-- Phonex, `n` characters: zeros, or one of the first letters that remain when similar sounds are joined, digits from 1
to 6 of which no two neighbours are equal, and zeros. -/
def PhonexCode (n : Nat) (code : Str) : Prop :=
  code = List.replicate n '0' ∨ ∃ (f : Char) (digits : Str) (k : Nat), f ∈ c!"ABCDFGHLMNRSTWX" ∧
    (∀ d ∈ digits, d ∈ c!"123456") ∧ NoAdjacentDup digits ∧ 1 + digits.length + k = n ∧
    code = f :: digits ++ List.replicate k '0'

/-- Match Rating: at most six ASCII characters, which are neither white space, nor small letters, nor one of `-&'.,`, and no
vowels after the first character. -/
def MatchRatingCode (code : Str) : Prop :=
  code.length ≤ 6 ∧
  (∀ c ∈ code, isAscii c = true ∧ isAsciiLower c = false ∧ isAsciiWs c = false ∧ c ∉ c!"-&'.,") ∧
  ∀ c ∈ code.drop 1, c ∉ c!"AEIOU"

/-- Caverphone 1: an A or not, then consonants, Y included, cut or filled up with ones to six characters. -/
def Caverphone1Code (code : Str) : Prop :=
  ∃ first rest : Str, (first = [] ∨ first = c!"A") ∧ (∀ c ∈ rest, c ∈ c!"FKLMNPRSTWY") ∧
    code = (first ++ rest ++ List.replicate 6 '1').take 6

/-- Caverphone 2: A, Y or nothing, then consonants, then an A or not, cut or filled up with ones to ten characters.
Without the A at the end, the last one is not L, R, W or Y: these are heard before a vowel only. -/
def Caverphone2Code (code : Str) : Prop :=
  ∃ first middle last : Str, (first = [] ∨ first = c!"A" ∨ first = c!"Y") ∧ (∀ c ∈ middle, c ∈ c!"FKLMNPRSTW") ∧
    (last = c!"A" ∨ last = [] ∧ ∀ c, (first ++ middle).getLast? = some c → c ∉ c!"LRWY") ∧
    code = (first ++ middle ++ last ++ List.replicate 10 '1').take 10

/-- Daitch-Mokotoff with the embedded rules: a digit, digits other than 0 and 2, zeros; six digits. -/
def DaitchMokotoffCode (code : Str) : Prop :=
  code.length = 6 ∧ ∃ (first : Char) (rest : Str) (k : Nat), first ∈ c!"0123456789" ∧
    (∀ d ∈ rest, d ∈ c!"13456789") ∧ code = first :: rest ++ List.replicate k '0'

/-- NYSIIS keys: any capital letter but K; then letters of which no two neighbours are equal, no W after a vowel, and H only
after a vowel and before A, or at the end. -/
def NysiisKey (first : Char) (rest : Str) : Prop :=
  first ∈ capitals ∧ first ≠ 'K' ∧ (∀ c ∈ rest, c ∈ c!"ABCDFGHJLNPRSTVWXY") ∧ NoAdjacentDup (first :: rest) ∧
  (∀ before x after, first :: rest = before ++ x :: 'W' :: after → x ∉ c!"AEIOU") ∧
  (∀ before x after, first :: rest = before ++ x :: 'H' :: after → x ∈ c!"AEIOU" ∧ (after = [] ∨ after.head? = some 'A'))

/-- NYSIIS: nothing, or A, or a key that does not end in A, or such a key followed by Y. -/
def NysiisCode (code : Str) : Prop :=
  code = [] ∨ code = c!"A" ∨ ∃ first rest, NysiisKey first rest ∧ (first :: rest).getLast? ≠ some 'A' ∧
    (code = first :: rest ∨ code = first :: rest ++ c!"Y")

/-- Double Metaphone, primary: A or nothing, then consonants; 0 stands for TH, X for SH. -/
def PrimaryCode (code : Str) : Prop :=
  ∃ first rest : Str, code = first ++ rest ∧ (first = [] ∨ first = c!"A") ∧ ∀ x ∈ rest, x ∈ c!"0FHJKLMNPRSTX"

/-- Double Metaphone, alternate: A or nothing, then consonants, and possibly a blank at the end (for a final J). -/
def AlternateCode (code : Str) : Prop :=
  ∃ first rest last : Str, code = first ++ rest ++ last ∧ (first = [] ∨ first = c!"A") ∧ (∀ x ∈ rest, x ∈ c!"FHJKLMNPRSTX") ∧
    (last = [] ∨ last = c!" ")

end Verif.Spec
