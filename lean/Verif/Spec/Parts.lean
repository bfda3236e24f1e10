import Verif.Spec.Common
/-!
# Texts that are put together from parts
-/

namespace Verif.Spec

/-- The vowels of the Kölner Phonetik, in either case. -/
def germanVowels : Str := c!"AEIJOUYaeijouyÄÖÜäöü"

/-- A first part, and further parts, each with the vowel before it. -/
def partsText : Str → List (Char × Str) → Str
  | first, [] => first
  | first, (v, b) :: r => first ++ partsText (v :: b) r

/-- The codes of the parts one after the other: each part is encoded together with the vowels at its ends, and the code of
the vowel at its beginning is left out. -/
def partsCode (encode : Str → Str) : Str → List (Char × Str) → Str
  | first, [] => encode first
  | first, (v, b) :: r => encode (first ++ [v]) ++ (partsCode encode (v :: b) r).drop 1

end Verif.Spec
