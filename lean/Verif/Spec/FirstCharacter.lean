import Verif.Spec.Common
/-!
# What the first character of a code says about the beginning of the name

Small tables; nothing here refers to the model of the code.
-/
namespace Verif.Spec

/-- The first character of a Phonex code, by the first letters of the name (without S at the end). -/
def phonexOnset : Str → Char
  | 'K' :: 'N' :: _ => 'N'
  | 'P' :: 'H' :: _ => 'F'
  | 'W' :: 'R' :: _ => 'R'
  | 'H' :: c :: _ => phonexGroup c
  | ['H'] => '0'
  | c :: _ => phonexGroup c
  | [] => '0'
where
  /-- Letters that count as the same first letter. -/
  phonexGroup (c : Char) : Char :=
    if c ∈ c!"AEIOUY" then 'A'
    else if c ∈ c!"BP" then 'B'
    else if c ∈ c!"FV" then 'F'
    else if c ∈ c!"CKQ" then 'C'
    else if c ∈ c!"GJ" then 'G'
    else if c ∈ c!"SZ" then 'S'
    else c

/-- The first character of a NYSIIS code, by the first letters of the name. -/
def nysiisOnset : Str → Option Char
  | 'K' :: 'N' :: _ => some 'N'
  | 'K' :: _ => some 'C'
  | 'P' :: 'H' :: _ => some 'F'
  | 'P' :: 'F' :: _ => some 'F'
  | c :: _ => some c
  | [] => none

/-- The digits with which a Cologne code can start, by the first letter of the name that is not an H. -/
def cologneOnset (c : Char) : Str :=
  if c ∈ c!"AEIJOUY" then c!"0"
  else if c = 'B' then c!"1"
  else if c = 'P' then c!"13"
  else if c ∈ c!"DT" then c!"28"
  else if c ∈ c!"FVW" then c!"3"
  else if c ∈ c!"GKQX" then c!"4"
  else if c = 'C' then c!"48"
  else if c = 'L' then c!"5"
  else if c ∈ c!"MN" then c!"6"
  else if c = 'R' then c!"7"
  else if c ∈ c!"SZ" then c!"8"
  else []

/-- The characters with which a Caverphone code can start, by the first letter of the name; none for letters that may be
silent. -/
def caverphoneOnset (c : Char) : Str :=
  if c ∈ c!"AEIOUH" then c!"A"
  else if c = 'B' then c!"P"
  else if c = 'C' then c!"KS"
  else if c ∈ c!"FV" then c!"F"
  else if c ∈ c!"KQX" then c!"K"
  else if c = 'M' then c!"M"
  else if c = 'N' then c!"N"
  else if c = 'P' then c!"PF"
  else if c ∈ c!"SZ" then c!"S"
  else if c = 'T' then c!"TSK"
  else []

/-- The characters with which a Metaphone code can start, by the first letter of the name; none for letters that may be
silent. -/
def metaphoneOnset (c : Char) : Str :=
  if c = 'A' then c!"AE"
  else if c ∈ c!"BEFIJLMNORU" then [c]
  else if c = 'C' then c!"KSX"
  else if c = 'D' then c!"JT"
  else if c = 'K' then c!"KN"
  else if c = 'P' then c!"FNP"
  else if c = 'Q' then c!"K"
  else if c ∈ c!"SX" then c!"SX"
  else if c = 'T' then c!"0TX"
  else if c = 'V' then c!"F"
  else if c = 'Z' then c!"S"
  else []

/-- The characters with which a primary Double Metaphone code can start, by the first letter of the name; none for letters
that may be silent. -/
def doubleMetaphoneOnset (c : Char) : Str :=
  if c ∈ c!"AEIOUY" then c!"A"
  else if c = 'B' then c!"P"
  else if c = 'C' then c!"KSX"
  else if c = 'D' then c!"JT"
  else if c ∈ c!"FLMNR" then [c]
  else if c = 'G' then c!"JKN"
  else if c = 'J' then c!"HJ"
  else if c = 'K' then c!"KN"
  else if c = 'P' then c!"FNPSX"
  else if c = 'Q' then c!"K"
  else if c = 'S' then c!"SX"
  else if c = 'T' then c!"0TX"
  else if c = 'V' then c!"F"
  else if c = 'X' then c!"S"
  else if c = 'Z' then c!"JS"
  else []

/-- The same for the alternate code. -/
def doubleMetaphoneAlternateOnset (c : Char) : Str :=
  if c = 'G' then c!"JKLN"
  else if c = 'J' then c!"AH"
  else if c = 'T' then c!"TX"
  else if c = 'Z' then c!"JST"
  else doubleMetaphoneOnset c

/-- The digits with which a Daitch-Mokotoff code can start, by the first letter of the name. -/
def daitchMokotoffOnset (c : Char) : Str :=
  if c ∈ c!"AOU" then c!"0"
  else if c ∈ c!"EI" then c!"01"
  else if c ∈ c!"BFPVW" then c!"7"
  else if c = 'C' then c!"45"
  else if c ∈ c!"DT" then c!"34"
  else if c ∈ c!"GHKQX" then c!"5"
  else if c = 'J' then c!"14"
  else if c = 'L' then c!"8"
  else if c ∈ c!"MN" then c!"6"
  else if c = 'R' then c!"49"
  else if c ∈ c!"SZ" then c!"24"
  else if c = 'Y' then c!"1"
  else []

end Verif.Spec
