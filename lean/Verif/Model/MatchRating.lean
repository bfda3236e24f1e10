import Verif.Model.Lib
/-!
# Model of `src/match_rating_approach.rs`
-/

namespace Verif.MatchRating

/-- `PLAIN_ASCII` (match_rating_approach.rs:23-29). -/
def plainAscii : List Char :=
  c!"AaEeIiOoUuAaEeIiOoUuYyAaEeIiOoUuYyAaOoNnAaEeIiOoUuYyAaCcOoUu"

/-- `UNICODE` (match_rating_approach.rs:31-40), as code points. -/
def unicode : List Char :=
  [0x00C0, 0x00E0, 0x00C8, 0x00E8, 0x00CC, 0x00EC, 0x00D2, 0x00F2,
   0x00D9, 0x00F9, 0x00C1, 0x00E1, 0x00C9, 0x00E9, 0x00CD, 0x00ED,
   0x00D3, 0x00F3, 0x00DA, 0x00FA, 0x00DD, 0x00FD, 0x00C2, 0x00E2,
   0x00CA, 0x00EA, 0x00CE, 0x00EE, 0x00D4, 0x00F4, 0x00DB, 0x00FB,
   0x0176, 0x0177, 0x00C3, 0x00E3, 0x00D5, 0x00F5, 0x00D1, 0x00F1,
   0x00C4, 0x00E4, 0x00CB, 0x00EB, 0x00CF, 0x00EF, 0x00D6, 0x00F6,
   0x00DC, 0x00FC, 0x0178, 0x00FF, 0x00C5, 0x00E5, 0x00C7, 0x00E7,
   0x0150, 0x0151, 0x0170, 0x0171].map Char.ofNat

/-- `DOUBLE_CONSONANT` (match_rating_approach.rs:42-64). -/
def doubleConsonant : List (Str × Str) :=
  (c!"BCDFGHJKLMNPQRSTVWXYZ").map fun c => ([c, c], [c])

/-- `CHAR_TO_TRIM` (match_rating_approach.rs:66). -/
def charToTrim : List Char := ['-', '&', '\'', '.', ',']

/-- `remove_accent` (match_rating_approach.rs:98-109).  The two tables have the same length, so
`PLAIN_ASCII[index]` is in bounds (`unicode_plain_length` below). -/
def removeAccentChar (c : Char) : Char :=
  match unicode.idxOf? c with
  | some index => plainAscii.getD index c
  | none => c

theorem unicode_plain_length : unicode.length = plainAscii.length := by decide

/-- `clean_name` (match_rating_approach.rs:86-96). -/
def cleanName (U : Unicode) (value : Str) : Str :=
  (((U.strUpper value).filter (fun c => !charToTrim.contains c)).filter
    (fun c => !U.isWhitespace c)).map removeAccentChar

/-- First filter of `remove_vowels` (match_rating_approach.rs:114-116): the character at byte
offset 0 is always kept. -/
def filterVowels (value : Str) : Str :=
  match value with
  | [] => []
  | c :: cs => c :: cs.filter (fun ch => !isVowel (some (asciiLower ch)) false)

/-- `remove_vowels` (match_rating_approach.rs:111-120). -/
def removeVowels (U : Unicode) (value : Str) : Str :=
  (filterVowels value).filter (fun c => !charToTrim.contains c && !U.isWhitespace c)

/-- `remove_double_consonants` (match_rating_approach.rs:122-130). -/
def removeDoubleConsonants (U : Unicode) (value : Str) : Str :=
  doubleConsonant.foldl (fun result p => replaceAll result p.1 p.2) (U.strUpper value)

/-- `get_first3_last3` (match_rating_approach.rs:132-138); byte slices. -/
def getFirst3Last3 (value : Str) : Res Str :=
  if byteLen value > 6 then do
    let a ← slice value 0 3
    let b ← sliceFrom value (byteLen value - 3)
    return a ++ b
  else .ok value

/-- `get_minimum_rating` (match_rating_approach.rs:140-148). -/
def getMinimumRating (sumLength : Nat) : Nat :=
  if sumLength ≤ 4 then 5
  else if sumLength ≤ 7 then 4
  else if sumLength ≤ 11 then 3
  else if sumLength = 12 then 2
  else 1

/-- `v.get(i).unwrap()` (match_rating_approach.rs:162-175). -/
def unwrapGet (v : List Char) (i : Nat) : Res Char :=
  match v[i]? with
  | some c => .ok c
  | none => .error .unwrap

/-- One iteration of the loop of `left_to_right_then_right_to_left_processing`
(match_rating_approach.rs:162-174). -/
def matchStep (n1 n2 : List Char) (i : Nat) : Res (List Char × List Char) := do
  let n1len := n1.length - 1
  let n2len := n2.length - 1
  let c1 ← unwrapGet n1 i
  let c2 ← unwrapGet n2 i
  let (n1, n2) := if c1 = c2 then (n1.set i ' ', n2.set i ' ') else (n1, n2)
  let j1 ← usub n1.length (i + 1)
  let j2 ← usub n2.length (i + 1)
  let c1 ← unwrapGet n1 j1
  let c2 ← unwrapGet n2 j2
  if c1 = c2 then return (n1.set (n1len - i) ' ', n2.set (n2len - i) ' ') else return (n1, n2)

/-- The `for i in 0..n1.len()` loop (match_rating_approach.rs:157-175); `k` iterations left. -/
def matchLoop : (k : Nat) → (i : Nat) → List Char → List Char → Res (List Char × List Char)
  | 0, _, n1, n2 => .ok (n1, n2)
  | k + 1, i, n1, n2 =>
    if i > n2.length - 1 then .ok (n1, n2)
    else do
      let (n1, n2) ← matchStep n1 n2 i
      matchLoop k (i + 1) n1 n2

/-- `usize::abs_diff` (match_rating_approach.rs:181-183, 218). -/
def absDiff (a b : Nat) : Nat := if a ≤ b then b - a else a - b

/-- `left_to_right_then_right_to_left_processing` (match_rating_approach.rs:150-185).  The two
subtractions panic for an empty name (in a release build they wrap). -/
def leftRightProcessing (name1 name2 : Str) : Res Nat := do
  let _n1len ← usub name1.length 1
  let _n2len ← usub name2.length 1
  let (n1, n2) ← matchLoop name1.length 0 name1 name2
  let r1 := n1.filter (· != ' ')
  let r2 := n2.filter (· != ' ')
  if byteLen r1 > byteLen r2 then return absDiff 6 (byteLen r1) else return absDiff 6 (byteLen r2)

/-- `MatchRatingApproach::encode` (match_rating_approach.rs:189-200). -/
def encode (U : Unicode) (value : Str) : Res Str :=
  if (U.trim value).isEmpty || byteLen (U.trim value) == 1 then .ok []
  else
    getFirst3Last3 (removeDoubleConsonants U (removeVowels U (cleanName U value)))

/-- `MatchRatingApproach::is_encoded_equals` (match_rating_approach.rs:202-228). -/
def isEncodedEquals (U : Unicode) (first second : Str) : Res Bool :=
  if (U.trim first).isEmpty || (U.trim second).isEmpty then .ok false
  else if byteLen (U.trim first) == 1 || byteLen (U.trim second) == 1 then .ok false
  else if first = second then .ok true
  else do
    let name1 ← encode U first
    let name2 ← encode U second
    if absDiff (byteLen name1) (byteLen name2) ≥ 3 then return false
    else
      let sumLength := byteLen name1 + byteLen name2
      let minRating := getMinimumRating sumLength
      let count ← leftRightProcessing name1 name2
      return decide (count ≥ minRating)

end Verif.MatchRating
