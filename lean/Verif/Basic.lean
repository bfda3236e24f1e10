/-!
# Basic vocabulary of the model: strings, bytes, panics, `str` methods, Unicode tables

Rust's `char` is a Unicode scalar value, which is exactly Lean's `Char`.  A `&str`/`String` is the
list of its `char`s; byte offsets are computed through `Char.utf8Size`.
-/

namespace Verif

/-- A Rust `&str`/`String`, as the list of its `char`s (every signature, e.g. lib.rs:150-180). -/
abbrev Str := List Char

/-- `c!"abc"` is the explicit list `['a', 'b', 'c']` (so that the kernel never has to decode a
string literal). -/
macro:max "c!" s:str : term => do
  let cs := s.getString.toList.toArray.map fun c => Lean.Syntax.mkCharLit c
  `(([$cs,*] : List Char))

/-- The panics that the modelled code can raise
(e.g. nysiis.rs:177 (index), caverphone.rs (slice), double_metaphone.rs:107 (subtraction)). -/
inductive Panic where
  /-- out-of-bounds index of an array or `Vec` -/
  | index
  /-- `&s[a..b]` out of bounds or not on a `char` boundary -/
  | slice
  /-- arithmetic overflow with overflow checks on -/
  | overflow
  /-- `unwrap`/`expect` on `None`/`Err` -/
  | unwrap
  /-- `String::with_capacity` of more than `isize::MAX` bytes -/
  | capacity
  /-- unbounded recursion (only for cyclic `#include`) -/
  | diverge
deriving DecidableEq, Repr

/-- Result of code that may panic (as `Panic`: e.g. nysiis.rs:177). -/
abbrev Res := Except Panic

deriving instance DecidableEq for Except

/-! ## Bytes -/

/-- `str::len`: number of UTF-8 bytes (e.g. double_metaphone.rs:107, metaphone.rs:68). -/
def byteLen : Str → Nat
  | [] => 0
  | c :: cs => c.utf8Size + byteLen cs

/-- Split a string at byte offset `n`; `none` if `n` is out of bounds or inside a character
(as the slices, e.g. double_metaphone.rs:224-252). -/
def splitAtByte (n : Nat) : Str → Option (Str × Str)
  | [] => if n = 0 then some ([], []) else none
  | c :: cs =>
    if n = 0 then some ([], c :: cs)
    else if c.utf8Size ≤ n then
      match splitAtByte (n - c.utf8Size) cs with
      | some (a, b) => some (c :: a, b)
      | none => none
    else none

/-- `&s[..n]` (e.g. beider_morse/rule.rs:381). -/
def sliceTo (s : Str) (n : Nat) : Res Str :=
  match splitAtByte n s with
  | some (a, _) => .ok a
  | none => .error .slice

/-- `&s[n..]` (e.g. metaphone.rs:68). -/
def sliceFrom (s : Str) (n : Nat) : Res Str :=
  match splitAtByte n s with
  | some (_, b) => .ok b
  | none => .error .slice

/-- `&s[a..b]` (e.g. double_metaphone.rs:224-252). -/
def slice (s : Str) (a b : Nat) : Res Str :=
  if a ≤ b then
    match splitAtByte a s with
    | some (_, r) => sliceTo r (b - a)
    | none => .error .slice
  else .error .slice

/-- `a - b` on `usize` with overflow checks (e.g. double_metaphone.rs:107, 120). -/
def usub (a b : Nat) : Res Nat := if b ≤ a then .ok (a - b) else .error .overflow

/-- `isize::MAX` on a 64-bit target (as `with_capacity`, double_metaphone.rs:60). -/
def isizeMax : Nat := 2 ^ 63 - 1

/-- `String::with_capacity(n)`: an empty string; panics ("capacity overflow") above `isize::MAX`.  That the
memory is available is not modelled (double_metaphone.rs:60-61). -/
def stringWithCapacity (n : Nat) : Res Str := if n ≤ isizeMax then .ok [] else .error .capacity

/-! ## `str` methods -/

/-- `str::replace(pat, to)` for a non-empty pattern: leftmost, non-overlapping occurrences.  The
first argument counts the characters of the current occurrence that are still to be skipped
(e.g. caverphone.rs:75-110, cologne.rs:74-76). -/
def replaceAux (pat to : Str) : Nat → Str → Str
  | _, [] => []
  | k + 1, _ :: cs => replaceAux pat to k cs
  | 0, c :: cs =>
    if pat.isPrefixOf (c :: cs) then to ++ replaceAux pat to (pat.length - 1) cs
    else c :: replaceAux pat to 0 cs

/-- `s.replace(pat, to)`, `pat` non-empty (the code never uses an empty pattern)
(e.g. caverphone.rs:75-110, cologne.rs:74-76). -/
def replaceAll (s pat to : Str) : Str := replaceAux pat to 0 s

/-- `if s.starts_with(pat) { s.replacen(pat, to, 1) } else { s }`: the first occurrence is the
prefix itself (caverphone.rs:48-72, 117-121). -/
def replaceStart (s pat to : Str) : Str :=
  if pat.isPrefixOf s then to ++ s.drop pat.length else s

/-- `s.ends_with(pat)` (helper.rs:49, nysiis.rs:155-162, 197-201). -/
def endsWith (s pat : Str) : Bool := pat.isSuffixOf s

/-- `s.starts_with(pat)` (double_metaphone.rs:289, metaphone.rs:68). -/
def startsWith (s pat : Str) : Bool := pat.isPrefixOf s

/-- `s.split(sep)` for a `char` separator: always at least one piece
(beider_morse/engine.rs:265, rule.rs:174, 196, lang.rs:128). -/
def splitOnChar (sep : Char) : Str → List Str
  | [] => [[]]
  | c :: cs =>
    if c = sep then [] :: splitOnChar sep cs
    else
      match splitOnChar sep cs with
      | [] => [[c]]
      | p :: ps => (c :: p) :: ps

/-- `v.join(sep)` (beider_morse/engine.rs:59, 257, 277, languages.rs:111). -/
def joinWith (sep : Str) : List Str → Str
  | [] => []
  | [a] => a
  | a :: b :: r => a ++ sep ++ joinWith sep (b :: r)

/-! ## ASCII -/

/-- `char::is_ascii` (used in the laws below: the code calls the methods below, e.g. cologne.rs:83). -/
def isAscii (c : Char) : Bool := c.toNat < 128

/-- `char::is_ascii_lowercase` (as `to_ascii_uppercase`, helper.rs:31). -/
def isAsciiLower (c : Char) : Bool := 97 ≤ c.toNat && c.toNat ≤ 122

/-- `char::is_ascii_uppercase` (cologne.rs:83). -/
def isAsciiUpper (c : Char) : Bool := 65 ≤ c.toNat && c.toNat ≤ 90

/-- `char::is_ascii_digit` (as `is_alphanumeric`, rules_parser.rs:114). -/
def isAsciiDigit (c : Char) : Bool := 48 ≤ c.toNat && c.toNat ≤ 57

/-- `char::is_ascii_alphabetic` (as `is_alphabetic`, lib.rs:205). -/
def isAsciiAlpha (c : Char) : Bool := isAsciiLower c || isAsciiUpper c

/-- Whitespace among the ASCII characters, as `char::is_whitespace` has it: U+0009–U+000D, U+0020
(daitch_mokotoff.rs:323, match_rating_approach.rs:92). -/
def isAsciiWs (c : Char) : Bool := (9 ≤ c.toNat && c.toNat ≤ 13) || c.toNat == 32

/-- `char::to_ascii_uppercase` (helper.rs:31, 35). -/
def asciiUpper (c : Char) : Char := if isAsciiLower c then Char.ofNat (c.toNat - 32) else c

/-- `char::to_ascii_lowercase` (nysiis.rs:90, metaphone.rs:55). -/
def asciiLower (c : Char) : Char := if isAsciiUpper c then Char.ofNat (c.toNat + 32) else c

/-- All characters are ASCII
(not in the code: a hypothesis of theorems; e.g. Double Metaphone, double_metaphone.rs:276-284, indexes by bytes). -/
def AsciiStr (s : Str) : Prop := ∀ c ∈ s, isAscii c = true

/-- `AsciiStr` can be decided: not in the code, for examples. -/
instance (s : Str) : Decidable (AsciiStr s) := inferInstanceAs (Decidable (∀ c ∈ s, _))

/-! ## Unicode tables -/

/-- The parts of Rust's `core::unicode` tables used by the crate (e.g. lib.rs:205-206, caverphone.rs:44, helper.rs:73,
daitch_mokotoff.rs:323-325), as parameters, with the laws
about them that the proofs use.  All laws are facts about the Rust standard library: on ASCII the
methods agree with their `ascii` counterparts (documented), a case mapping never yields the empty
string, an upper-cased `ä/ö/ü` is `Ä/Ö/Ü`, lower case is a fixed point of lower-casing (`İ`, the
only character with a longer lower case, gives `i` and a combining dot), the lower case of `Σ` is `σ`. -/
structure Unicode where
  /-- `char::to_uppercase` (one to three characters) -/
  toUpper : Char → Str
  /-- `char::to_lowercase` -/
  toLower : Char → Str
  /-- `char::is_alphabetic` -/
  isAlphabetic : Char → Bool
  /-- `char::is_numeric` -/
  isNumeric : Char → Bool
  /-- `char::is_whitespace` -/
  isWhitespace : Char → Bool
  /-- `char::is_lowercase` -/
  isLowercase : Char → Bool
  /-- `str::to_lowercase` maps 'Σ' to 'ς' in a word-final context and to 'σ' otherwise; this is
  the test, on the (reversed) text before and the text after. -/
  finalSigma : Str → Str → Bool
  toUpper_ascii : ∀ c, isAscii c = true → toUpper c = [asciiUpper c]
  toLower_ascii : ∀ c, isAscii c = true → toLower c = [asciiLower c]
  isAlphabetic_ascii : ∀ c, isAscii c = true → isAlphabetic c = isAsciiAlpha c
  isNumeric_ascii : ∀ c, isAscii c = true → isNumeric c = isAsciiDigit c
  isWhitespace_ascii : ∀ c, isAscii c = true → isWhitespace c = isAsciiWs c
  isLowercase_ascii : ∀ c, isAscii c = true → isLowercase c = isAsciiLower c
  toUpper_ne_nil : ∀ c, toUpper c ≠ []
  toLower_ne_nil : ∀ c, toLower c ≠ []
  toUpper_umlaut : toUpper 'ä' = ['Ä'] ∧ toUpper 'ö' = ['Ö'] ∧ toUpper 'ü' = ['Ü'] ∧
    toUpper 'Ä' = ['Ä'] ∧ toUpper 'Ö' = ['Ö'] ∧ toUpper 'Ü' = ['Ü']
  toLower_idem : ∀ c, ∀ d ∈ toLower c, toLower d = [d]
  toLower_sigma : toLower 'Σ' = ['σ'] ∧ toLower 'ς' = ['ς']

namespace Unicode

/-- `char::is_alphanumeric` (rules_parser.rs:114). -/
def isAlphanumeric (U : Unicode) (c : Char) : Bool := U.isAlphabetic c || U.isNumeric c

/-- `str::to_uppercase` (double_metaphone.rs:283, cologne.rs:73, metaphone.rs:87). -/
def strUpper (U : Unicode) (s : Str) : Str := s.flatMap U.toUpper

/-- `str::to_lowercase`, with the reversed text already read (caverphone.rs:44). -/
def strLowerAux (U : Unicode) : Str → Str → Str
  | _, [] => []
  | pre, c :: cs =>
    (if c = 'Σ' then (if U.finalSigma pre cs then ['ς'] else ['σ']) else U.toLower c) ++
      strLowerAux U (c :: pre) cs

/-- `str::to_lowercase` (caverphone.rs:44, beider_morse/engine.rs:211). -/
def strLower (U : Unicode) (s : Str) : Str := strLowerAux U [] s

/-- `str::trim` (double_metaphone.rs:278, match_rating_approach.rs:190-207). -/
def trim (U : Unicode) (s : Str) : Str :=
  ((s.dropWhile U.isWhitespace).reverse.dropWhile U.isWhitespace).reverse

end Unicode

/-! ## A concrete table: ASCII, Latin-1 letters and a few more

Used for tests and for showing that hypotheses are satisfiable; no theorem depends on it. -/

namespace Latin1

/-- Lower-case letters of Latin-1 outside ASCII that have a Latin-1 capital. -/
def lowLatin (c : Char) : Bool := 224 ≤ c.toNat && c.toNat ≤ 254 && c.toNat != 247

/-- Capitals of Latin-1 outside ASCII. -/
def upLatin (c : Char) : Bool := 192 ≤ c.toNat && c.toNat ≤ 222 && c.toNat != 215

/-- `char::to_uppercase` for Latin-1 (see `Unicode.latin1`). -/
def toUpper (c : Char) : Str :=
  if isAscii c then [asciiUpper c]
  else if lowLatin c then [Char.ofNat (c.toNat - 32)]
  else if c = 'ß' then ['S', 'S']
  else if c = 'ÿ' then ['Ÿ']
  else [c]

/-- `char::to_lowercase` for Latin-1 (see `Unicode.latin1`). -/
def toLower (c : Char) : Str :=
  if isAscii c then [asciiLower c]
  else if upLatin c then [Char.ofNat (c.toNat + 32)]
  else if c = 'Ÿ' then ['ÿ']
  else if c = 'Σ' then ['σ']
  else if c = 'İ' then ['i', '\u0307']
  else [c]

theorem toLower_idem (c : Char) : ∀ d ∈ toLower c, toLower d = [d] := by
  have low : ∀ n, n < 256 → ∀ d ∈ toLower (Char.ofNat n), toLower d = [d] := by decide +kernel
  by_cases h : c.toNat < 256
  · have := low c.toNat h
    rwa [Char.ofNat_toNat] at this
  · have h1 : isAscii c = false := by simp [isAscii]; omega
    have h2 : upLatin c = false := by simp [upLatin]; omega
    unfold toLower
    simp only [h1, h2, Bool.false_eq_true, if_false]
    split
    · decide +kernel
    · split
      · decide +kernel
      · split
        · decide +kernel
        · rename_i h3 h4 h5
          intro d hd
          simp only [List.mem_singleton] at hd
          subst hd
          simp [h1, h2, h3, h4, h5]

/-- `char::is_alphabetic` for Latin-1 (see `Unicode.latin1`). -/
def isAlphabetic (c : Char) : Bool :=
  if isAscii c then isAsciiAlpha c
  else lowLatin c || upLatin c || c == 'ß' || c == 'ÿ' || c == 'Ÿ' || (256 ≤ c.toNat && c.toNat < 688)

/-- `char::is_lowercase` for Latin-1 (see `Unicode.latin1`). -/
def isLowercase (c : Char) : Bool :=
  if isAscii c then isAsciiLower c else lowLatin c || c == 'ß' || c == 'ÿ'

end Latin1

/-- A concrete `Unicode` table (not in the code: for tests and examples; stands for the tables behind e.g. lib.rs:205). -/
def Unicode.latin1 : Unicode where
  toUpper := Latin1.toUpper
  toLower := Latin1.toLower
  isAlphabetic := Latin1.isAlphabetic
  isNumeric c := isAsciiDigit c
  isWhitespace c := isAsciiWs c || c.toNat == 160
  isLowercase := Latin1.isLowercase
  finalSigma _ _ := false
  toUpper_ascii c h := by simp [Latin1.toUpper, h]
  toLower_ascii c h := by simp [Latin1.toLower, h]
  isAlphabetic_ascii c h := by simp [Latin1.isAlphabetic, h]
  isNumeric_ascii c _ := rfl
  isWhitespace_ascii c h := by
    simp only [isAscii, decide_eq_true_eq] at h
    have : ¬ c.toNat = 160 := by omega
    simp [this]
  isLowercase_ascii c h := by simp [Latin1.isLowercase, h]
  toUpper_ne_nil c := by unfold Latin1.toUpper; (repeat' split) <;> simp
  toLower_ne_nil c := by unfold Latin1.toLower; (repeat' split) <;> simp
  toUpper_umlaut := by decide +kernel
  toLower_idem := Latin1.toLower_idem
  toLower_sigma := by decide +kernel

end Verif
