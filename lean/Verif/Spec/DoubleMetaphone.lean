import Verif.Basic
/-!
# Specification of the Double Metaphone codes of a word

A word in upper case is read from left to right.  Each letter stands for a sound, which depends on what precedes
and what follows it; some sounds cover the following letters too.  For each letter there is a list of cases, of which
the first that applies is taken.
-/

namespace Verif.Spec.DM

/-- What a letter contributes to the primary and to the alternate code, and how many of the following letters
are covered by it. -/
structure Sound where
  primary : Str
  alternate : Str
  covered : Nat
deriving DecidableEq, Repr

/-- The same contribution to both codes. -/
def same (code : Str) (covered : Nat) : Sound := ⟨code, code, covered⟩

/-- No contribution. -/
def silent (covered : Nat) : Sound := ⟨[], [], covered⟩

/-- A text starts with one of the given words. -/
def starts (text : Str) (words : List Str) : Bool := words.any fun w => w.isPrefixOf text

/-- A text ends with one of the given words. -/
def ends (text : Str) (words : List Str) : Bool := words.any fun w => w.isSuffixOf text

/-- One of the given pairs surrounds a letter: the first part precedes it, the second part follows it. -/
def around (before after : Str) (pairs : List (Str × Str)) : Bool :=
  pairs.any fun p => p.1.isSuffixOf before && p.2.isPrefixOf after

/-- A letter (if there is one) is one of the given letters. -/
def among (letters : Str) : Option Char → Bool
  | some c => letters.contains c
  | none => false

/-- Vowels. -/
def vowel : Option Char → Bool := among c!"AEIOUY"

/-- The `n`th letter before the place (1 is the nearest). -/
def back (before : Str) (n : Nat) : Option Char := before.reverse[n - 1]?

/-- A word looks Slavic or Germanic: it contains W, K or CZ. -/
def slavoGermanic : Str → Bool
  | [] => false
  | c :: rest => c == 'W' || c == 'K' || (c == 'C' && rest.head? == some 'Z') || slavoGermanic rest

section
variable (word before after : Str)

/-- CH -/
def soundCH : Sound :=
  if !before.isEmpty && starts after [c!"HAE"] then ⟨c!"K", c!"X", 1⟩
  else if before.isEmpty && starts after [c!"HARAC", c!"HARIS", c!"HOR", c!"HYM", c!"HIA", c!"HEM"] &&
      !starts after [c!"HORE"] then same c!"K" 1
  else if starts word [c!"SCH"] then same c!"K" 1
  else if around before after [(c!"OR", c!"HES"), (c!"AR", c!"HIT"), (c!"OR", c!"HID")] then same c!"K" 1
  else if before.length ≥ 2 && starts after [c!"HT", c!"HS"] then same c!"K" 1
  else if (before.isEmpty || ends before [c!"A", c!"O", c!"U", c!"E"]) &&
      (after.length == 1 || starts (after.drop 1) [c!"L", c!"R", c!"N", c!"M", c!"B", c!"H", c!"F", c!"V", c!"W", c!" "])
      then same c!"K" 1
  else if before.isEmpty then same c!"X" 1
  else if starts word [c!"MC"] then same c!"K" 1
  else ⟨c!"X", c!"K", 1⟩

/-- CC -/
def soundCC : Sound :=
  if starts after [c!"CI", c!"CE", c!"CH"] && !starts after [c!"CHU"] then
    if before == c!"A" || around before after [(c!"U", c!"CEE"), (c!"U", c!"CES")] then same c!"KS" 2
    else same c!"X" 2
  else same c!"K" 1

/-- C -/
def soundC : Sound :=
  if starts after [c!"HIA"] then same c!"K" 1
  else if before.length ≥ 2 && !vowel (back before 2) && around before after [(c!"A", c!"H")] &&
      (!starts after [c!"HI", c!"HE"] || around before after [(c!"BA", c!"HER"), (c!"MA", c!"HER")]) then same c!"K" 1
  else if before.isEmpty && starts after [c!"AESAR"] then same c!"S" 1
  else if starts after [c!"H"] then soundCH word before after
  else if starts after [c!"Z"] && !ends before [c!"WI"] then ⟨c!"S", c!"X", 1⟩
  else if starts after [c!"CIA"] then same c!"X" 2
  else if starts after [c!"C"] && before != c!"M" then soundCC before after
  else if starts after [c!"K", c!"G", c!"Q"] then same c!"K" 1
  else if starts after [c!"IO", c!"IE", c!"IA"] then ⟨c!"S", c!"X", 1⟩
  else if starts after [c!"I", c!"E", c!"Y"] then same c!"S" 1
  else if starts after [c!" C", c!" Q", c!" G"] then same c!"K" 2
  else if starts after [c!"C"] && !starts after [c!"CE", c!"CI"] then same c!"K" 1
  else same c!"K" 0

/-- D -/
def soundD : Sound :=
  if starts after [c!"GI", c!"GE", c!"GY"] then same c!"J" 2
  else if starts after [c!"G"] then same c!"TK" 1
  else if starts after [c!"T", c!"D"] then same c!"T" 1
  else same c!"T" 0

/-- GH -/
def soundGH : Sound :=
  if before.isEmpty then if starts after [c!"HI"] then same c!"J" 1 else same c!"K" 1
  else if !vowel (back before 1) then same c!"K" 1
  else if among c!"BHD" (back before 2) || among c!"BHD" (back before 3) || among c!"BH" (back before 4) then silent 1
  else if ends before [c!"U"] && among c!"CGLRT" (back before 3) then same c!"F" 1
  else if ends before [c!"I"] then silent 1
  else same c!"K" 1

/-- G -/
def soundG : Sound :=
  if starts after [c!"H"] then soundGH before after
  else if starts after [c!"N"] then
    if slavoGermanic word then same c!"KN" 1
    else if before.length == 1 && vowel (back before 1) then ⟨c!"KN", c!"N", 1⟩
    else if starts after [c!"NEY"] then same c!"KN" 1
    else ⟨c!"N", c!"KN", 1⟩
  else if starts after [c!"LI"] && !slavoGermanic word then ⟨c!"KL", c!"L", 1⟩
  else if before.isEmpty && starts after [c!"Y", c!"ES", c!"EP", c!"EB", c!"EL", c!"EY", c!"IB", c!"IL", c!"IN", c!"IE",
      c!"EI", c!"ER"] then ⟨c!"K", c!"J", 1⟩
  else if starts after [c!"ER", c!"Y"] && !starts word [c!"DANGER", c!"RANGER", c!"MANGER"] &&
      !ends before [c!"E", c!"I"] && !around before after [(c!"R", c!"Y"), (c!"O", c!"Y")] then ⟨c!"K", c!"J", 1⟩
  else if starts after [c!"E", c!"I", c!"Y"] || around before after [(c!"A", c!"GI"), (c!"O", c!"GI")] then
    if starts word [c!"VAN ", c!"VON ", c!"SCH"] || starts after [c!"ET"] then same c!"K" 1
    else if starts after [c!"IER"] then same c!"J" 1
    else ⟨c!"J", c!"K", 1⟩
  else if starts after [c!"G"] then same c!"K" 1
  else same c!"K" 0

/-- H -/
def soundH : Sound :=
  if (before.isEmpty || vowel (back before 1)) && vowel after.head? then same c!"H" 1 else silent 0

/-- J -/
def soundJ : Sound :=
  if starts word [c!"SAN "] then same c!"H" 0
  else if starts after [c!"OSE"] then
    if word.length == 4 || before.isEmpty && starts after [c!"OSE "] then same c!"H" 0 else ⟨c!"J", c!"H", 0⟩
  else
    let covered := if starts after [c!"J"] then 1 else 0
    if before.isEmpty then ⟨c!"J", c!"A", covered⟩
    else if vowel (back before 1) && !slavoGermanic word && starts after [c!"A", c!"O"] then ⟨c!"J", c!"H", covered⟩
    else if after.isEmpty then ⟨c!"J", c!" ", covered⟩
    else if starts after [c!"L", c!"T", c!"K", c!"S", c!"N", c!"M", c!"B", c!"Z"] || ends before [c!"S", c!"K", c!"L"] then
      silent covered
    else same c!"J" covered

/-- L: in Spanish endings it is silent in the alternate code. -/
def soundL : Sound :=
  if starts after [c!"L"] then
    if around before after [(c!"I", c!"LO"), (c!"I", c!"LA"), (c!"A", c!"LE")] && after.length == 2 then ⟨c!"L", [], 1⟩
    else if around before after [(c!"A", c!"LE")] && ends word [c!"AS", c!"OS", c!"A", c!"O"] then ⟨c!"L", [], 1⟩
    else same c!"L" 1
  else same c!"L" 0

/-- M: in -umb and -umber the B is silent. -/
def soundM : Sound :=
  if starts after [c!"M"] || ends before [c!"U"] && (after == c!"B" || starts after [c!"BER"]) then same c!"M" 1
  else same c!"M" 0

/-- P -/
def soundP : Sound :=
  if starts after [c!"H"] then same c!"F" 1
  else if starts after [c!"P", c!"B"] then same c!"P" 1
  else same c!"P" 0

/-- R: in French endings it is silent in the primary code. -/
def soundR : Sound :=
  let covered := if starts after [c!"R"] then 1 else 0
  if after.isEmpty && before.length ≥ 4 && ends before [c!"IE"] && !ends before [c!"MEIE", c!"MAIE"] &&
      !slavoGermanic word then ⟨[], c!"R", covered⟩
  else same c!"R" covered

/-- SC -/
def soundSC : Sound :=
  if starts after [c!"CHER", c!"CHEN"] then ⟨c!"X", c!"SK", 2⟩
  else if starts after [c!"CHOO", c!"CHUY", c!"CHED", c!"CHEM"] then same c!"SK" 2
  else if starts after [c!"CH"] then
    if before.isEmpty && !vowel after[2]? && after[2]? != some 'W' then ⟨c!"X", c!"S", 2⟩ else same c!"X" 2
  else if starts after [c!"CI", c!"CE", c!"CY"] then same c!"S" 2
  else same c!"SK" 2

/-- S -/
def soundS : Sound :=
  if around before after [(c!"I", c!"L"), (c!"Y", c!"L")] then silent 0
  else if before.isEmpty && starts after [c!"UGAR"] then ⟨c!"X", c!"S", 0⟩
  else if starts after [c!"HEIM", c!"HOEK", c!"HOLM", c!"HOLZ"] then same c!"S" 1
  else if starts after [c!"H"] then same c!"X" 1
  else if starts after [c!"IO", c!"IA"] then if slavoGermanic word then same c!"S" 2 else ⟨c!"S", c!"X", 2⟩
  else if starts after [c!"Z"] then ⟨c!"S", c!"X", 1⟩
  else if before.isEmpty && starts after [c!"M", c!"N", c!"L", c!"W"] then ⟨c!"S", c!"X", 0⟩
  else if starts after [c!"C"] then soundSC before after
  else if after.isEmpty && ends before [c!"AI", c!"OI"] then ⟨[], c!"S", 0⟩
  else same c!"S" (if starts after [c!"S"] then 1 else 0)

/-- T -/
def soundT : Sound :=
  if starts after [c!"ION", c!"IA", c!"CH"] then same c!"X" 2
  else if starts after [c!"H", c!"TH"] then
    if starts (after.drop 1) [c!"OM", c!"AM"] || starts word [c!"VAN ", c!"VON ", c!"SCH"] then same c!"T" 1
    else ⟨c!"0", c!"T", 1⟩
  else if starts after [c!"T", c!"D"] then same c!"T" 1
  else same c!"T" 0

/-- W -/
def soundW : Sound :=
  if starts after [c!"R"] then same c!"R" 1
  else if before.isEmpty && vowel after.head? then ⟨c!"A", c!"F", 0⟩
  else if before.isEmpty && starts after [c!"H"] then same c!"A" 0
  else if after.isEmpty && vowel (back before 1) then ⟨[], c!"F", 0⟩
  else if around before after [(c!"E", c!"SKI"), (c!"E", c!"SKY"), (c!"O", c!"SKI"), (c!"O", c!"SKY")] then ⟨[], c!"F", 0⟩
  else if starts word [c!"SCH"] then ⟨[], c!"F", 0⟩
  else if starts after [c!"ICZ", c!"ITZ"] then ⟨c!"TS", c!"FX", 3⟩
  else silent 0

/-- X -/
def soundX : Sound :=
  if before.isEmpty then same c!"S" 0
  else if after.isEmpty && ends before [c!"AU", c!"OU"] then silent 0
  else same c!"KS" (if starts after [c!"C", c!"X"] then 1 else 0)

/-- Z -/
def soundZ : Sound :=
  let covered := if starts after [c!"Z"] then 1 else 0
  if starts after [c!"H"] then same c!"J" 1
  else if starts after [c!"ZO", c!"ZI", c!"ZA"] then ⟨c!"S", c!"TS", covered⟩
  else if slavoGermanic word && !before.isEmpty && !ends before [c!"T"] then ⟨c!"S", c!"TS", covered⟩
  else same c!"S" covered

/-- A letter with one sound; its double is covered. -/
def soundSimple (letter : Char) (code : Str) : Sound := same code (if starts after [[letter]] then 1 else 0)

/-- The sound of a letter. -/
def sound (letter : Char) : Sound :=
  match letter with
  | 'A' | 'E' | 'I' | 'O' | 'U' | 'Y' => if before.isEmpty then same c!"A" 0 else silent 0
  | 'B' => soundSimple after 'B' c!"P"
  | 'C' => soundC word before after
  | 'D' => soundD after
  | 'F' => soundSimple after 'F' c!"F"
  | 'G' => soundG word before after
  | 'H' => soundH before after
  | 'J' => soundJ word before after
  | 'K' => soundSimple after 'K' c!"K"
  | 'L' => soundL word before after
  | 'M' => soundM before after
  | 'N' => soundSimple after 'N' c!"N"
  | 'P' => soundP after
  | 'Q' => soundSimple after 'Q' c!"K"
  | 'R' => soundR word before after
  | 'S' => soundS word before after
  | 'T' => soundT word after
  | 'V' => soundSimple after 'V' c!"F"
  | 'W' => soundW word before after
  | 'X' => soundX before after
  | 'Z' => soundZ word before after
  | 'Ç' => same c!"S" 0
  | 'Ñ' => same c!"N" 0
  | _ => silent 0

end

/-- The sounds of the letters of a word, from a place on; the next `covered` letters are covered already. -/
def soundsFrom (word : Str) : (before : Str) → (covered : Nat) → (after : Str) → List Sound
  | _, _, [] => []
  | before, n + 1, c :: after => soundsFrom word (before ++ [c]) n after
  | before, 0, c :: after =>
    let s := sound word before after c
    s :: soundsFrom word (before ++ [c]) s.covered after

/-- The sounds of a word; in some beginnings the first letter is silent. -/
def sounds (word : Str) : List Sound :=
  soundsFrom word [] (if starts word [c!"GN", c!"KN", c!"PN", c!"WR", c!"PS"] then 1 else 0) word

/-- The codes of a word, without a limit. -/
def primary (word : Str) : Str := (sounds word).flatMap Sound.primary
def alternate (word : Str) : Str := (sounds word).flatMap Sound.alternate

/-- A text with a place for each byte: letters of several bytes are followed by placeholders.  Distances between letters
count these places. -/
def padded (text : Str) : Str := text.flatMap fun c => c :: List.replicate (c.utf8Size - 1) '\x00'

/-- A code with a maximal length. -/
def limited (max : Option Nat) (code : Str) : Str :=
  match max with
  | some n => code.take n
  | none => code

/-- The code of a text without English consonants: an initial vowel counts, Ç sounds like S and Ñ like N. -/
def vocalic : Str → Str
  | [] => []
  | c :: rest => (if vowel (some c) then c!"A" else []) ++ (c :: rest).flatMap fun d =>
      if d == 'Ç' then c!"S" else if d == 'Ñ' then c!"N" else []

/-- A text with a letter beyond ASCII at an awkward place: directly after C, D, G, P, S, T or W (unless the letter before
these could cover them), or directly before H, or before C, M or S that are not at the end (but not before MM or CHIA). -/
def Awkward (text : Str) : Prop :=
  (∃ before letter accent after, text = before ++ letter :: accent :: after ∧ letter ∈ c!"CDGPSTW" ∧
    isAscii accent = false ∧ ∀ d, before.getLast? = some d → d ∉ c!"CDGPSTWX ") ∨
  (∃ before accent after, text = before ++ accent :: 'H' :: after ∧ isAscii accent = false) ∨
  (∃ before accent letter next after, text = before ++ accent :: letter :: next :: after ∧ isAscii accent = false ∧
    (letter = 'S' ∨ letter = 'M' ∧ next ≠ 'M' ∨ letter = 'C' ∧ ¬ c!"HIA" <+: next :: after))

/-- How far Double Metaphone looks around a letter: so many letters behind it and ahead of it, and so many at the beginning
and at the end of the text. -/
structure Window where
  behind : Nat
  ahead : Nat
  first : Nat
  last : Nat

/-- The window of a letter. -/
def window (before : Str) (letter : Char) (after : Str) : Window :=
  let next := after.head?
  match letter with
  | 'C' => ⟨2, 5, 5, 0⟩
  | 'D' => ⟨0, 2, 0, 0⟩
  | 'G' => ⟨if next = some 'H' then 4 else 1, 3, 6, 0⟩
  | 'H' => ⟨1, 0, 0, 0⟩
  | 'J' => ⟨1, 3, 4, 0⟩
  | 'L' =>
    if next = some 'L' then
      if after.length = 2 ∨ ends (before ++ letter :: after) [c!"AS", c!"OS", c!"A", c!"O"] = true then ⟨1, 2, 0, 2⟩
      else ⟨0, 0, 0, 2⟩
    else ⟨0, 0, 0, 0⟩
  | 'M' =>
    if before = [] ∨ next = some 'M' then ⟨0, 0, 0, 0⟩
    else if next = some 'B' then ⟨1, 3, 0, 0⟩ else ⟨1, 1, 0, 0⟩
  | 'P' => ⟨0, 1, 0, 0⟩
  | 'R' => if after = [] then (if ends before [c!"IE"] = true then ⟨4, 0, 0, 0⟩ else ⟨2, 0, 0, 0⟩) else ⟨0, 0, 0, 0⟩
  | 'S' => ⟨if after = [] then 2 else 1, 4, 0, 0⟩
  | 'T' => ⟨0, 3, 4, 0⟩
  | 'W' => ⟨1, 3, 3, 0⟩
  | 'X' => if after = [] then ⟨3, 0, 0, 0⟩ else if before = [] then ⟨0, 0, 0, 0⟩ else ⟨0, 1, 0, 0⟩
  | 'Z' => ⟨1, 2, 0, 0⟩
  | _ => ⟨0, 0, 0, 0⟩

/-- Nothing but ASCII in the window of a letter. -/
def Unobstructed (before : Str) (letter : Char) (after : Str) : Prop :=
  let w := window before letter after
  let text := before ++ letter :: after
  ∀ x ∈ before.reverse.take w.behind ++ after.take w.ahead ++ text.take w.first ++ text.reverse.take w.last, isAscii x = true

/-- A text where nothing but ASCII is in the window of any letter. -/
def Roomy (text : Str) : Prop := ∀ i, (h : i < text.length) → Unobstructed (text.take i) text[i] (text.drop (i + 1))

instance (b : Str) (c : Char) (a : Str) : Decidable (Unobstructed b c a) := by unfold Unobstructed; infer_instance
instance (t : Str) : Decidable (Roomy t) := by unfold Roomy; infer_instance

end Verif.Spec.DM
