import Verif.Model.Lib
/-!
# Model of `src/double_metaphone.rs`

The handlers only append to the result (they never read it), so a handler is modelled as a function
from the text and the byte index to the list of `append_*` calls it makes and the number of characters
to skip; the calls are executed, with the maximum length, by the main loop.
-/

namespace Verif

/-- `DoubleMetaphoneResult` (double_metaphone.rs:35-40). -/
structure DMResult where
  primary : Str
  alternate : Str
  maxLength : Option Nat
deriving DecidableEq, Repr

namespace DMResult

/-- `DoubleMetaphoneResult::new` (double_metaphone.rs:56-64). -/
def new (maxLength : Option Nat) : Res DMResult := do
  let primary ← stringWithCapacity (maxLength.getD 10)
  let alternate ← stringWithCapacity (maxLength.getD 10)
  return { primary, alternate, maxLength }

/-- `self.max_length.map(|v| len < v).unwrap_or(true)` and `push`
(double_metaphone.rs:81-89 and 91-99): the new contents of the buffer. -/
def pushChar (maxLength : Option Nat) (buffer : Str) (ch : Char) : Str :=
  match maxLength with
  | some v => if byteLen buffer < v then buffer ++ [ch] else buffer
  | none => buffer ++ [ch]

/-- `append_char_primary` (double_metaphone.rs:81-89). -/
def appendCharPrimary (r : DMResult) (ch : Char) : DMResult :=
  { r with primary := pushChar r.maxLength r.primary ch }

/-- `append_char_alternate` (double_metaphone.rs:91-99). -/
def appendCharAlternate (r : DMResult) (ch : Char) : DMResult :=
  { r with alternate := pushChar r.maxLength r.alternate ch }

/-- `append_char` (double_metaphone.rs:76-79). -/
def appendChar (r : DMResult) (ch : Char) (alternate : Option Char) : DMResult :=
  (r.appendCharPrimary ch).appendCharAlternate (alternate.getD ch)

/-- Body of `append_str_primary` and `append_str_alternate` (double_metaphone.rs:106-117, 119-130):
the new contents of the buffer. `v - len` panics on underflow, `value[0..n]` inside a character. -/
def pushStr (maxLength : Option Nat) (buffer value : Str) : Res Str :=
  match maxLength with
  | some v => do
    let lengthRemaining ← usub v (byteLen buffer)
    if byteLen value ≤ lengthRemaining then return buffer ++ value
    else do
      let w ← sliceTo value lengthRemaining
      return buffer ++ w
  | none => .ok (buffer ++ value)

/-- `append_str` (double_metaphone.rs:101-104). -/
def appendStr (r : DMResult) (value : Str) (alternate : Option Str) : Res DMResult := do
  let primary ← pushStr r.maxLength r.primary value
  let alternate ← pushStr r.maxLength r.alternate (alternate.getD value)
  return { r with primary, alternate }

/-- `is_complete` (double_metaphone.rs:135-139). -/
def isComplete (r : DMResult) : Bool :=
  match r.maxLength with
  | some v => decide (byteLen r.primary ≥ v) && decide (byteLen r.alternate ≥ v)
  | none => false

end DMResult

/-- A call to one of the `append_*` methods (double_metaphone.rs:76-133). -/
inductive DMAppend where
  /-- `append_char(ch, alternate)` -/
  | char (ch : Char) (alternate : Option Char)
  /-- `append_char_primary(ch)` -/
  | charPrimary (ch : Char)
  /-- `append_char_alternate(ch)` -/
  | charAlternate (ch : Char)
  /-- `append_str(value, alternate)` -/
  | str (value : Str) (alternate : Option Str)
deriving DecidableEq, Repr

/-- Executes a call (double_metaphone.rs:76-133). -/
def DMAppend.run (r : DMResult) : DMAppend → Res DMResult
  | .char ch alt => .ok (r.appendChar ch alt)
  | .charPrimary ch => .ok (r.appendCharPrimary ch)
  | .charAlternate ch => .ok (r.appendCharAlternate ch)
  | .str v alt => r.appendStr v alt

/-- Executes the calls of a handler
(double_metaphone.rs:393-1010; the handlers append in their branches, here a branch yields the list of its calls). -/
def DMAppend.runAll (r : DMResult) : List DMAppend → Res DMResult
  | [] => .ok r
  | a :: as => do
    let r ← a.run r
    runAll r as

/-- `a || b` for conditions that may panic (`b` is evaluated only if `a` is false)
(double_metaphone.rs:393-1010, conditions). -/
def orR (a b : Res Bool) : Res Bool := do if ← a then return true else b

/-- `a && b` for conditions that may panic (`b` is evaluated only if `a` is true)
(double_metaphone.rs:393-1010, conditions). -/
def andR (a b : Res Bool) : Res Bool := do if ← a then b else return false

/-- `!a` for conditions that may panic (double_metaphone.rs:393-1010, conditions). -/
def notR (a : Res Bool) : Res Bool := do return !(← a)

/-- A condition that cannot panic (double_metaphone.rs:393-1010, conditions). -/
def okR (p : Prop) [Decidable p] : Res Bool := .ok (decide p)

@[inherit_doc] infixr:30 " |? " => orR
@[inherit_doc] infixr:35 " &? " => andR
@[inherit_doc] prefix:max "!? " => notR

/-- `DoubleMetaphone` (double_metaphone.rs:160-163). -/
structure DoubleMetaphone where
  maxCodeLength : Option Nat
deriving DecidableEq

namespace DoubleMetaphone

/-- `DoubleMetaphone::new` (double_metaphone.rs:181-183). -/
def new (maxCodeLength : Option Nat) : DoubleMetaphone := { maxCodeLength }

/-- `Default` (double_metaphone.rs:165-172). -/
def default : DoubleMetaphone := { maxCodeLength := some 4 }

/-- `str::contains` with a string pattern (double_metaphone.rs:218-222). -/
def strContains (value pattern : Str) : Bool :=
  match value with
  | [] => pattern.isEmpty
  | c :: r => pattern.isPrefixOf (c :: r) || strContains r pattern

/-- `is_slavo_germanic` (double_metaphone.rs:218-222). -/
def isSlavoGermanic (value : Str) : Bool :=
  value.any (fun c => c == 'W' || c == 'K') || strContains value c!"CZ" || strContains value c!"WITZ"

/-- `contains` and `contains_array` (double_metaphone.rs:224-255): byte offsets; the slice panics when
an end falls inside a character. -/
def contains (value : Str) (start : Int) (length : Nat) (criteria : List Str) : Res Bool :=
  if start < 0 then .ok false
  else if start.toNat + length ≤ byteLen value then do
    let target ← slice value start.toNat (start.toNat + length)
    return criteria.contains target
  else .ok false

/-- `char_at` (double_metaphone.rs:257-263). -/
def charAt (value : Str) (index : Int) : Res (Option Char) :=
  if index ≥ 0 ∧ index.toNat < byteLen value then do
    let r ← sliceFrom value index.toNat
    return r.head?
  else .ok none

/-- `char_at(value, index) == Some(ch)` (double_metaphone.rs:393-1010, conditions). -/
def isAt (value : Str) (index : Int) (ch : Char) : Res Bool := do
  return (← charAt value index) == some ch

/-- `is_vowel(char_at(value, index).map(|c| c.to_ascii_lowercase()), true)` (double_metaphone.rs:452-960, conditions). -/
def vowelAt (value : Str) (index : Int) : Res Bool := do
  return isVowel ((← charAt value index).map asciiLower) true

/-- `condition_c0` (double_metaphone.rs:443-469). -/
def conditionC0 (value : Str) (index : Int) : Res Bool := do
  if ← contains value index 4 [c!"CHIA"] then return true
  else if index < 1 then return false
  else if ← okR (index < 2) |? vowelAt value (index - 2) then return false
  else if ← okR (index > 0) &? !? (contains value (index - 1) 3 [c!"ACH"]) then return false
  else do
    let ch ← charAt value (index + 2)
    if index < 2 then return false
    else okR (ch ≠ some 'I' ∧ ch ≠ some 'E') |?
      contains value (index - 2) 6 [c!"BACHER", c!"MACHER"]

/-- `condition_ch0` (double_metaphone.rs:492-504). -/
def conditionCh0 (value : Str) (index : Int) : Res Bool := do
  if index ≠ 0 then return false
  else if ← !? (contains value (index + 1) 5 [c!"HARAC", c!"HARIS"]) &?
      !? (contains value (index + 1) 3 [c!"HOR", c!"HYM", c!"HIA", c!"HEM"]) then return false
  else !? (contains value 0 5 [c!"CHORE"])

/-- `L_R_N_M_B_H_F_V_W_SPACE` (double_metaphone.rs:27). -/
def lrnmbhfvwSpace : List Str := [c!"L", c!"R", c!"N", c!"M", c!"B", c!"H", c!"F", c!"V", c!"W", c!" "]

/-- `ES_EP_EB_EL_EY_IB_IL_IN_IE_EI_ER` (double_metaphone.rs:28-30). -/
def esEpEb : List Str :=
  [c!"ES", c!"EP", c!"EB", c!"EL", c!"EY", c!"IB", c!"IL", c!"IN", c!"IE", c!"EI", c!"ER"]

/-- `L_T_K_S_N_M_B_Z` (double_metaphone.rs:31). -/
def ltksnmbz : List Str := [c!"L", c!"T", c!"K", c!"S", c!"N", c!"M", c!"B", c!"Z"]

/-- `condition_ch1` (double_metaphone.rs:506-515). -/
def conditionCh1 (value : Str) (index : Int) : Res Bool :=
  (contains value 0 4 [c!"VAN", c!"VON"] |? contains value 0 3 [c!"SCH"]) |?
  (okR (index > 1) &? contains value (index - 2) 6 [c!"ORCHES", c!"ARCHIT", c!"ORCHID"]) |?
  (okR (index > 1) &? contains value (index + 2) 1 [c!"T", c!"S"]) |?
  ((okR (index = 0) |? contains value (index - 1) 1 [c!"A", c!"O", c!"U", c!"E"]) &?
    (contains value (index + 2) 1 lrnmbhfvwSpace |?
      (do let n ← usub (byteLen value) 1
          return decide (index.toNat + 1 = n))))

/-- `handle_ch` (double_metaphone.rs:471-490). -/
def handleCh (value : Str) (index : Int) : Res (List DMAppend × Nat) := do
  if ← okR (index > 0) &? contains value index 4 [c!"CHAE"] then return ([.char 'K' (some 'X')], 1)
  else if ← conditionCh0 value index |? conditionCh1 value index then return ([.char 'K' none], 1)
  else if index > 0 then
    if ← contains value 0 2 [c!"MC"] then return ([.char 'K' none], 1)
    else return ([.char 'X' (some 'K')], 1)
  else return ([.char 'X' none], 1)

/-- `handle_cc` (double_metaphone.rs:517-537). -/
def handleCc (value : Str) (index : Int) : Res (List DMAppend × Nat) := do
  if ← contains value (index + 2) 1 [c!"I", c!"E", c!"H"] &?
      !? (contains value (index + 2) 2 [c!"HU"]) then
    if ← (okR (index = 1) &? isAt value (index - 1) 'A') |?
        contains value (index - 1) 5 [c!"UCCEE", c!"UCCES"] then
      return ([.str c!"KS" none], 2)
    else return ([.char 'X' none], 2)
  else return ([.char 'K' none], 1)

/-- `handle_c` (double_metaphone.rs:393-441). -/
def handleC (value : Str) (index : Int) : Res (List DMAppend × Nat) := do
  if ← conditionC0 value index then return ([.char 'K' none], 1)
  else if ← okR (index = 0) &? contains value index 6 [c!"CAESAR"] then return ([.char 'S' none], 1)
  else if ← contains value index 2 [c!"CH"] then handleCh value index
  else if ← contains value index 2 [c!"CZ"] &?
      (okR (index < 2) |? !? (contains value (index - 2) 4 [c!"WICZ"])) then
    return ([.char 'S' (some 'X')], 1)
  else if ← contains value (index + 1) 3 [c!"CIA"] then return ([.char 'X' none], 2)
  else if ← contains value index 2 [c!"CC"] &? !? (okR (index = 1) &? isAt value 0 'M') then
    handleCc value index
  else if ← contains value index 2 [c!"CK", c!"CG", c!"CQ"] then return ([.char 'K' none], 1)
  else if ← contains value index 2 [c!"CI", c!"CE", c!"CY"] then
    if ← contains value index 3 [c!"CIO", c!"CIE", c!"CIA"] then return ([.char 'S' (some 'X')], 1)
    else return ([.char 'S' none], 1)
  else if ← contains value (index + 1) 2 [c!" C", c!" Q", c!" G"] then return ([.char 'K' none], 2)
  else if ← contains value (index + 1) 1 [c!"C", c!"K", c!"Q"] &?
      !? (contains value (index + 1) 2 [c!"CE", c!"CI"]) then return ([.char 'K' none], 1)
  else return ([.char 'K' none], 0)

/-- `handle_d` (double_metaphone.rs:539-555). -/
def handleD (value : Str) (index : Int) : Res (List DMAppend × Nat) := do
  if ← contains value index 2 [c!"DG"] then
    if ← contains value (index + 2) 1 [c!"I", c!"E", c!"Y"] then return ([.char 'J' none], 2)
    else return ([.str c!"TK" none], 1)
  else if ← contains value index 2 [c!"DT", c!"DD"] then return ([.char 'T' none], 1)
  else return ([.char 'T' none], 0)

/-- `handle_gh` (double_metaphone.rs:624-659). -/
def handleGh (value : Str) (index : Int) : Res (List DMAppend × Nat) := do
  if ← okR (index > 0) &? !? (vowelAt value (index - 1)) then return ([.char 'K' none], 1)
  else if index = 0 then
    if ← isAt value (index + 2) 'I' then return ([.char 'J' none], 1)
    else return ([.char 'K' none], 1)
  else if ← (okR (index > 1) &? contains value (index - 2) 1 [c!"B", c!"H", c!"D"]) |?
      (okR (index > 2) &? contains value (index - 3) 1 [c!"B", c!"H", c!"D"]) |?
      (okR (index > 3) &? contains value (index - 4) 1 [c!"B", c!"H"]) then
    return ([], 1)
  else if ← okR (index > 2) &? isAt value (index - 1) 'U' &?
      contains value (index - 3) 1 [c!"C", c!"G", c!"L", c!"R", c!"T"] then
    return ([.char 'F' none], 1)
  else if ← okR (index > 0) &? !? (isAt value (index - 1) 'I') then return ([.char 'K' none], 1)
  else return ([], 1)

/-- The condition of the `-ger-`, `-gy-` branch (double_metaphone.rs:586-594). -/
def conditionG0 (value : Str) (index : Int) : Res Bool :=
  (okR (index = 0) &? (isAt value (index + 1) 'Y' |? contains value (index + 1) 2 esEpEb)) |?
  ((contains value (index + 1) 2 [c!"ER"] |? isAt value (index + 1) 'Y') &?
    !? (contains value 0 6 [c!"DANGER", c!"RANGER", c!"MANGER"]) &?
    (okR (index = 0) |? !? (contains value (index - 1) 1 [c!"E", c!"I"])) &?
    (okR (index = 0) |? !? (contains value (index - 1) 3 [c!"RGY", c!"OGY"])))

/-- `handle_g` (double_metaphone.rs:557-622). -/
def handleG (value : Str) (index : Int) (slavoGermanic : Bool) : Res (List DMAppend × Nat) := do
  if ← isAt value (index + 1) 'H' then handleGh value index
  else if ← isAt value (index + 1) 'N' then
    if ← okR (index = 1) &? vowelAt value 0 &? okR (slavoGermanic = false) then
      return ([.str c!"KN" (some c!"N")], 1)
    else if ← !? (contains value (index + 2) 2 [c!"EY"]) &? !? (isAt value (index + 1) 'Y') &?
        okR (slavoGermanic = false) then
      return ([.str c!"N" (some c!"KN")], 1)
    else return ([.str c!"KN" none], 1)
  else if ← contains value (index + 1) 2 [c!"LI"] &? okR (slavoGermanic = false) then
    return ([.str c!"KL" (some c!"L")], 1)
  else if ← conditionG0 value index then return ([.char 'K' (some 'J')], 1)
  else if ← contains value (index + 1) 1 [c!"E", c!"I", c!"Y"] |?
      (okR (index > 0) &? contains value (index - 1) 4 [c!"AGGI", c!"OGGI"]) then
    if ← contains value 0 4 [c!"VAN ", c!"VON "] |? contains value 0 3 [c!"SCH"] |?
        contains value (index + 1) 2 [c!"ET"] then return ([.char 'K' none], 1)
    else if ← contains value (index + 1) 3 [c!"IER"] then return ([.char 'J' none], 1)
    else return ([.char 'J' (some 'K')], 1)
  else if ← isAt value (index + 1) 'G' then return ([.char 'K' none], 1)
  else return ([.char 'K' none], 0)

/-- `handle_h` (double_metaphone.rs:661-679). -/
def handleH (value : Str) (index : Int) : Res (List DMAppend × Nat) := do
  if ← (okR (index = 0) |? vowelAt value (index - 1)) &? vowelAt value (index + 1) then
    return ([.char 'H' none], 1)
  else return ([], 0)

/-- The calls made by `handle_j` outside the Spanish branch (double_metaphone.rs:700-718). -/
def handleJ' (value : Str) (index : Int) (slavoGermanic : Bool) : Res (List DMAppend) := do
  if ← okR (index = 0) &? !? (contains value index 4 [c!"JOSE"]) then return [.char 'J' (some 'A')]
  else if ← okR (index > 0) &? vowelAt value (index - 1) &? okR (slavoGermanic = false) &?
      (isAt value (index + 1) 'A' |? isAt value (index + 1) 'O') then return [.char 'J' (some 'H')]
  else do
    let n ← usub (byteLen value) 1
    if index.toNat = n then return [.char 'J' (some ' ')]
    else if ← !? (contains value (index + 1) 1 ltksnmbz) &?
        (okR (index = 0) |? !? (contains value (index - 1) 1 [c!"S", c!"K", c!"L"])) then
      return [.char 'J' none]
    else return []

/-- `handle_j` (double_metaphone.rs:681-726). -/
def handleJ (value : Str) (index : Int) (slavoGermanic : Bool) : Res (List DMAppend × Nat) := do
  if ← contains value index 4 [c!"JOSE"] |? contains value 0 4 [c!"SAN "] then
    if ← ((okR (index = 0) &? isAt value (index + 4) ' ') |? okR (byteLen value = 4)) |?
        contains value 0 4 [c!"SAN "] then return ([.char 'H' none], 0)
    else return ([.char 'J' (some 'H')], 0)
  else do
    let calls ← handleJ' value index slavoGermanic
    if ← isAt value (index + 1) 'J' then return (calls, 1) else return (calls, 0)

/-- `condition_l0` (double_metaphone.rs:742-756). -/
def conditionL0 (value : Str) (index : Int) : Res Bool := do
  if ← okR (byteLen value ≥ 3) &? okR (index.toNat = byteLen value - 3) &? okR (index > 0) &?
      contains value (index - 1) 4 [c!"ILLO", c!"ILLA", c!"ALLE"] then return true
  else
    ((okR (byteLen value > 1) &? contains value ((byteLen value : Int) - 2) 2 [c!"AS", c!"OS"]) |?
      (okR (value ≠ []) &? contains value ((byteLen value : Int) - 1) 1 [c!"A", c!"O"])) &?
    okR (value ≠ []) &? contains value (index - 1) 4 [c!"ALLE"]

/-- `handle_l` (double_metaphone.rs:728-740). -/
def handleL (value : Str) (index : Int) : Res (List DMAppend × Nat) := do
  if ← isAt value (index + 1) 'L' then
    if ← conditionL0 value index then return ([.charPrimary 'L'], 1)
    else return ([.char 'L' none], 1)
  else return ([.char 'L' none], 0)

/-- `condition_m0` (double_metaphone.rs:758-767). -/
def conditionM0 (value : Str) (index : Int) : Res Bool := do
  if ← isAt value (index + 1) 'M' then return true
  else okR (index > 0) &? contains value (index - 1) 3 [c!"UMB"] &?
    (okR (index + 1 = (byteLen value : Int) - 1) |? contains value (index + 2) 2 [c!"ER"])

/-- `handle_p` (double_metaphone.rs:769-781). -/
def handleP (value : Str) (index : Int) : Res (List DMAppend × Nat) := do
  if ← isAt value (index + 1) 'H' then return ([.char 'F' none], 1)
  else if ← contains value (index + 1) 1 [c!"P", c!"B"] then return ([.char 'P' none], 1)
  else return ([.char 'P' none], 0)

/-- The calls made by `handle_r` (double_metaphone.rs:783-797). -/
def handleR' (value : Str) (index : Int) (slavoGermanic : Bool) : Res (List DMAppend) := do
  if ← okR (index > 3) &? okR (index = (byteLen value : Int) - 1) &? okR (slavoGermanic = false) &?
      contains value (index - 2) 2 [c!"IE"] &?
      !? (contains value (index - 4) 2 [c!"ME", c!"MA"]) then return [.charAlternate 'R']
  else return [.char 'R' none]

/-- `handle_r` (double_metaphone.rs:783-804). -/
def handleR (value : Str) (index : Int) (slavoGermanic : Bool) : Res (List DMAppend × Nat) := do
  let calls ← handleR' value index slavoGermanic
  if ← isAt value (index + 1) 'R' then return (calls, 1) else return (calls, 0)

/-- `handle_sc` (double_metaphone.rs:870-903). -/
def handleSc (value : Str) (index : Int) : Res (List DMAppend × Nat) := do
  if ← isAt value (index + 2) 'H' then
    if ← contains value (index + 3) 2 [c!"OO", c!"ER", c!"EN", c!"UY", c!"ED", c!"EM"] then
      if ← contains value (index + 3) 2 [c!"ER", c!"EN"] then return ([.str c!"X" (some c!"SK")], 2)
      else return ([.str c!"SK" none], 2)
    else if ← okR (index = 0) &? !? (vowelAt value 3) &? !? (isAt value 3 'W') then
      return ([.char 'X' (some 'S')], 2)
    else return ([.char 'X' none], 2)
  else if ← contains value (index + 2) 1 [c!"I", c!"E", c!"Y"] then return ([.char 'S' none], 2)
  else return ([.str c!"SK" none], 2)

/-- The calls made by the last branch of `handle_s` (double_metaphone.rs:853-861). -/
def handleS' (value : Str) (index : Int) : Res (List DMAppend) := do
  if ← okR (index > 1) &? okR (index = (byteLen value : Int) - 1) &?
      contains value (index - 2) 2 [c!"AI", c!"OI"] then return [.charAlternate 'S']
  else return [.char 'S' none]

/-- `handle_s` (double_metaphone.rs:806-868). -/
def handleS (value : Str) (index : Int) (slavoGermanic : Bool) : Res (List DMAppend × Nat) := do
  if ← okR (index > 0) &? contains value (index - 1) 3 [c!"ISL", c!"YSL"] then return ([], 0)
  else if ← okR (index = 0) &? contains value index 5 [c!"SUGAR"] then
    return ([.char 'X' (some 'S')], 0)
  else if ← contains value index 2 [c!"SH"] then
    if ← contains value (index + 1) 4 [c!"HEIM", c!"HOEK", c!"HOLM", c!"HOLZ"] then
      return ([.char 'S' none], 1)
    else return ([.char 'X' none], 1)
  else if ← contains value index 3 [c!"SIO", c!"SIA"] |? contains value index 4 [c!"SIAN"] then
    if slavoGermanic then return ([.char 'S' none], 2) else return ([.char 'S' (some 'X')], 2)
  else if ← (okR (index = 0) &? contains value (index + 1) 1 [c!"M", c!"N", c!"L", c!"W"]) |?
      contains value (index + 1) 1 [c!"Z"] then
    if ← contains value (index + 1) 1 [c!"Z"] then return ([.char 'S' (some 'X')], 1)
    else return ([.char 'S' (some 'X')], 0)
  else if ← contains value index 2 [c!"SC"] then handleSc value index
  else do
    let calls ← handleS' value index
    if ← contains value (index + 1) 1 [c!"S", c!"Z"] then return (calls, 1) else return (calls, 0)

/-- `handle_t` (double_metaphone.rs:905-932). -/
def handleT (value : Str) (index : Int) : Res (List DMAppend × Nat) := do
  if ← contains value index 4 [c!"TION"] |? contains value index 3 [c!"TIA", c!"TCH"] then
    return ([.char 'X' none], 2)
  else if ← contains value index 2 [c!"TH"] |? contains value index 3 [c!"TTH"] then
    if ← contains value (index + 2) 2 [c!"OM", c!"AM"] |? contains value 0 4 [c!"VAN ", c!"VON "] |?
        contains value 0 3 [c!"SCH"] then return ([.char 'T' none], 1)
    else return ([.char '0' (some 'T')], 1)
  else if ← contains value (index + 1) 1 [c!"T", c!"D"] then return ([.char 'T' none], 1)
  else return ([.char 'T' none], 0)

/-- `handle_w` (double_metaphone.rs:934-981). -/
def handleW (value : Str) (index : Int) : Res (List DMAppend × Nat) := do
  if ← contains value index 2 [c!"WR"] then return ([.char 'R' none], 1)
  else if ← okR (index = 0) &? (vowelAt value (index + 1) |? contains value index 2 [c!"WH"]) then
    if ← vowelAt value (index + 1) then return ([.char 'A' (some 'F')], 0)
    else return ([.char 'A' none], 0)
  else if ← (okR (index > 0) &? okR (index = (byteLen value : Int) - 1) &? vowelAt value (index - 1)) |?
      (okR (index > 0) &?
        contains value (index - 1) 5 [c!"EWSKI", c!"EWSKY", c!"OWSKI", c!"OWSKY"]) |?
      contains value 0 3 [c!"SCH"] then return ([.charAlternate 'F'], 0)
  else if ← contains value index 4 [c!"WICZ", c!"WITZ"] then
    return ([.str c!"TS" (some c!"FX")], 3)
  else return ([], 0)

/-- The calls made by `handle_x` after the first position (double_metaphone.rs:988-994). -/
def handleX' (value : Str) (index : Int) : Res (List DMAppend) := do
  if ← !? (okR (index = (byteLen value : Int) - 1) &?
      ((okR (index > 2) &? contains value (index - 3) 3 [c!"IAU", c!"EAU"]) |?
        (okR (index > 1) &? contains value (index - 2) 2 [c!"AU", c!"OU"]))) then
    return [.str c!"KS" none]
  else return []

/-- `handle_x` (double_metaphone.rs:983-1001). -/
def handleX (value : Str) (index : Int) : Res (List DMAppend × Nat) := do
  if index = 0 then return ([.char 'S' none], 0)
  else do
    let calls ← handleX' value index
    if ← contains value (index + 1) 1 [c!"C", c!"X"] then return (calls, 1) else return (calls, 0)

/-- The calls made by `handle_z` when no H follows (double_metaphone.rs:1014-1020). -/
def handleZ' (value : Str) (index : Int) (slavoGermanic : Bool) : Res (List DMAppend) := do
  if ← contains value (index + 1) 2 [c!"ZO", c!"ZI", c!"ZA"] |?
      (okR (slavoGermanic = true) &? okR (index > 0) &? !? (isAt value (index - 1) 'T')) then
    return [.str c!"S" (some c!"TS")]
  else return [.char 'S' none]

/-- `handle_z` (double_metaphone.rs:1003-1027). -/
def handleZ (value : Str) (index : Int) (slavoGermanic : Bool) : Res (List DMAppend × Nat) := do
  if ← isAt value (index + 1) 'H' then return ([.char 'J' none], 1)
  else do
    let calls ← handleZ' value index slavoGermanic
    if ← isAt value (index + 1) 'Z' then return (calls, 1) else return (calls, 0)

/-- A letter with a fixed code whose double is skipped, such as B (double_metaphone.rs:304-311). -/
def simple (value : Str) (index : Int) (ch code : Char) : Res (List DMAppend × Nat) := do
  if ← isAt value (index + 1) ch then return ([.char code none], 1)
  else return ([.char code none], 0)

/-- The `match ch` (double_metaphone.rs:297-382). -/
def handle (value : Str) (slavoGermanic : Bool) (index : Int) (ch : Char) :
    Res (List DMAppend × Nat) :=
  match ch with
  | 'A' | 'E' | 'I' | 'O' | 'U' | 'Y' =>
    .ok (if index = 0 then [.char 'A' none] else [], 0)
  | 'B' => simple value index 'B' 'P'
  | 'Ç' => .ok ([.char 'S' none], 0)
  | 'C' => handleC value index
  | 'D' => handleD value index
  | 'F' => simple value index 'F' 'F'
  | 'G' => handleG value index slavoGermanic
  | 'H' => handleH value index
  | 'J' => handleJ value index slavoGermanic
  | 'K' => simple value index 'K' 'K'
  | 'L' => handleL value index
  | 'M' => do
    if ← conditionM0 value index then return ([.char 'M' none], 1)
    else return ([.char 'M' none], 0)
  | 'N' => simple value index 'N' 'N'
  | 'Ñ' => .ok ([.char 'N' none], 0)
  | 'P' => handleP value index
  | 'Q' => simple value index 'Q' 'K'
  | 'R' => handleR value index slavoGermanic
  | 'S' => handleS value index slavoGermanic
  | 'T' => handleT value index
  | 'V' => simple value index 'V' 'F'
  | 'W' => handleW value index
  | 'X' => handleX value index
  | 'Z' => handleZ value index slavoGermanic
  | _ => .ok ([], 0)

/-- The `while` loop (double_metaphone.rs:293-389) on the remaining characters, the first of which is
at byte `index`; `skip` characters are still to be consumed by `iterator.nth(skip)`. -/
def loop (value : Str) (slavoGermanic : Bool) :
    (rest : Str) → (index : Nat) → (skip : Nat) → DMResult → Res DMResult
  | [], _, _, r => .ok r
  | c :: rest, index, skip + 1, r => loop value slavoGermanic rest (index + c.utf8Size) skip r
  | c :: rest, index, 0, r =>
    if r.isComplete then .ok r
    else do
      let (calls, skip) ← handle value slavoGermanic index c
      let r ← DMAppend.runAll r calls
      loop value slavoGermanic rest (index + c.utf8Size) skip r

/-- `SILENT_START` (double_metaphone.rs:26). -/
def silentStart : List Str := [c!"GN", c!"KN", c!"PN", c!"WR", c!"PS"]

/-- `double_metaphone` (double_metaphone.rs:276-391). -/
def doubleMetaphone (U : Unicode) (d : DoubleMetaphone) (value : Str) : Res DMResult := do
  let result ← DMResult.new d.maxCodeLength
  let value := U.trim value
  if value.isEmpty then return result
  else
    let value := U.strUpper value
    let skip := if silentStart.any (fun sl => sl.isPrefixOf value) then 1 else 0
    loop value (isSlavoGermanic value) value 0 skip result

/-- `Encoder::encode` (double_metaphone.rs:1040-1042). -/
def encode (U : Unicode) (d : DoubleMetaphone) (value : Str) : Res Str := do
  return (← doubleMetaphone U d value).primary

/-- `encode_alternate` (double_metaphone.rs:194-196). -/
def encodeAlternate (U : Unicode) (d : DoubleMetaphone) (value : Str) : Res Str := do
  return (← doubleMetaphone U d value).alternate

/-- `is_double_metaphone_equal` (double_metaphone.rs:208-216). -/
def isDoubleMetaphoneEqual (U : Unicode) (d : DoubleMetaphone) (value1 value2 : Str)
    (alternate : Bool) : Res Bool := do
  let result1 ← doubleMetaphone U d value1
  let result2 ← doubleMetaphone U d value2
  if alternate then return result1.alternate == result2.alternate
  else return result1.primary == result2.primary

end DoubleMetaphone

end Verif
