import Verif.Model.Lib
/-!
# Model of `src/soundex.rs` and `src/refined_soundex.rs`
-/

namespace Verif

/-- `[char; 26]` (soundex.rs:35, refined_soundex.rs:23). -/
abbrev Mapping := { l : Str // l.length = 26 }

/-- `DEFAULT_US_ENGLISH_MAPPING_SOUNDEX` (soundex.rs:35-38). -/
def defaultMapping : Mapping := ⟨c!"01230120022455012623010202", by decide⟩

/-- `DEFAULT_US_ENGLISH_GENEALOGY_MAPPING_SOUNDEX` (soundex.rs:51-54). -/
def genealogyMapping : Mapping := ⟨c!"-123-12--22455-12623-1-2-2", by decide⟩

/-- `has_silent_in_mapping` (soundex.rs:56-58). -/
def hasSilentInMapping (m : Mapping) : Bool := m.val.any (· == '-')

/-- `Soundex` (soundex.rs:75-78). -/
structure Soundex where
  mapping : Mapping
  specialCaseHW : Bool
deriving DecidableEq

/-- `self.mapping[ch as usize - 65]` (soundex.rs:100-102, refined_soundex.rs:60-62). -/
def getMappingCode (m : Mapping) (ch : Char) : Res Char := do
  let i ← usub ch.toNat 65
  match m.val[i]? with
  | some c => .ok c
  | none => .error .index

/-- `<[char; 26]>::try_from(Vec<char>)`: on failure the vector is handed back (refined_soundex.rs:90, 120). -/
def toArray26 (v : Str) : Except Str Mapping :=
  if h : v.length = 26 then .ok ⟨v, h⟩ else .error v

namespace Soundex

/-- `Soundex::new` (soundex.rs:93-98). -/
def new (mapping : Mapping) (specialCaseHW : Bool) : Soundex := { mapping, specialCaseHW }

/-- `Default for Soundex` (soundex.rs:108-115). -/
def default : Soundex := { mapping := defaultMapping, specialCaseHW := true }

/-- `From<[char; 26]>` (soundex.rs:117-125). -/
def ofMapping (mapping : Mapping) : Soundex :=
  { mapping, specialCaseHW := !hasSilentInMapping mapping }

/-- `FromStr::from_str` (soundex.rs:185-188); `TryFrom<&str>::try_from` (153-156) has the same
body. -/
def fromStr (mapping : Str) : Except Str Soundex :=
  match toArray26 mapping with
  | .ok m => .ok (ofMapping m)
  | .error e => .error e

/-- `TryFrom<&str>` (soundex.rs:153-156). -/
def tryFromStr (mapping : Str) : Except Str Soundex :=
  match toArray26 mapping with
  | .ok m => .ok (ofMapping m)
  | .error e => .error e

/-- `TryFrom<String>` (soundex.rs:217-219). -/
def tryFromString (mapping : Str) : Except Str Soundex := fromStr mapping

/-- The `while` loop of `encode` (soundex.rs:236-255); `rest` is what the iterator still holds,
`code` the four-element array. -/
def loop (sx : Soundex) : (rest : Str) → (count : Nat) → (previous : Char) → (code : Str) → Res Str
  | [], _, _, code => .ok code
  | ch :: rest, count, previous, code =>
    if count < 4 then
      if sx.specialCaseHW && (ch == 'H' || ch == 'W') then
        loop sx rest count previous code
      else do
        let digit ← getMappingCode sx.mapping ch
        if digit = '-' then
          loop sx rest count previous code
        else if digit ≠ '0' ∧ digit ≠ previous then
          loop sx rest (count + 1) digit (code.set count digit)
        else
          loop sx rest count digit code
    else .ok code

/-- `Soundex::encode` (soundex.rs:223-258). -/
def encode (U : Unicode) (sx : Soundex) (value : Str) : Res Str :=
  match soundexClean U value with
  | [] => .ok []
  | ch :: rest => do
    let code := (['0', '0', '0', '0'] : Str).set 0 ch
    let previous ← getMappingCode sx.mapping ch
    loop sx rest 1 previous code

end Soundex

/-- `RefinedSoundex` (refined_soundex.rs:41-43). -/
structure RefinedSoundex where
  mapping : Mapping
deriving DecidableEq

namespace RefinedSoundex

/-- `ENGLISH_MAPPING` (refined_soundex.rs:23-26). -/
def englishMapping : Mapping := ⟨c!"01360240043788015936020505", by decide⟩

/-- `RefinedSoundex::new` (refined_soundex.rs:56-58). -/
def new (mapping : Mapping) : RefinedSoundex := { mapping }

/-- `Default` (refined_soundex.rs:154-160). -/
def default : RefinedSoundex := { mapping := englishMapping }

/-- `FromStr` (refined_soundex.rs:89-92). -/
def fromStr (mapping : Str) : Except Str RefinedSoundex :=
  match toArray26 mapping with
  | .ok m => .ok { mapping := m }
  | .error e => .error e

/-- `TryFrom<&str>` (refined_soundex.rs:119-122). -/
def tryFromStr (mapping : Str) : Except Str RefinedSoundex :=
  match toArray26 mapping with
  | .ok m => .ok { mapping := m }
  | .error e => .error e

/-- `TryFrom<String>` (refined_soundex.rs:149-151). -/
def tryFromString (mapping : Str) : Except Str RefinedSoundex := fromStr mapping

/-- The `for` loop of `encode` (refined_soundex.rs:177-184). -/
def loop (m : Mapping) : Str → Option Char → Str → Res Str
  | [], _, code => .ok code
  | ch :: rest, previous, code => do
    let codeValue ← getMappingCode m ch
    if some codeValue ≠ previous then
      loop m rest (some codeValue) (code ++ [codeValue])
    else
      loop m rest (some codeValue) code

/-- `RefinedSoundex::encode` (refined_soundex.rs:163-187). -/
def encode (U : Unicode) (rs : RefinedSoundex) (value : Str) : Res Str :=
  match soundexClean U value with
  | [] => .ok []
  | ch :: rest => loop rs.mapping (ch :: rest) none [ch]

end RefinedSoundex

end Verif
