import Verif.Model.Lib
/-!
# Model of `src/nysiis.rs`
-/

namespace Verif

/-- `Vec` indexing `v[i]` (nysiis.rs:177-189). -/
def vget (v : List Char) (i : Nat) : Res Char :=
  match v[i]? with
  | some c => .ok c
  | none => .error .index

/-- `v[i] = c` (nysiis.rs:185). -/
def vset (v : List Char) (i : Nat) (c : Char) : Res (List Char) :=
  if i < v.length then .ok (v.set i c) else .error .index

/-- `Nysiis` (nysiis.rs:66-68). -/
structure Nysiis where
  strict : Bool
deriving DecidableEq

namespace Nysiis

/-- `Nysiis::new` (nysiis.rs:76-78). -/
def new (strict : Bool) : Nysiis := { strict }

/-- `Default` (nysiis.rs:123-127). -/
def default : Nysiis := { strict := true }

/-- `transcode` (nysiis.rs:80-120). -/
def transcode (previous current : Char) (next nextNext : Option Char) : Str :=
  if current = 'E' ∧ next = some 'V' then c!"AF"
  else if isVowel (some (asciiLower current)) false then c!"A"
  else if current = 'Q' then c!"G"
  else if current = 'Z' then c!"S"
  else if current = 'M' then c!"N"
  else if current = 'K' ∧ next = some 'N' then c!"NN"
  else if current = 'K' then c!"C"
  else if current = 'S' ∧ next = some 'C' ∧ nextNext = some 'H' then c!"SSS"
  else if current = 'P' ∧ next = some 'H' then c!"FF"
  else if (current = 'H' ∧ (¬ isVowel (some (asciiLower previous)) false ∨
        ¬ isVowel (next.map asciiLower) false)) ∨
      (current = 'W' ∧ isVowel (some (asciiLower previous)) false) then [previous]
  else [current]

/-- The first-characters rules (nysiis.rs:139-153). -/
def startRules (tmp : Str) : Str :=
  let tmp := replaceStart tmp c!"MAC" c!"MCC"
  let tmp := replaceStart tmp c!"KN" c!"NN"
  let tmp := replaceStart tmp c!"K" c!"C"
  let tmp := if startsWith tmp c!"PH" || startsWith tmp c!"PF" then c!"FF" ++ tmp.drop 2 else tmp
  replaceStart tmp c!"SCH" c!"SSS"

/-- The last-characters rules (nysiis.rs:155-165). -/
def endRules (tmp : Str) : Str :=
  let tmp :=
    if endsWith tmp c!"EE" || endsWith tmp c!"IE" then tmp.take (tmp.length - 2) ++ c!"Y" else tmp
  if endsWith tmp c!"DT" || endsWith tmp c!"RT" || endsWith tmp c!"RD" || endsWith tmp c!"NT" ||
      endsWith tmp c!"ND" then
    tmp.take (tmp.length - 2) ++ c!"D"
  else tmp

/-- `for (i, c) in transcode.chars().enumerate() { chars[index + i] = c; }` (nysiis.rs:184-186). -/
def writeAll (chars : List Char) (index : Nat) : Str → Res (List Char)
  | [] => .ok chars
  | c :: cs => do
    let chars ← vset chars index c
    writeAll chars (index + 1) cs

/-- The `while` loop (nysiis.rs:179-193); `n` is `len - index`, the number of iterations left. -/
def loop : (n : Nat) → (index : Nat) → (chars : List Char) → (key : Str) → Res Str
  | 0, _, _, key => .ok key
  | n + 1, index, chars, key => do
    let i1 ← usub index 1
    let next := chars[index + 1]?
    let nextNext := chars[index + 2]?
    let t := transcode (← vget chars i1) (← vget chars index) next nextNext
    let chars ← writeAll chars index t
    let a ← vget chars i1
    let b ← vget chars index
    loop n (index + 1) chars (if a ≠ b then key ++ [b] else key)

/-- The final rules on the key (nysiis.rs:195-214).  The slices of the code drop one or two ASCII
characters that the string is known to end with, hence are `dropLast`. -/
def finish (key : Str) : Str :=
  if byteLen key > 1 then
    let tmp := if endsWith key c!"S" then key.dropLast else key
    let tmp := if byteLen tmp > 2 && endsWith tmp c!"AY" then tmp.dropLast.dropLast ++ c!"Y" else tmp
    if endsWith tmp c!"A" then tmp.dropLast else tmp
  else key

/-- The key before the final rules (nysiis.rs:167-193), for a non-empty `tmp`. -/
def buildKey (tmp : Str) : Res Str := do
  let c0 ← vget tmp 0
  loop (tmp.length - 1) 1 tmp [c0]

/-- `Nysiis::encode` (nysiis.rs:132-222). -/
def encode (U : Unicode) (n : Nysiis) (value : Str) : Res Str :=
  let tmp := soundexClean U value
  if tmp.isEmpty then .ok tmp
  else do
    let key ← buildKey (endRules (startRules tmp))
    let result := finish key
    if n.strict then sliceTo result (min (byteLen result) 6) else return result

end Nysiis

end Verif
