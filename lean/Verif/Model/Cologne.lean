import Verif.Model.Lib
/-!
# Model of `src/cologne.rs`
-/

namespace Verif.Cologne

/-- `CologneOutput` (cologne.rs:32-35). -/
structure Output where
  lastChar : Char
  buffer : Str
deriving DecidableEq, Repr

/-- `CologneOutput::with_capacity` (cologne.rs:38-43). -/
def Output.init : Output := { lastChar := '/', buffer := [] }

/-- `CologneOutput::push` (cologne.rs:45-51). -/
def Output.push (o : Output) (ch : Char) : Output :=
  if ch ≠ '-' ∧ o.lastChar ≠ ch ∧ (ch ≠ '0' ∨ o.buffer = []) then
    { lastChar := ch, buffer := o.buffer ++ [ch] }
  else { o with lastChar := ch }

/-- `AEIJOUY` (cologne.rs:22). -/
def AEIJOUY : List Char := ['A', 'E', 'I', 'J', 'O', 'U', 'Y']
/-- `CSZ` (cologne.rs:23). -/
def CSZ : List Char := ['C', 'S', 'Z']
/-- `FPVW` (cologne.rs:24). -/
def FPVW : List Char := ['F', 'P', 'V', 'W']
/-- `GKQ` (cologne.rs:25). -/
def GKQ : List Char := ['G', 'K', 'Q']
/-- `CKQ` (cologne.rs:26). -/
def CKQ : List Char := ['C', 'K', 'Q']
/-- `AHKLOQRUX` (cologne.rs:27). -/
def AHKLOQRUX : List Char := ['A', 'H', 'K', 'L', 'O', 'Q', 'R', 'U', 'X']
/-- `SZ` (cologne.rs:28). -/
def SZ : List Char := ['S', 'Z']
/-- `AHKOQUX` (cologne.rs:29). -/
def AHKOQUX : List Char := ['A', 'H', 'K', 'O', 'Q', 'U', 'X']
/-- `DTX` (cologne.rs:30). -/
def DTX : List Char := ['D', 'T', 'X']

/-- The body of the loop for a letter `ch` (cologne.rs:89-125): the pushes. -/
def step (output : Output) (lastChar ch nextChar : Char) : Output :=
  if AEIJOUY.contains ch then output.push '0'
  else if ch == 'B' || (ch == 'P' && nextChar != 'H') then output.push '1'
  else if (ch == 'D' || ch == 'T') && !CSZ.contains nextChar then output.push '2'
  else if FPVW.contains ch then output.push '3'
  else if GKQ.contains ch then output.push '4'
  else if ch == 'X' && !CKQ.contains lastChar then (output.push '4').push '8'
  else if ch == 'S' || ch == 'Z' then output.push '8'
  else if ch == 'C' then
    if output.buffer.isEmpty then
      if AHKLOQRUX.contains nextChar then output.push '4' else output.push '8'
    else if SZ.contains lastChar || !AHKOQUX.contains nextChar then output.push '8'
    else output.push '4'
  else if DTX.contains ch then output.push '8'
  else if ch == 'R' then output.push '7'
  else if ch == 'L' then output.push '5'
  else if ch == 'M' || ch == 'N' then output.push '6'
  else if ch == 'H' then output.push '-'
  else output

/-- The `while let` loop (cologne.rs:82-128); `peek` is the head of the rest. -/
def loop : Str → Char → Output → Output
  | [], _, output => output
  | ch :: rest, lastChar, output =>
    if !isAsciiUpper ch then loop rest lastChar output
    else
      let nextChar := rest.head?.getD '-'
      loop rest ch (step output lastChar ch nextChar)

/-- Upper-casing and umlaut transcription (cologne.rs:73-76). -/
def prepare (U : Unicode) (s : Str) : Str :=
  let tmp := U.strUpper s
  let tmp := replaceAll tmp ['Ä'] ['A']
  let tmp := replaceAll tmp ['Ü'] ['U']
  replaceAll tmp ['Ö'] ['O']

/-- `Cologne::encode` (cologne.rs:69-131). The function has no panicking operation. -/
def encode (U : Unicode) (s : Str) : Str := (loop (prepare U s) '-' Output.init).buffer

end Verif.Cologne
