import Verif.Basic
/-!
# Model of `src/beider_morse/regex_optim.rs`, and the `regex` crate as a parameter
-/

namespace Verif
namespace BM

/-- The `regex` crate: `Regex::new` fails with a message or succeeds, and `is_match` is a function of
the pattern and the input (beider_morse/rule.rs:237-244, lang.rs:124, 32; the crate is a parameter). -/
structure RegexEngine where
  /-- `None` if the pattern is valid, or else the message of the error -/
  error : Str → Option Str
  /-- `Regex::new(pattern).unwrap().is_match(input)` -/
  isMatch : Str → Str → Bool

/-- `OptimizedRegex` (regex_optim.rs:8-18). -/
inductive OptimizedRegex where
  | allStrings
  | equals (s : Str)
  | isEmpty
  | startsWith (s : Str)
  | endsWith (s : Str)
  | equalsChar (chars : Str) (shouldMatch : Bool)
  | startsWithChar (chars : Str) (shouldMatch : Bool)
  | endsWithChar (chars : Str) (shouldMatch : Bool)
deriving DecidableEq, Repr

namespace OptimizedRegex

/-- `Display` (regex_optim.rs:20-52). -/
def display : OptimizedRegex → Str
  | allStrings => c!"\"\""
  | isEmpty => c!"\"^$\""
  | equals p => '"' :: p ++ c!"\""
  | startsWith p => c!"\"^" ++ p ++ c!"\""
  | endsWith p => '"' :: p ++ c!"$\""
  | equalsChar p m => c!"\"^[" ++ (if m then [] else c!"^") ++ p ++ c!"]$\""
  | startsWithChar p m => c!"\"^[" ++ (if m then [] else c!"^") ++ p ++ c!"]\""
  | endsWithChar p m => c!"\"[" ++ (if m then [] else c!"^") ++ p ++ c!"]$\""

/-- `is_match` (regex_optim.rs:56-93). -/
def isMatch (self : OptimizedRegex) (input : Str) : Bool :=
  match self with
  | allStrings => true
  | isEmpty => input.isEmpty
  | equals pattern => pattern == input
  | startsWith p => if byteLen p > byteLen input then false else Verif.startsWith input p
  | endsWith p => if byteLen p > byteLen input then false else Verif.endsWith input p
  | equalsChar chars shouldMatch =>
    match input with
    | [] => false
    | ch :: rest => rest.head?.isNone && (chars.contains ch == shouldMatch)
  | startsWithChar chars shouldMatch =>
    match input.head? with
    | none => false
    | some ch => chars.contains ch == shouldMatch
  | endsWithChar chars shouldMatch =>
    match input.getLast? with
    | none => false
    | some ch => chars.contains ch == shouldMatch

/-- The text between the anchors (regex_optim.rs:102-108).  A text that starts with '^' and ends with
'$' has at least two bytes, so the slices are in bounds. -/
def content (regex : Str) (startsWith endsWith : Bool) : Res Str :=
  match startsWith, endsWith with
  | false, false => .ok regex
  | true, false => sliceFrom regex 1
  | false, true => do
    let n ← usub (byteLen regex) 1
    sliceTo regex n
  | true, true => do
    let n ← usub (byteLen regex) 1
    slice regex 1 n

/-- `FromStr` (regex_optim.rs:96-159); `none` is `Err(())`. -/
def ofStr (regex : Str) : Res (Option OptimizedRegex) := do
  let sw := Verif.startsWith regex c!"^"
  let ew := Verif.endsWith regex c!"$"
  let content ← content regex sw ew
  let boxes := regex.contains '['
  if !boxes then
    if sw && ew then
      if content.isEmpty then return some isEmpty else return some (equals content)
    else if (sw || ew) && content.isEmpty then return some allStrings
    else if sw then return some (startsWith content)
    else if ew then return some (endsWith content)
    else return none
  else
    if Verif.startsWith content c!"[" && Verif.endsWith content c!"]" then
      let n ← usub (byteLen content) 1
      let inner ← slice content 1 n
      if !inner.contains '[' then
        let negate := Verif.startsWith inner c!"^"
        let chars ← if negate then sliceFrom inner 1 else .ok inner
        if sw && ew then return some (equalsChar chars (!negate))
        else if sw then return some (startsWithChar chars (!negate))
        else if ew then return some (endsWithChar chars (!negate))
        else return none
      else return none
    else return none

end OptimizedRegex

/-- `Either<Regex, OptimizedRegex>`: a compiled `Regex` is represented by its pattern
(beider_morse/rule.rs:361-364, mod.rs:77-84). -/
inductive Context where
  | regex (pattern : Str)
  | optimized (o : OptimizedRegex)
deriving DecidableEq, Repr

/-- `IsMatch for Either<Regex, OptimizedRegex>` (mod.rs:77-84). -/
def Context.isMatch (R : RegexEngine) (c : Context) (input : Str) : Bool :=
  match c with
  | regex pattern => R.isMatch pattern input
  | optimized o => o.isMatch input

end BM
end Verif
