import Verif.Model.Lib
/-!
# Model of `src/rules_parser.rs`

A `nom` parser over `&str` is a function from the input to an optional pair of output and remaining
input; `none` is `Err`.  The combinators are modelled by their documented behaviour (the `complete`
variants of nom 8).
-/

namespace Verif

/-- `impl nom::Parser<&str, Output = α>` (rules_parser.rs:18 and the other signatures). -/
def Parser (α : Type) : Type := Str → Option (α × Str)

namespace Parser

/-- Sequences of parsers: tuples and `map` of `nom` (rules_parser.rs:21-22, 83-88). -/
instance : Monad Parser where
  pure a := fun s => some (a, s)
  bind p f := fun s => (p s).bind fun r => f r.1 r.2

/-- `nom::bytes::complete::tag` (rules_parser.rs:21, 38, 64). -/
def tag (t : Str) : Parser Str := fun s => if t.isPrefixOf s then some (t, s.drop t.length) else none

/-- `nom::character::complete::char` (rules_parser.rs:72, 94, 102). -/
def char (c : Char) : Parser Char
  | [] => none
  | x :: rest => if x = c then some (c, rest) else none

/-- `nom::character::complete::anychar` (rules_parser.rs:94). -/
def anychar : Parser Char
  | [] => none
  | x :: rest => some (x, rest)

/-- `nom::combinator::eof` (rules_parser.rs:64). -/
def eof : Parser Str
  | [] => some ([], [])
  | _ :: _ => none

/-- `nom::bytes::complete::take_while1` (rules_parser.rs:114; `take_till1` at 102-103 is its negation). -/
def takeWhile1 (p : Char → Bool) : Parser Str := fun s =>
  if s.takeWhile p = [] then none else some (s.takeWhile p, s.dropWhile p)

/-- `nom::bytes::complete::take_until`: the text before the first occurrence of `t`, which is left in
the remaining input (rules_parser.rs:21, 72). -/
def takeUntil (t : Str) : Parser Str
  | [] => if t.isEmpty then some ([], []) else none
  | c :: rest =>
    if t.isPrefixOf (c :: rest) then some ([], c :: rest)
    else (takeUntil t rest).map fun r => (c :: r.1, r.2)

/-- `nom::combinator::opt` (rules_parser.rs:38, 63). -/
def opt {α : Type} (p : Parser α) : Parser (Option α) := fun s =>
  match p s with
  | some (a, r) => some (some a, r)
  | none => some (none, s)

/-- `nom::branch::alt` on two parsers (rules_parser.rs:64, 72, 104). -/
def orElse {α : Type} (p q : Parser α) : Parser α := fun s =>
  match p s with
  | some r => some r
  | none => q s

/-- `nom::sequence::terminated` (rules_parser.rs:19, 62, 84-87). -/
def terminated {α β : Type} (p : Parser α) (q : Parser β) : Parser α := do
  let a ← p
  let _ ← q
  return a

/-- `nom::character::complete::space1`: spaces and tabs (rules_parser.rs:63, 84-86). -/
def space1 : Parser Str := takeWhile1 fun c => c == ' ' || c == '\t'

/-- `nom::character::complete::crlf` (rules_parser.rs:64). -/
def crlf : Parser Str := tag ['\r', '\n']

/-- `eol_comment` (rules_parser.rs:34-39). -/
def eolComment : Parser Unit := do
  let _ ← tag ['/', '/']
  let _ ← opt (takeWhile1 fun c => c != '\n')
  return ()

/-- `end_of_line` (rules_parser.rs:58-66); the output is discarded everywhere. -/
def endOfLine : Parser Unit := do
  let _ ← opt space1
  let _ ← opt eolComment
  let _ ← orElse eof (orElse (tag ['\n']) crlf)
  return ()

/-- `str::split(c)` for a character (rules_parser.rs:22, daitch_mokotoff.rs:82). -/
def splitChar (c : Char) : Str → List Str
  | [] => [[]]
  | x :: xs =>
    if x = c then [] :: splitChar c xs
    else match splitChar c xs with
      | [] => [[x]]
      | h :: t => (x :: h) :: t

/-- `multiline_comment` (rules_parser.rs:17-27). -/
def multilineComment : Parser Nat :=
  terminated (do
    let _ ← tag ['/', '*']
    let comment ← takeUntil ['*', '/']
    let _ ← tag ['*', '/']
    return (splitChar '\n' comment).length) endOfLine

/-- `part` (rules_parser.rs:69-73). -/
def part : Parser Str := do
  let _ ← char '"'
  let s ← orElse (tag ['\\', '"']) (takeUntil ['"'])
  let _ ← char '"'
  return s

/-- `quadruplet` (rules_parser.rs:78-89). -/
def quadruplet : Parser (Str × Str × Str × Str) := do
  let a ← terminated part space1
  let b ← terminated part space1
  let c ← terminated part space1
  let d ← terminated part endOfLine
  return (a, b, c, d)

/-- `folding` (rules_parser.rs:92-95). -/
def folding : Parser (Char × Char) :=
  terminated (do
    let a ← anychar
    let _ ← char '='
    let b ← anychar
    return (a, b)) endOfLine

/-- `boolean_true`, `boolean_false` (rules_parser.rs:42-51). -/
def boolean : Parser Bool :=
  orElse (do let _ ← tag c!"true"; return true) (do let _ ← tag c!"false"; return false)

/-- `lang` (rules_parser.rs:98-106). -/
def lang : Parser (Str × Str × Bool) := do
  let a ← terminated (takeWhile1 fun c => c != ' ') (char ' ')
  let b ← terminated (takeWhile1 fun c => c != ' ') (char ' ')
  let c ← terminated boolean endOfLine
  return (a, b, c)

/-- `include` (rules_parser.rs:109-118). -/
def includeDirective (U : Unicode) : Parser Str :=
  terminated (do
    let _ ← tag c!"#include "
    takeWhile1 fun c => U.isAlphanumeric c || c == '-' || c == '_') endOfLine

/-- `language` (rules_parser.rs:121-124); `alpha1` accepts ASCII letters. -/
def language : Parser Str := terminated (takeWhile1 isAsciiAlpha) endOfLine

end Parser

/-- A `BTreeMap<K, V>` as an association list.  The crate only uses `get`, `insert` and `entry`, so
the order of the keys is not represented (daitch_mokotoff.rs:254-255, 470-471). -/
abbrev Assoc (κ β : Type) := List (κ × β)

/-- `BTreeMap::get` (daitch_mokotoff.rs:320-360). -/
def Assoc.get? {κ β : Type} [BEq κ] (m : Assoc κ β) (k : κ) : Option β := m.lookup k

/-- `BTreeMap::insert` (daitch_mokotoff.rs:470-515). -/
def Assoc.insert {κ β : Type} [BEq κ] (m : Assoc κ β) (k : κ) (v : β) : Assoc κ β :=
  (k, v) :: m.filter fun p => !(p.1 == k)

end Verif
