import Verif.Model.RulesParser
/-!
# Model of `src/daitch_mokotoff.rs`
-/

namespace Verif

/-- `Branch` (daitch_mokotoff.rs:32-36). -/
structure Branch where
  builder : Str
  lastReplacement : Option Str
deriving DecidableEq, Repr

namespace Branch

/-- `MAX_LENGTH` (daitch_mokotoff.rs:30). -/
def maxLength : Nat := 6

/-- `Branch::default` (daitch_mokotoff.rs:38-45). -/
def default : Branch := { builder := [], lastReplacement := none }

/-- `Branch::finish` (daitch_mokotoff.rs:49-53): the builder padded with '0' up to 6 bytes. -/
def finish (b : Branch) : Str :=
  b.builder ++ List.replicate (maxLength - byteLen b.builder) '0'

/-- The buffer after `replacement` has been appended (daitch_mokotoff.rs:61-66). -/
def push (builder replacement : Str) : Res Str :=
  let appended := builder ++ replacement
  if byteLen appended > maxLength then sliceTo appended maxLength else .ok appended

/-- `Branch::process_next_replacement` (daitch_mokotoff.rs:55-69). -/
def processNextReplacement (b : Branch) (replacement : Str) (appendForce : Bool) : Res Branch :=
  let append := (match b.lastReplacement with
    | none => true
    | some v => !(endsWith v replacement)) || appendForce
  if append && decide (byteLen b.builder < maxLength) then do
    let builder ← push b.builder replacement
    return { builder, lastReplacement := some replacement }
  else .ok { b with lastReplacement := some replacement }

end Branch

/-- `Rule` (daitch_mokotoff.rs:72-78). -/
structure DMRule where
  pattern : Str
  atStart : List Str
  beforeVowel : List Str
  default : List Str
deriving DecidableEq, Repr

namespace DMRule

/-- `Rule::parse_branch` and `TryFrom` (daitch_mokotoff.rs:81-83 and 109-126). -/
def ofParts (parts : Str × Str × Str × Str) : DMRule :=
  { pattern := parts.1
    atStart := Parser.splitChar '|' parts.2.1
    beforeVowel := Parser.splitChar '|' parts.2.2.1
    default := Parser.splitChar '|' parts.2.2.2 }

/-- `Rule::matches` (daitch_mokotoff.rs:89-91). -/
def «matches» (r : DMRule) (context : Str) : Bool := r.pattern.isPrefixOf context

/-- `Rule::get_replacements` (daitch_mokotoff.rs:93-106): the next character is looked up with the
*byte* length of the pattern as a *character* index. -/
def getReplacements (r : DMRule) (context : Str) (atStart : Bool) : List Str :=
  if atStart then r.atStart
  else
    let nextIndex := byteLen r.pattern
    if nextIndex < byteLen context ∧ isVowel (context[nextIndex]?) false = true then r.beforeVowel
    else r.default

end DMRule

/-- `DaitchMokotoffSoundex` (daitch_mokotoff.rs:251-256). -/
structure DaitchMokotoff where
  asciiFolding : Bool
  rules : Assoc Char (List DMRule)
  foldingRules : Assoc Char Char
deriving DecidableEq

namespace DaitchMokotoff

/-- The mapping of a character in `inner_soundex` (daitch_mokotoff.rs:324-338). -/
def fold (U : Unicode) (d : DaitchMokotoff) (ch : Char) : Char :=
  match (U.toLower ch).head? with
  | none => ch
  | some lower => if d.asciiFolding then (d.foldingRules.get? lower).getD lower else lower

/-- `source` in `inner_soundex` (daitch_mokotoff.rs:321-339). -/
def clean (U : Unicode) (d : DaitchMokotoff) (value : Str) : Str :=
  (value.filter fun ch => !U.isWhitespace ch).map (fold U d)

/-- The innermost loop, over the replacements of a rule (daitch_mokotoff.rs:360-372). -/
def extendBranch (branching force : Bool) (branch : Branch) :
    (replacements : List Str) → (acc : List Branch) → Res (List Branch)
  | [], acc => .ok acc
  | r :: rs, acc => do
    let next ← branch.processNextReplacement r force
    let acc := if acc.contains next then acc else acc ++ [next]
    if branching then extendBranch branching force branch rs acc else return acc

/-- The loop over the branches (daitch_mokotoff.rs:359-373). -/
def extendBranches (branching force : Bool) (replacements : List Str) :
    (branches : List Branch) → (acc : List Branch) → Res (List Branch)
  | [], acc => .ok acc
  | b :: bs, acc => do
    let acc ← extendBranch branching force b replacements acc
    extendBranches branching force replacements bs acc

/-- The main loop (daitch_mokotoff.rs:345-389) on the remaining characters, of which `skip` are still
to be consumed by `iterator.nth`. -/
def loop (d : DaitchMokotoff) (branching : Bool) :
    (rest : Str) → (skip : Nat) → (lastChar : Char) → List Branch → Res (List Branch)
  | [], _, _, branches => .ok branches
  | _ :: rest, skip + 1, lastChar, branches => loop d branching rest skip lastChar branches
  | ch :: rest, 0, lastChar, branches =>
    match d.rules.get? ch with
    | none => loop d branching rest 0 lastChar branches
    | some rules =>
      match rules.find? (fun r => r.matches (ch :: rest)) with
      | none => loop d branching rest 0 ch branches
      | some rule => do
        let force := (lastChar == 'm' && ch == 'n') || (lastChar == 'n' && ch == 'm')
        let replacements := rule.getReplacements (ch :: rest) (lastChar == '\x00')
        let next ← extendBranches branching force replacements branches []
        loop d branching rest (byteLen rule.pattern - 1) ch next

/-- `inner_soundex` (daitch_mokotoff.rs:320-398). -/
def innerSoundex (U : Unicode) (d : DaitchMokotoff) (value : Str) (branching : Bool) :
    Res (List Str) := do
  let branches ← loop d branching (clean U d value) 0 '\x00' [Branch.default]
  return branches.map Branch.finish

/-- `soundex` (daitch_mokotoff.rs:284-286). -/
def soundex (U : Unicode) (d : DaitchMokotoff) (value : Str) : Res Str := do
  let codes ← innerSoundex U d value true
  return (codes.intersperse c!"|").flatten

/-- `Encoder::encode` (daitch_mokotoff.rs:420-425). -/
def encode (U : Unicode) (d : DaitchMokotoff) (value : Str) : Res Str := do
  let codes ← innerSoundex U d value false
  return codes.head?.getD []

/-- Inserts a rule into a list sorted by decreasing pattern length, after the rules of the same
length (daitch_mokotoff.rs:519-521, the stable sort). -/
def insertRule (r : DMRule) : List DMRule → List DMRule
  | [] => [r]
  | x :: xs =>
    if byteLen x.pattern ≥ byteLen r.pattern then x :: insertRule r xs else r :: x :: xs

/-- `sort_by` by decreasing pattern length (daitch_mokotoff.rs:519-521).  The standard library's sort
is stable, so it returns the same list as this insertion sort. -/
def sortRules (l : List DMRule) : List DMRule := l.foldl (fun acc r => insertRule r acc) []

/-- `rules.entry(ch).or_default().push(rule)` (daitch_mokotoff.rs:484). -/
def addRule (rules : Assoc Char (List DMRule)) (ch : Char) (rule : DMRule) :
    Assoc Char (List DMRule) := rules.insert ch ((rules.get? ch).getD [] ++ [rule])

/-- The loop of `build` (daitch_mokotoff.rs:474-516).  `fuel` bounds the number of iterations; running
out of it would be divergence (see `dm_build_terminates`). -/
def buildLoop : (fuel : Nat) → (remains : Str) → (lineNumber : Nat) → Assoc Char (List DMRule) →
    Assoc Char Char → Res (Except ParseError (Assoc Char (List DMRule) × Assoc Char Char))
  | 0, _, _, _, _ => .error .diverge
  | fuel + 1, remains, lineNumber, rules, foldings =>
    if remains.isEmpty then .ok (.ok (rules, foldings))
    else
      let lineNumber := lineNumber + 1
      match Parser.quadruplet remains with
      | some (q, rm) =>
        let rule := DMRule.ofParts q
        match rule.pattern with
        | [] => .error .unwrap
        | ch :: _ => buildLoop fuel rm lineNumber (addRule rules ch rule) foldings
      | none =>
        match Parser.folding remains with
        | some ((a, b), rm) => buildLoop fuel rm lineNumber rules (foldings.insert a b)
        | none =>
          match Parser.endOfLine remains with
          | some (_, rm) => buildLoop fuel rm lineNumber rules foldings
          | none =>
            match Parser.multilineComment remains with
            | some (ln, rm) => buildLoop fuel rm (lineNumber + ln) rules foldings
            | none => .ok (.error (buildError lineNumber none remains c!"Can't recognize line"))

/-- `DaitchMokotoffSoundexBuilder` (daitch_mokotoff.rs:429-433). -/
structure Builder where
  rules : Str
  asciiFolding : Bool

/-- `DaitchMokotoffSoundexBuilder::with_rules` (daitch_mokotoff.rs:450-455). -/
def Builder.withRules (rules : Str) : Builder := { rules, asciiFolding := true }

/-- `DaitchMokotoffSoundexBuilder::ascii_folding` (daitch_mokotoff.rs:458-462). -/
def Builder.setAsciiFolding (b : Builder) (asciiFolding : Bool) : Builder := { b with asciiFolding }

/-- `DaitchMokotoffSoundexBuilder::build` (daitch_mokotoff.rs:469-528). -/
def Builder.build (b : Builder) : Res (Except ParseError DaitchMokotoff) := do
  match ← buildLoop (b.rules.length + 1) b.rules 0 [] [] with
  | .error e => return .error e
  | .ok (rules, foldings) =>
    return .ok
      { asciiFolding := b.asciiFolding
        rules := rules.map fun p => (p.1, sortRules p.2)
        foldingRules := foldings }

end DaitchMokotoff

end Verif
