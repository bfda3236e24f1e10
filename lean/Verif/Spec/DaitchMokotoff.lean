import Verif.Spec.Rules
/-!
# Specification of Daitch-Mokotoff Soundex
-/

namespace Verif.Spec

/-! ## Rule files -/

/-- An item of a Daitch-Mokotoff rule file. -/
inductive DMItem where
  /-- `"pattern" "start" "vowel" "other"`, with the blanks between the parts -/
  | rule (pattern b1 start b2 vowel b3 other : Str) (tail : Tail)
  /-- `a=b` -/
  | fold (a b : Char) (tail : Tail)
  /-- an empty line or a `//` comment -/
  | blank (tail : Tail)
  /-- `/* text */` -/
  | block (text : Str) (tail : Tail)

/-- The text of an item. -/
def DMItem.print : DMItem → Str
  | .rule p b1 s b2 v b3 o t =>
    quoted p ++ (b1 ++ (quoted s ++ (b2 ++ (quoted v ++ (b3 ++ (quoted o ++ t.print))))))
  | .fold a b t => a :: '=' :: b :: t.print
  | .blank t => t.print
  | .block text t => '/' :: '*' :: text ++ ('*' :: '/' :: t.print)

/-- The text of a file. -/
def dmPrint (items : List DMItem) : Str := items.flatMap DMItem.print

/-- A legal item followed by the text `rest`. -/
def DMItem.Legal (rest : Str) : DMItem → Prop
  | .rule p b1 s b2 v b3 o t => PartWF p ∧ BlanksWF b1 ∧ PartWF s ∧ BlanksWF b2 ∧ PartWF v ∧
      BlanksWF b3 ∧ PartWF o ∧ t.WF rest
  | .fold _ _ t => t.WF rest
  | .blank t => t.WF rest
  | .block text t => ¬ ['*', '/'] <:+: text ∧ t.WF rest

/-- An item that can be read in one way only: the pattern of a rule is not empty, a quote is not
folded, and an empty line has at least its line ending and is not followed by an equals sign (this
would be a folding of the newline). -/
def DMItem.Clear (rest : Str) : DMItem → Prop
  | .rule p _ _ _ _ _ _ _ => p ≠ []
  | .fold a _ _ => a ≠ '"'
  | .blank t => t.print ≠ [] ∧ ¬ (t.print = ['\n'] ∧ ['='] <+: rest)
  | .block _ _ => True

/-- A property of every item of a file, given the text that follows the item. -/
def EveryItem (P : Str → DMItem → Prop) (rest : Str) : List DMItem → Prop
  | [] => True
  | i :: items => P (dmPrint items ++ rest) i ∧ EveryItem P rest items

/-- Text that starts with no legal item. -/
def Unrecognised (bad : Str) : Prop :=
  bad ≠ [] ∧ ∀ (i : DMItem) (r : Str), i.Legal r → bad ≠ i.print ++ r

/-- No newline is quoted or folded. -/
def DMItem.OneLine : DMItem → Prop
  | .rule p _ s _ v _ o _ => '\n' ∉ p ∧ '\n' ∉ s ∧ '\n' ∉ v ∧ '\n' ∉ o
  | .fold a b _ => a ≠ '\n' ∧ b ≠ '\n'
  | .blank _ => True
  | .block _ _ => True

/-- The number of `/* */` comments. -/
def blockComments (items : List DMItem) : Nat :=
  items.countP fun
    | .block _ _ => true
    | _ => false

/-- The text up to the end of the line. -/
def firstLine (s : Str) : Str := s.takeWhile (· != '\n')

/-! ## Encoding -/

/-- A rule: a pattern and the alternatives at the start of a word, before a vowel and elsewhere. -/
structure DMSpecRule where
  pattern : Str
  atStart : List Str
  beforeVowel : List Str
  other : List Str
deriving DecidableEq

/-- The parts of a text separated by '|'. -/
def alternatives : Str → List Str
  | [] => [[]]
  | c :: cs =>
    match alternatives cs with
    | [] => []
    | a :: as => if c = '|' then [] :: a :: as else (c :: a) :: as

/-- The alternatives of the rules of a file are ASCII texts. -/
def AsciiAlternatives (items : List DMItem) : Prop :=
  ∀ p b1 s b2 v b3 o t, DMItem.rule p b1 s b2 v b3 o t ∈ items → AsciiStr s ∧ AsciiStr v ∧ AsciiStr o

/-- The rules of a file, in order. -/
def dmRules (items : List DMItem) : List DMSpecRule :=
  items.filterMap fun
    | .rule p _ s _ v _ o _ => some ⟨p, alternatives s, alternatives v, alternatives o⟩
    | _ => none

/-- The folding of a character: the last one given in the file. -/
def dmFold (items : List DMItem) (c : Char) : Option Char :=
  (items.filterMap fun
    | .fold a b _ => if a = c then some b else none
    | _ => none).getLast?

/-- The longest pattern (in bytes) among some rules. -/
def longest (rules : List DMSpecRule) : Nat := (rules.map fun r => byteLen r.pattern).foldl max 0

/-- The rule that applies at the start of a text: among the rules whose pattern starts the text, the
first of those with the longest pattern. -/
def bestRule (rules : List DMSpecRule) (text : Str) : Option DMSpecRule :=
  let candidates := rules.filter fun r => r.pattern.isPrefixOf text
  candidates.find? fun r => byteLen r.pattern == longest candidates

/-- The alternatives of a rule. The *byte* length of the pattern is used to find the next character.
(A NUL character counts as the start of the word.) -/
def alternativesAt (r : DMSpecRule) (prev : Option Char) (text : Str) : List Str :=
  if prev = none ∨ prev = some '\x00' then r.atStart
  else
    match text[byteLen r.pattern]? with
    | some c => if c!"aeiou".contains c then r.beforeVowel else r.other
    | none => r.other

/-- An M next to an N. -/
def mn (prev : Option Char) (c : Char) : Bool :=
  (prev == some 'm' && c == 'n') || (prev == some 'n' && c == 'm')

/-- The groups of a text from left to right: the alternatives of each group, and whether it is coded
even if it repeats the code before. `prev` is the previous group's first character; a character that
starts no pattern is ignored. `skip` characters belong to the previous group: as many as its pattern
has *bytes*, so that after a pattern with accented letters the next letters are skipped too. -/
def dmGroups (rules : List DMSpecRule) : (prev : Option Char) → (skip : Nat) → Str → List (List Str × Bool)
  | _, _, [] => []
  | prev, skip + 1, _ :: text => dmGroups rules prev skip text
  | prev, 0, c :: text =>
    if rules.all (fun r => r.pattern.head? != some c) then dmGroups rules prev 0 text
    else
      match bestRule rules (c :: text) with
      | none => dmGroups rules (some c) 0 text
      | some r => (alternativesAt r prev (c :: text), mn prev c) ::
          dmGroups rules (some c) (byteLen r.pattern - 1) text

/-- A code under construction: the code and the last alternative chosen. -/
structure Partial where
  code : Str
  last : Option Str
deriving DecidableEq

/-- Appends an alternative, unless it repeats the end of the last one. Six characters are kept. -/
def Partial.add (force : Bool) (p : Partial) (a : Str) : Partial :=
  let repeated := match p.last with
    | none => false
    | some l => a.isSuffixOf l
  { code := if repeated && !force then p.code else (p.code ++ a).take 6, last := some a }

/-- All ways to code the groups, in order, without repetition. -/
def dmPaths (groups : List (List Str × Bool)) : List Partial :=
  groups.foldl (fun ps g => (ps.flatMap fun p => g.1.map (p.add g.2)).eraseDups) [⟨[], none⟩]

/-- Padding with zeros. -/
def pad6 (s : Str) : Str := s ++ List.replicate (6 - s.length) '0'

/-- The codes of a normalised text. -/
def dmCodes (rules : List DMSpecRule) (text : Str) : List Str :=
  (dmPaths (dmGroups rules none 0 text)).map fun p => pad6 p.code

/-- The normalised text: no whitespace, lower case, folded if folding is on. -/
def dmNormalise (U : Unicode) (folding : Bool) (fold : Char → Option Char) (s : Str) : Str :=
  (s.filter fun c => !U.isWhitespace c).filterMap fun c =>
    (U.toLower c).head?.map fun l => if folding then (fold l).getD l else l

/-- Zeros can be used only as the first digit of all the alternatives. -/
def ZeroFirst (alts : List Str) : Prop :=
  (∀ a ∈ alts, '0' ∉ a) ∨ (∀ a ∈ alts, ∃ t, a = '0' :: t ∧ '0' ∉ t)

/-- A rule such that no code can be confused with a padded one: at most `k` alternatives, zeros only at
the start of a word. (The pattern does not start with the NUL character.) -/
def DMSpecRule.Tame (k : Nat) (r : DMSpecRule) : Prop :=
  (r.atStart.length ≤ k ∧ r.beforeVowel.length ≤ k ∧ r.other.length ≤ k) ∧ ZeroFirst r.atStart ∧
    (∀ a ∈ r.beforeVowel ++ r.other, '0' ∉ a) ∧ r.pattern.head? ≠ some '\x00'

/-! ## Encoding with any alternatives

The limit of six is a number of bytes. If the sixth byte is inside a character, the encoder panics. -/

/-- The first six bytes of a text, or all of a shorter text; nothing if the cut would be inside a
character. -/
def cut6 (s : Str) : Option Str :=
  if byteLen s ≤ 6 then some s
  else (List.range s.length).findSome? fun n => if byteLen (s.take n) = 6 then some (s.take n) else none

/-- `Partial.add` for any alternative. -/
def Partial.addAny (force : Bool) (p : Partial) (a : Str) : Option Partial :=
  let repeated := match p.last with
    | none => false
    | some l => a.isSuffixOf l
  if repeated && !force then some ⟨p.code, some a⟩
  else (cut6 (p.code ++ a)).map fun code => ⟨code, some a⟩

/-- All ways to code the groups, in order, without repetition, if no cut is inside a character. -/
def dmPathsAny : (groups : List (List Str × Bool)) → List Partial → Option (List Partial)
  | [], ps => some ps
  | g :: groups, ps =>
    match (ps.flatMap fun p => g.1.map (p.addAny g.2)).mapM id with
    | none => none
    | some next => dmPathsAny groups next.eraseDups

/-- The codes of groups: padded with zeros to six bytes. -/
def dmCodesAny (groups : List (List Str × Bool)) : Option (List Str) :=
  (dmPathsAny groups [⟨[], none⟩]).map fun ps =>
    ps.map fun p => p.code ++ List.replicate (6 - byteLen p.code) '0'

/-- The groups with their first alternative only. -/
def firstAlternatives (groups : List (List Str × Bool)) : List (List Str × Bool) :=
  groups.map fun g => (g.1.take 1, g.2)

/-! ## Codes as choices -/


/-- One alternative for each group, with the mark of the group (coded even if it repeats the code before). -/
inductive DMChoice : List (List Str × Bool) → List (Str × Bool) → Prop
  | nil : DMChoice [] []
  | cons {alts : List Str} {force : Bool} {a : Str} {groups : List (List Str × Bool)} {choice : List (Str × Bool)} :
      a ∈ alts → DMChoice groups choice → DMChoice ((alts, force) :: groups) ((a, force) :: choice)

/-- What is written for a choice: each alternative, unless it is the end of the one before; marked ones are always
written. -/
def written : (last : Option Str) → List (Str × Bool) → Str
  | _, [] => []
  | none, (a, _) :: choice => a ++ written (some a) choice
  | some l, (a, force) :: choice =>
    if force = true ∨ ¬ a <:+ l then a ++ written (some a) choice else written (some a) choice

end Verif.Spec
