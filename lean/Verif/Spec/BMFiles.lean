import Verif.Spec.Rules
import Verif.Spec.BMLanguages
import Verif.Spec.BMEngine
/-!
# The Beider-Morse configuration files

What the files look like and what they mean, independent of the parsers.
-/

namespace Verif.Spec
open BM

/-- `items` are read from the text `s`, one after the other, and `rest` remains.  `reads s i r` says that
the text `s` consists of the item `i` followed by `r`. -/
inductive Reading {ι : Type} (reads : Str → ι → Str → Prop) : Str → List ι → Str → Prop
  | nil (s : Str) : Reading reads s [] s
  | cons {s r t : Str} {i : ι} {items : List ι} : s ≠ [] → reads s i r → Reading reads r items t →
      Reading reads s (i :: items) t

/-- No item can be read. -/
def Stuck {ι : Type} (reads : Str → ι → Str → Prop) (s : Str) : Prop := s ≠ [] ∧ ∀ i r, ¬ reads s i r

/-- Lines without content: empty or `//` comment, or a `/* */` comment. -/
inductive Filler where
  | blank (tail : Tail)
  | block (text : Str) (tail : Tail)

def Filler.print : Filler → Str
  | .blank t => t.print
  | .block text t => '/' :: '*' :: text ++ ('*' :: '/' :: t.print)

def Filler.Legal (rest : Str) : Filler → Prop
  | .blank t => t.WF rest
  | .block text t => ¬ ['*', '/'] <:+: text ∧ t.WF rest

/-- The text `s` is the filler `f` followed by `r`. -/
def Filler.Reads (s : Str) (f : Filler) (r : Str) : Prop := s = f.print ++ r ∧ f.Legal r

/-- The number of lines it takes. -/
def Filler.lines : Filler → Nat
  | .blank _ => 1
  | .block text _ => newlines text + 1

/-! ## The list of languages -/

/-- An item of `xxx_languages.txt`. -/
inductive ListItem where
  | filler (f : Filler)
  | language (name : Str) (tail : Tail)

def ListItem.Reads (s : Str) (i : ListItem) (r : Str) : Prop :=
  match i with
  | .filler f => f.Reads s r
  | .language l t => s = l ++ t.print ++ r ∧ l ≠ [] ∧ (∀ c ∈ l, isAsciiAlpha c = true) ∧ t.WF r

def ListItem.lines : ListItem → Nat
  | .filler f => f.lines
  | .language _ _ => 1

/-! ## The rules that guess languages -/

/-- An item of `xxx_lang.txt`: `pattern languages true|false`. -/
inductive LangItem where
  | filler (f : Filler)
  | rule (pattern languages : Str) (accept : Bool) (tail : Tail)

/-- A line is a rule only if it is neither empty nor a comment. -/
def LangItem.Reads (s : Str) (i : LangItem) (r : Str) : Prop :=
  match i with
  | .filler f => f.Reads s r
  | .rule p l a t =>
    s = p ++ ' ' :: (l ++ ' ' :: ((if a then c!"true" else c!"false") ++ t.print)) ++ r ∧
      p ≠ [] ∧ ' ' ∉ p ∧ l ≠ [] ∧ ' ' ∉ l ∧ t.WF r ∧ ∀ f r', ¬ Filler.Reads s f r'

def LangItem.lines : LangItem → Nat
  | .filler f => f.lines
  | .rule _ _ _ _ => 1

/-- The rules of a file that starts after `ln` lines: pattern, languages (separated by '+'), whether a match
keeps or removes them, and the number of the line. -/
def langRules (ln : Nat) : List LangItem → List (Str × List Str × Bool × Nat)
  | [] => []
  | .filler f :: items => langRules (ln + f.lines) items
  | .rule p l a _ :: items => (p, splitOnChar '+' l, a, ln + 1) :: langRules (ln + 1) items

/-- A parsed rule is the rule of the file: its languages are a set. -/
def IsLangRule (x : Str × List Str × Bool × Nat) (r : LangRule) : Prop :=
  r.pattern = x.1 ∧ StrSetWF r.languages ∧ (∀ l, l ∈ r.languages ↔ l ∈ x.2.1) ∧ r.acceptOnMatch = x.2.2.1 ∧
    r.lineNumber = x.2.2.2

/-! ## The rules -/

/-- An item of a rule file. -/
inductive RuleItem where
  | filler (f : Filler)
  /-- `"pattern" "left context" "right context" "phonemes"` -/
  | rule (pattern b1 left b2 right b3 phonemes : Str) (tail : Tail)
  /-- `#include name` -/
  | directive (name : Str) (tail : Tail)

def RuleItem.Reads (U : Unicode) (s : Str) (i : RuleItem) (r : Str) : Prop :=
  match i with
  | .filler f => f.Reads s r
  | .rule p b1 l b2 rc b3 ph t =>
    s = quoted p ++ (b1 ++ (quoted l ++ (b2 ++ (quoted rc ++ (b3 ++ (quoted ph ++ t.print)))))) ++ r ∧
      PartWF p ∧ BlanksWF b1 ∧ PartWF l ∧ BlanksWF b2 ∧ PartWF rc ∧ BlanksWF b3 ∧ PartWF ph ∧ t.WF r
  | .directive name t =>
    s = c!"#include " ++ name ++ t.print ++ r ∧ name ≠ [] ∧
      (∀ c ∈ name, (U.isAlphanumeric c || c == '-' || c == '_') = true) ∧ t.WF r

def RuleItem.lines : RuleItem → Nat
  | .filler f => f.lines
  | _ => 1

/-- A phoneme: a text, for any language; or a text and the languages it is for, in brackets and separated by '+'. -/
def PhonemeReads (t : Str) (p : Phoneme) : Prop :=
  ('[' ∉ t ∧ p = ⟨t, .any⟩) ∨
  ∃ text ls S, t = text ++ '[' :: (ls ++ [']']) ∧ '[' ∉ text ∧ p = ⟨text, .someLanguages S⟩ ∧ StrSetWF S ∧
    ∀ l, l ∈ S ↔ l ∈ splitOnChar '+' ls

/-- The alternatives of a rule: one phoneme, or phonemes in parentheses, separated by bars.  A bar at the start or
at the end (that is, an empty first or last alternative) adds one more empty alternative. -/
def ExprReads (e : Str) (ps : List Phoneme) : Prop :=
  (e.head? ≠ some '(' ∧ ∃ p, ps = [p] ∧ PhonemeReads e p) ∨
  ∃ (parts : List Str) (alternatives : List Phoneme), parts ≠ [] ∧ (∀ t ∈ parts, '|' ∉ t) ∧
    e = '(' :: (bars parts ++ [')']) ∧ alternatives.length = parts.length ∧
    (∀ x ∈ parts.zip alternatives, PhonemeReads x.1 x.2) ∧
    ps = alternatives ++
      if 1 < parts.length ∧ (parts.head? = some [] ∨ parts.getLast? = some []) then [⟨[], .any⟩] else []

/-- The compiled context of an expression: the optimised form if there is one, or else the expression, which must be
valid. -/
def ContextReads (R : RegexEngine) (text : Str) (c : Context) : Prop :=
  (∃ o, OptimizedRegex.ofStr text = .ok (some o) ∧ c = .optimized o) ∨
  (OptimizedRegex.ofStr text = .ok none ∧ R.error text = none ∧ c = .regex text)

/-- The rule `r` is what the parts of the line number `line` of a file mean: the left context ends, and the right
context starts, at the pattern. -/
structure IsRule (R : RegexEngine) (file : Str) (line : Nat) (pattern left right phonemes : Str) (r : Rule) : Prop where
  hasLocation : r.location = file
  hasLine : r.line = line
  hasPattern : r.pattern = pattern
  hasLength : r.patternLengthChar = pattern.length
  hasLeft : ContextReads R (left ++ c!"$") r.leftContext
  hasRight : ContextReads R (c!"^" ++ right) r.rightContext
  hasPhonemes : ExprReads phonemes r.phoneme

/-- The rules for each first letter, in order. -/
abbrev RuleTable := Char → List Rule

/-- The items of a file, after `ln` lines, turn the rules `acc` into `out`.  `included` gives the rules of included
files: for the letters for which there are any, these *replace* the rules so far. -/
def Collects (R : RegexEngine) (included : Str → RuleTable → Prop) (file : Str) :
    (ln : Nat) → List RuleItem → (acc out : RuleTable) → Prop
  | _, [], acc, out => out = acc
  | ln, .filler f :: items, acc, out => Collects R included file (ln + f.lines) items acc out
  | ln, .rule p _ l _ rc _ ph _ :: items, acc, out => ∃ c r, p.head? = some c ∧ IsRule R file (ln + 1) p l rc ph r ∧
      Collects R included file (ln + 1) items (fun x => if x = c then acc x ++ [r] else acc x) out
  | ln, .directive name _ :: items, acc, out => ∃ t, included name t ∧
      Collects R included file (ln + 1) items (fun x => if t x = [] then acc x else t x) out

/-- The rules of a file, with includes nested less than `depth` deep. -/
def FileRules (U : Unicode) (R : RegexEngine) (resolver : Resolver) : (depth : Nat) → Str → RuleTable → Prop
  | 0, _, _ => False
  | depth + 1, file, out => ∃ content items, resolver file = .ok content ∧
      Reading (RuleItem.Reads U) content items [] ∧
      Collects R (FileRules U R resolver depth) file 0 items (fun _ => []) out

/-- The file has an item, before the first line that cannot be read. -/
def HasItem (U : Unicode) (resolver : Resolver) (file : Str) (i : RuleItem) : Prop :=
  ∃ content items rest, resolver file = .ok content ∧ Reading (RuleItem.Reads U) content items rest ∧ i ∈ items

/-- The file includes another one. -/
def Includes (U : Unicode) (resolver : Resolver) (file name : Str) : Prop :=
  ∃ tail, HasItem U resolver file (.directive name tail)

/-- The file has a rule with an empty pattern. -/
def HasEmptyPattern (U : Unicode) (resolver : Resolver) (file : Str) : Prop :=
  ∃ b1 l b2 rc b3 ph tail, HasItem U resolver file (.rule [] b1 l b2 rc b3 ph tail)

/-- Where a file goes on after an item: the lines read so far. -/
def linesOf {ι : Type} (lines : ι → Nat) (items : List ι) : Nat := (items.map lines).sum

end Verif.Spec
