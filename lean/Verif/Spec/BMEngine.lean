import Verif.Model.BMRule
/-!
# Specification of the Beider-Morse encoding of one text

The text is cut into segments from left to right; every segment that a rule covers offers alternative
phonemes.  The encoding is the sorted set of the combinations of alternatives whose languages are
compatible, cut to the maximum after each segment.
-/

namespace Verif.Spec
open BM

/-- A rule applies at a position if its pattern is there, its right context matches what follows the
pattern, and its left context matches what precedes the position. -/
def ruleApplies (R : RegexEngine) (before after : Str) (r : Rule) : Bool :=
  r.pattern.isPrefixOf after && r.rightContext.isMatch R (after.drop r.pattern.length) &&
    r.leftContext.isMatch R before

/-- A segment of a text: the alternatives of the rule that covers it, or a letter that no rule covers. -/
inductive Segment where
  | rule (alternatives : List Phoneme)
  | letter (c : Char)

/-- The segments of a text, from left to right.  At each position the *first* of the rules for the letter
there that applies is used, and covers its whole pattern.  `before` is the text already read, of which the
next `skip` letters are covered already. -/
def segments (R : RegexEngine) (rules : Char → List Rule) : (before : Str) → (skip : Nat) → Str → List Segment
  | _, _, [] => []
  | before, skip + 1, c :: text => segments R rules (before ++ [c]) skip text
  | before, 0, c :: text =>
    match (rules c).find? (ruleApplies R before (c :: text)) with
    | some r => .rule r.phoneme :: segments R rules (before ++ [c]) (r.pattern.length - 1) text
    | none => .letter c :: segments R rules (before ++ [c]) 0 text

/-- The combinations of phonemes with alternatives, in order: texts are concatenated, languages
intersected; combinations without a common language are left out. -/
def combinations (phonemes alternatives : List Phoneme) : List Phoneme :=
  phonemes.flatMap fun p => alternatives.filterMap fun a =>
    if (p.languages.restrictTo a.languages).isEmpty then none
    else some ⟨p.text ++ a.text, p.languages.restrictTo a.languages⟩

/-- One phoneme for each text: the first. -/
def firstOfEachText : List Phoneme → List Phoneme
  | [] => []
  | p :: ps => p :: (firstOfEachText ps).filter fun q => q.text ≠ p.text

/-- Sorted by text. -/
def sortByText (ps : List Phoneme) : List Phoneme := ps.mergeSort fun p q => !decide (q.text < p.text)

/-- The first `max` combinations with different texts, sorted. -/
def combine (max : Nat) (phonemes alternatives : List Phoneme) : List Phoneme :=
  sortByText ((firstOfEachText (combinations phonemes alternatives)).take max)

/-- The main pass: letters that no rule covers are dropped. -/
def mainPass (max : Nat) (languages : LanguageSet) (segs : List Segment) : List Phoneme :=
  segs.foldl (fun ps s =>
    match s with
    | .rule alternatives => combine max ps alternatives
    | .letter _ => ps) [⟨[], languages⟩]

/-- A final pass on one phoneme: letters that no rule covers are kept. -/
def refinePhoneme (max : Nat) (languages : LanguageSet) (segs : List Segment) : List Phoneme :=
  segs.foldl (fun ps s =>
    match s with
    | .rule alternatives => combine max ps alternatives
    | .letter c => sortByText (ps.map fun p => ⟨p.text ++ [c], p.languages⟩)) [⟨[], languages⟩]

/-- Adds phonemes to a sorted set; the languages are added to those of the phonemes that were there. -/
def addPhonemes (languages : LanguageSet) (set new : List Phoneme) : List Phoneme :=
  sortByText
    ((set.map fun q => if new.any (fun p => p.text == q.text) then ⟨q.text, q.languages.merge languages⟩ else q) ++
      new.filter fun p => !set.any fun q => q.text == p.text)

/-- A final pass: each phoneme is refined and the results are collected. -/
def finalPass (R : RegexEngine) (max : Nat) (rules : Char → List Rule) (phonemes : List Phoneme) : List Phoneme :=
  phonemes.foldl (fun set p =>
    addPhonemes p.languages set (refinePhoneme max p.languages (segments R rules [] 0 p.text))) []

/-- Texts separated by '|'. -/
def bars : List Str → Str
  | [] => []
  | [t] => t
  | t :: ts => t ++ '|' :: bars ts

/-- The rules for a letter. -/
def rulesFor (m : RuleMap) (c : Char) : List Rule := (m.get? c).getD []

/-- The phonemes of a text: the main pass, then the two final passes (a file without rules changes
nothing). -/
def phonemesOf (R : RegexEngine) (max : Nat) (rules final1 final2 : RuleMap) (languages : LanguageSet)
    (text : Str) : List Phoneme :=
  let final (m : RuleMap) (ps : List Phoneme) := if m.isEmpty then ps else finalPass R max (rulesFor m) ps
  final final2 (final final1 (mainPass max languages (segments R (rulesFor rules) [] 0 text)))

/-- The rules of a map are found under the first letter of their patterns, which are not empty. -/
def RuleMapWF (m : RuleMap) : Prop :=
  ∀ c, ∀ r ∈ rulesFor m c, r.pattern.head? = some c ∧ r.patternLengthChar = r.pattern.length

/-- The alternatives of the rules carry no languages. -/
def Untagged (m : RuleMap) : Prop := ∀ c, ∀ r ∈ rulesFor m c, ∀ a ∈ r.phoneme, a.languages = .any

/-! ## Where a phoneme comes from -/

/-- One alternative for each segment that a rule covers.  Letters that no rule covers are dropped in the main
pass (`keep = false`), and stand for themselves in a final pass. -/
inductive Choice (keep : Bool) : List Segment → List Phoneme → Prop
  | nil : Choice keep [] []
  | rule {alternatives : List Phoneme} {a : Phoneme} {segs : List Segment} {ps : List Phoneme} :
      a ∈ alternatives → Choice keep segs ps → Choice keep (.rule alternatives :: segs) (a :: ps)
  | letter {c : Char} {segs : List Segment} {ps : List Phoneme} : Choice keep segs ps →
      Choice keep (.letter c :: segs) (if keep then ⟨[c], .any⟩ :: ps else ps)

/-- The text of a choice. -/
def choiceText (ps : List Phoneme) : Str := (ps.map Phoneme.text).flatten

/-- The languages that remain of `ls` after a choice. -/
def choiceLanguages (ls : LanguageSet) (ps : List Phoneme) : LanguageSet :=
  ps.foldl (fun ls p => ls.restrictTo p.languages) ls

/-- A text comes from another by a set of final rules: unchanged if there are no rules, otherwise a choice of
one alternative for each segment covered by a rule; the other letters are kept. -/
def RefinedBy (R : RegexEngine) (m : RuleMap) (t u : Str) : Prop :=
  if m.isEmpty then u = t
  else ∃ choice, Choice true (segments R (rulesFor m) [] 0 t) choice ∧ u = choiceText choice

end Verif.Spec
