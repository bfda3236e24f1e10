import Verif.Spec.BMConfig
/-!
# What the files of a Beider-Morse directory say, whatever their layout (C98)

Comments, empty lines, the blanks between the parts of a line and what follows them on the line are layout.
-/

namespace Verif.Spec
open BM

/-- A line of a file of rules, without its layout. -/
inductive RuleLine where
  | rule (pattern left right phonemes : Str)
  | directive (name : Str)

/-- What an item of a file of rules says, if anything. -/
def RuleItem.line : RuleItem → Option RuleLine
  | .filler _ => none
  | .rule p _ l _ r _ ph _ => some (.rule p l r ph)
  | .directive name _ => some (.directive name)

/-- What an item of a file of rules that guess languages says, if anything: pattern, languages, accept. -/
def LangItem.line : LangItem → Option (Str × Str × Bool)
  | .filler _ => none
  | .rule p l a _ => some (p, l, a)

/-- What the items of a file of rules say, in order. -/
def ruleLines (items : List RuleItem) : List RuleLine := items.filterMap RuleItem.line

/-- What the items of a file of rules that guess languages say, in order. -/
def langLines (items : List LangItem) : List (Str × Str × Bool) := items.filterMap LangItem.line

/-- A file of rules can be read, and says this. -/
def RulesSay (U : Unicode) (dir : Directory) (file : Str) (lines : List RuleLine) : Prop :=
  ∃ content items, dir.read (file ++ c!".txt") = some content ∧ Reading (RuleItem.Reads U) content items [] ∧
    ruleLines items = lines

/-- The file of the rules that guess the languages of names of a type can be read, and says this. -/
def GuessesSay (dir : Directory) (nt : NameType) (lines : List (Str × Str × Bool)) : Prop :=
  ∃ content items, dir.read (langFilename nt) = some content ∧ Reading LangItem.Reads content items [] ∧
    langLines items = lines

/-- The list of the languages of names of a type is in the directory and can be read. -/
def HasList (dir : Directory) (nt : NameType) : Prop :=
  nt.languageFilename ∈ dir.entries ∧
    ∃ content items, dir.read nt.languageFilename = some content ∧ Reading ListItem.Reads content items []

/-- Two directories say the same: the same files can be read, and they say the same; of the lists of languages,
neither the order nor repetitions matter. -/
structure SameDirectory (U : Unicode) (dir dir' : Directory) : Prop where
  lists : ∀ nt, HasList dir nt ↔ HasList dir' nt
  languages : ∀ nt l, Lists dir nt l ↔ Lists dir' nt l
  guesses : ∀ nt lines, GuessesSay dir nt lines ↔ GuessesSay dir' nt lines
  rules : ∀ file lines, RulesSay U dir file lines ↔ RulesSay U dir' file lines

/-- Two encoders have the same settings. -/
structure SameSettings (e e' : Engine) : Prop where
  nameType : e.nameType = e'.nameType
  ruleType : e.ruleType = e'.ruleType
  concat : e.concat = e'.concat
  maxPhonemes : e.maxPhonemes = e'.maxPhonemes

end Verif.Spec
