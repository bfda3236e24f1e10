import Verif.Model.Stored
/-!
# What it means that data spells a stored value

Only serde's data model (`Stored.Data`) and the fields of the values are used, not the readers.
-/

namespace Verif.Spec
open Stored

/-- Among the entries of a map, `name` occurs exactly once, with the value `d`. -/
def OnceIn (entries : List (Str × Data)) (name : Str) (d : Data) : Prop :=
  ∃ before after, entries = before ++ (name, d) :: after ∧
    (∀ e ∈ before, e.1 ≠ name) ∧ (∀ e ∈ after, e.1 ≠ name)

/-- Among the entries of a map, `name` does not occur. -/
def AbsentIn (entries : List (Str × Data)) (name : Str) : Prop := ∀ e ∈ entries, e.1 ≠ name

/-- A character is spelled as a character or as a string of one character. -/
def SpellsChar (d : Data) (c : Char) : Prop := d = .char c ∨ d = .str [c]

/-- A text is spelled as a string or, if it is one character, as a character. -/
def SpellsText (d : Data) (s : Str) : Prop := d = .str s ∨ ∃ c, s = [c] ∧ d = .char c

/-- A mapping is spelled as the sequence of its 26 characters. -/
def SpellsMapping (d : Data) (m : Str) : Prop :=
  ∃ l : List Data, d = .seq l ∧ l.length = m.length ∧ m.length = 26 ∧
    ∀ i (h : i < l.length) (h' : i < m.length), SpellsChar l[i] m[i]

/-- A number is spelled as itself and fits into 64 bits. -/
def SpellsNumber (d : Data) (n : Nat) : Prop := d = .num n ∧ n < 2 ^ 64

/-- An optional value among the entries: absent, null, or spelled. -/
def SpellsOptional {α : Type} (spells : Data → α → Prop) (entries : List (Str × Data)) (name : Str)
    (x : Option α) : Prop :=
  (x = none ∧ (AbsentIn entries name ∨ OnceIn entries name .none ∨ OnceIn entries name .unit)) ∨
  ∃ v d, x = some v ∧ OnceIn entries name (.some d) ∧ spells d v

/-- A required value among the entries: once, and spelled. -/
def SpellsRequired {α : Type} (spells : Data → α → Prop) (entries : List (Str × Data)) (name : Str)
    (x : α) : Prop :=
  ∃ d, OnceIn entries name d ∧ spells d x

end Verif.Spec
