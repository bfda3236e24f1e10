import Verif.Basic
/-!
# The grammar of rule files

What a line of a rule file looks like, independent of the parsers.
-/

namespace Verif.Spec

/-- A space or a tab. -/
def isSpaceTab (c : Char) : Bool := c == ' ' || c == '\t'

/-- What may follow the meaningful part of a line: blanks, a `//` comment, the line ending. -/
structure Tail where
  /-- spaces and tabs -/
  blanks : Str
  /-- text after `//` -/
  comment : Option Str
  /-- `"\n"`, `"\r\n"` or nothing (end of file) -/
  ending : Str
deriving DecidableEq, Repr

/-- Its text. -/
def Tail.print (t : Tail) : Str :=
  t.blanks ++ (match t.comment with
    | none => []
    | some c => '/' :: '/' :: c) ++ t.ending

/-- A legal tail, followed by the text `rest`. A comment swallows a carriage return. -/
structure Tail.WF (t : Tail) (rest : Str) : Prop where
  blanks : ∀ c ∈ t.blanks, isSpaceTab c = true
  comment : ∀ c, t.comment = some c → '\n' ∉ c ∧ t.ending ≠ ['\r', '\n']
  ending : t.ending = ['\n'] ∨ t.ending = ['\r', '\n'] ∨ (t.ending = [] ∧ rest = [])

/-- A quoted part can contain anything but a double quote, which must be written `\"` and be alone;
and it cannot be a single backslash. -/
def PartWF (p : Str) : Prop := p = ['\\', '"'] ∨ ('"' ∉ p ∧ p ≠ ['\\'])

instance (p : Str) : Decidable (PartWF p) := inferInstanceAs (Decidable (_ ∨ _))

/-- Non-empty blanks. -/
def BlanksWF (s : Str) : Prop := s ≠ [] ∧ ∀ c ∈ s, isSpaceTab c = true

/-- `"part"` -/
def quoted (p : Str) : Str := '"' :: p ++ ['"']

/-- The number of lines of a text. -/
def newlines (s : Str) : Nat := s.count '\n'

end Verif.Spec
