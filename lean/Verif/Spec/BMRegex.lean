import Verif.Basic
/-!
# The regular expressions that the optimised matcher handles, and what it means to match them
-/

namespace Verif.Spec

/-- The body of a simple expression: a literal text, or one character in (or, when negated, outside) a
list. -/
inductive SimpleBody where
  | literal (s : Str)
  | oneOf (negated : Bool) (chars : Str)

/-- A simple expression: a body, perhaps anchored at the start and at the end. -/
structure SimpleRegex where
  atStart : Bool
  body : SimpleBody
  atEnd : Bool

/-- The text of a body. -/
def SimpleBody.print : SimpleBody → Str
  | .literal s => s
  | .oneOf negated chars => '[' :: (if negated then ['^'] else []) ++ chars ++ [']']

/-- The text of an expression, in the usual syntax: `^` and `$` are the anchors. -/
def SimpleRegex.print (r : SimpleRegex) : Str :=
  (if r.atStart then ['^'] else []) ++ r.body.print ++ (if r.atEnd then ['$'] else [])

/-- The characters with a special meaning in expressions (outside of classes). -/
def isMeta (c : Char) : Bool := c!"\\.+*?()|[]{}^$".contains c

/-- The characters with a special meaning inside `[ ]`. -/
def isClassMeta (c : Char) : Bool := c!"\\[]^-&~".contains c

/-- A literal has no special characters; a class has characters, none of them special. -/
def SimpleBody.WF : SimpleBody → Prop
  | .literal s => ∀ c ∈ s, isMeta c = false
  | .oneOf _ chars => chars ≠ [] ∧ ∀ c ∈ chars, isClassMeta c = false

/-- The texts that a body stands for. -/
def SimpleBody.Matches : SimpleBody → Str → Prop
  | .literal s, m => m = s
  | .oneOf negated chars, m => ∃ c, m = [c] ∧ (c ∈ chars ↔ negated = false)

/-- Searching an expression in a text: some part of the text matches the body; it is at the start of the
text if there is a start anchor, and at the end if there is an end anchor. -/
def SimpleRegex.Finds (r : SimpleRegex) (text : Str) : Prop :=
  ∃ before part after, text = before ++ part ++ after ∧ r.body.Matches part ∧
    (r.atStart = true → before = []) ∧ (r.atEnd = true → after = [])

end Verif.Spec
