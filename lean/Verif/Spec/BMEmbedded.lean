import Verif.Model.BMRegex
/-!
# The regular expressions of the embedded Beider-Morse rules
-/

namespace Verif.Spec
open BM

/-- A piece of a simple regular expression: it matches one character. -/
inductive Piece where
  | letter (c : Char)
  | oneOf (chars : Str)
  | noneOf (chars : Str)

/-- How a piece is written. -/
def Piece.text : Piece → Str
  | .letter c => [c]
  | .oneOf chars => c!"[" ++ chars ++ c!"]"
  | .noneOf chars => c!"[^" ++ chars ++ c!"]"

/-- The characters that a piece matches. -/
def Piece.Matches : Piece → Char → Prop
  | .letter c, x => x = c
  | .oneOf chars, x => x ∈ chars
  | .noneOf chars, x => x ∉ chars

/-- A text that matches pieces one by one. -/
inductive MatchesAll : List Piece → Str → Prop
  | nil : MatchesAll [] []
  | cons {p : Piece} {c : Char} {ps : List Piece} {s : Str} : p.Matches c → MatchesAll ps s →
      MatchesAll (p :: ps) (c :: s)

/-- A simple regular expression: pieces, at the start or at the end of the text. -/
inductive Expression where
  | atStart (pieces : List Piece)
  | atEnd (pieces : List Piece)

/-- How an expression is written. -/
def Expression.text : Expression → Str
  | .atStart ps => '^' :: ps.flatMap Piece.text
  | .atEnd ps => ps.flatMap Piece.text ++ c!"$"

/-- An expression is found in a text. -/
def Expression.Matches : Expression → Str → Prop
  | .atStart ps, s => ∃ found after, s = found ++ after ∧ MatchesAll ps found
  | .atEnd ps, s => ∃ before found, s = before ++ found ∧ MatchesAll ps found

/-- The contexts of the embedded rules that are regular expressions (the others are a literal text or a single
class of characters, at an end of the text, which the crate does not give to the regex crate). -/
def embeddedExpressions : List Expression := [
  .atStart [.noneOf c!"aeiouAEBFIOU", .letter 'e'],
  .atEnd [.letter 'i', .noneOf c!"aeiouAEIOU"],
  .atEnd [.letter 'a', .noneOf c!"aeiouAEIOU"],
  .atStart [.oneOf c!"bdgkpstvzZ", .letter 'h'],
  .atStart [.oneOf c!"bdgkpstvzZ", .letter 'x'],
  .atStart [.oneOf c!"ln", .oneOf c!"bdfgklmnprsStvzZ"],
  .atStart [.oneOf c!"ln", .oneOf c!"BbdfgklmnprsStvzZ"]]

/-- A regex engine accepts these expressions. -/
def AcceptsEmbedded (R : RegexEngine) : Prop := ∀ x ∈ embeddedExpressions, R.error x.text = none

/-- A regex engine finds these expressions correctly. -/
def CorrectEmbedded (R : RegexEngine) : Prop :=
  AcceptsEmbedded R ∧ ∀ x ∈ embeddedExpressions, ∀ s, R.isMatch x.text s = true ↔ x.Matches s

/-- The characters of the phonetic alphabet of the embedded rules. -/
def phoneticAlphabet : Str := c!"ABDEFHIJOPQSUVYZabdefghijklmnoprstuvwxz"

end Verif.Spec
