import Verif.Model.BMLanguages
import Verif.Model.DoubleMetaphone
/-!
# Printed results and messages
-/

namespace Verif

/-- `Display` of `DoubleMetaphoneResult` (double_metaphone.rs:42-50). -/
def DMResult.display (r : DMResult) : Str :=
  c!"[primary=" ++ r.primary ++ c!", alternate=" ++ r.alternate ++ c!"]"

/-- `Display` of `usize`: its decimal digits (lib.rs:88-99, the numbers in the message). -/
def usizeDisplay (n : Nat) : Str := Nat.toDigits 10 n

/-- `Display` of `ParseError` (lib.rs:90): file name (`Unknown` if there is none), line number, description, line. -/
def ParseError.display (e : ParseError) : Str :=
  e.filename.getD c!"Unknown" ++ c!":" ++ usizeDisplay e.lineNumber ++ c!" " ++ e.description ++ c!" : " ++ e.lineContent

/-- `Display` of `PhoneticError` (lib.rs:104-111). -/
def BM.PhoneticError.display : BM.PhoneticError → Str
  | .parseRuleError e => c!"Error parsing rule file " ++ e.display
  | .bmError e => c!"Error : " ++ e.display

/-- `DoubleMetaphoneResult::primary` (double_metaphone.rs:67-69). -/
def DMResult.getPrimary (r : DMResult) : Str := r.primary

/-- `DoubleMetaphoneResult::alternate` (double_metaphone.rs:72-74). -/
def DMResult.getAlternate (r : DMResult) : Str := r.alternate

end Verif
