import Verif.Model.CharSequence
import Verif.Model.Display
/-!
# Derived orders

`#[derive(PartialEq, Eq, PartialOrd, Ord)]` compares the fields one after another, the variants of an enumeration in the order of
their declaration; the derived equality is the equality of the fields (the model's `=`).
-/

namespace Verif

/-- `Ord for usize` (helper.rs:86, lib.rs:93, double_metaphone.rs:39). -/
def natCmp (a b : Nat) : Ordering := compare a b

/-- `Ord for Option<T>`: `None` first (double_metaphone.rs:39, lib.rs:95). -/
def optionCmp {α : Type} (cmp : α → α → Ordering) : Option α → Option α → Ordering
  | none, none => .eq
  | none, some _ => .lt
  | some _, none => .gt
  | some a, some b => cmp a b

/-- `Ord for BTreeSet<T>`: element by element (beider_morse/languages.rs:19). -/
def setCmp {α : Type} (cmp : α → α → Ordering) : List α → List α → Ordering
  | [], [] => .eq
  | [], _ :: _ => .lt
  | _ :: _, [] => .gt
  | a :: as, b :: bs => (cmp a b).then (setCmp cmp as bs)

/-- `Ord for CharSequence`, derived (helper.rs:83-87). -/
def CharSequence.cmp (a b : CharSequence) : Ordering := (BM.strCmp a.inner b.inner).then (natCmp a.lenInChar b.lenInChar)

/-- `Display for CharSequence` (helper.rs:89-93). -/
def CharSequence.display (a : CharSequence) : Str := a.inner

/-- `From<CharSequence> for &str` (helper.rs:123-127). -/
def CharSequence.intoStr (a : CharSequence) : Str := a.inner

/-- `Ord for DoubleMetaphoneResult`, derived (double_metaphone.rs:35-40). -/
def DMResult.cmp (a b : DMResult) : Ordering :=
  (BM.strCmp a.primary b.primary).then ((BM.strCmp a.alternate b.alternate).then (optionCmp natCmp a.maxLength b.maxLength))

/-- `Ord for LanguageSet`, derived (beider_morse/languages.rs:12-20). -/
def BM.LanguageSet.cmp : BM.LanguageSet → BM.LanguageSet → Ordering
  | .any, .any => .eq
  | .any, _ => .lt
  | .noLanguages, .any => .gt
  | .noLanguages, .noLanguages => .eq
  | .noLanguages, .someLanguages _ => .lt
  | .someLanguages a, .someLanguages b => setCmp BM.strCmp a b
  | .someLanguages _, _ => .gt

/-- `Ord for ParseError`, derived (lib.rs:89-100). -/
def ParseError.cmp (a b : ParseError) : Ordering :=
  (natCmp a.lineNumber b.lineNumber).then ((optionCmp BM.strCmp a.filename b.filename).then
    ((BM.strCmp a.lineContent b.lineContent).then (BM.strCmp a.description b.description)))

end Verif
