import Verif.Model.Order
import Verif.Model.Soundex
import Verif.Model.Metaphone
import Verif.Model.Nysiis
import Verif.Model.Phonex
/-!
# Derived orders of the encoders and settings

As in `Model/Order.lean`: field after field, variants in the order of their declaration.
`DaitchMokotoffSoundex`, whose maps the model does not keep in order, is left out.
-/

namespace Verif

/-- `Ord for bool`: `false` first (soundex.rs:77, nysiis.rs:67). -/
def boolCmp : Bool → Bool → Ordering
  | false, true => .lt
  | true, false => .gt
  | _, _ => .eq

/-- `Ord for [char; 26]`: character by character (soundex.rs:76, refined_soundex.rs:42). -/
def mappingCmp (a b : Mapping) : Ordering := setCmp (fun c d : Char => natCmp c.toNat d.toNat) a.val b.val

/-- `Ord for Soundex`, derived (soundex.rs:74-78). -/
def Soundex.cmp (a b : Soundex) : Ordering :=
  (mappingCmp a.mapping b.mapping).then (boolCmp a.specialCaseHW b.specialCaseHW)

/-- `Ord for RefinedSoundex`, derived (refined_soundex.rs:40-43). -/
def RefinedSoundex.cmp (a b : RefinedSoundex) : Ordering := mappingCmp a.mapping b.mapping

/-- `Ord for Metaphone`, derived (metaphone.rs:38-41). -/
def Metaphone.cmp (a b : Metaphone) : Ordering := optionCmp natCmp a.maxCodeLength b.maxCodeLength

/-- `Ord for DoubleMetaphone`, derived (double_metaphone.rs:160-163). -/
def DoubleMetaphone.cmp (a b : DoubleMetaphone) : Ordering := optionCmp natCmp a.maxCodeLength b.maxCodeLength

/-- `Ord for Nysiis`, derived (nysiis.rs:65-68). -/
def Nysiis.cmp (a b : Nysiis) : Ordering := boolCmp a.strict b.strict

/-- `Ord for Phonex`, derived (phonex.rs:34-37). -/
def Phonex.cmp (a b : Phonex) : Ordering := natCmp a.maxCodeLength b.maxCodeLength

/-- `Ord for NameType`, derived (beider_morse/mod.rs:89-102). -/
def BM.NameType.cmp : BM.NameType → BM.NameType → Ordering
  | .ashkenazi, .ashkenazi => .eq
  | .ashkenazi, _ => .lt
  | .generic, .ashkenazi => .gt
  | .generic, .generic => .eq
  | .generic, .sephardic => .lt
  | .sephardic, .sephardic => .eq
  | .sephardic, _ => .gt

/-- `Ord for RuleType`, derived (beider_morse/rule.rs:27-33). -/
def BM.RuleType.cmp : BM.RuleType → BM.RuleType → Ordering
  | .approx, .exact => .lt
  | .exact, .approx => .gt
  | _, _ => .eq

end Verif
