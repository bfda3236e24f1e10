import Verif.Props.Heard
import Verif.Props.HeardEnglish
import Verif.Props.HeardDoubleMetaphone
import Verif.Props.HeardDaitchMokotoff
/-!
# C105: the other letters can be silent

For each letter missing from a list of C105 there is a name with this letter and a blank code.
-/
namespace Verif.Props
open Spec DaitchMokotoff

/-- C105. Metaphone, NYSIIS, Caverphone, Double Metaphone and Daitch-Mokotoff Soundex: names with a blank code. Every letter
that is missing from the list of the encoder occurs in one of its names. -/
theorem heard_sharp :
    (∀ w ∈ [c!"GH", c!"WH", c!"YH", c!"HHA", c!"HHE", c!"HHI", c!"HHO", c!"HHU"],
      (Metaphone.new none).encode .latin1 w = .ok []) ∧
    (∀ w ∈ [c!"AS", c!"AZ", c!"ASH", c!"ASCH", c!"AES", c!"AIS", c!"AOS", c!"AUS", c!"AWS"],
      (Nysiis.new false).encode .latin1 w = .ok []) ∧
    (∀ w ∈ [c!"J", c!"L", c!"R", c!"W", c!"Y", c!"GHA", c!"GHE", c!"GHI", c!"GHO", c!"GHU", c!"DGH"],
      Caverphone1.encode .latin1 w = .ok c!"111111") ∧
    (∀ w ∈ [c!"E", c!"DGH", c!"GH", c!"LH", c!"RH", c!"WH"], Caverphone2.encode .latin1 w = .ok c!"1111111111") ∧
    (∀ w ∈ [c!"HHAGH", c!"HHIER", c!"HHAIS", c!"HHAUX", c!"HHO", c!"HHY", c!"W"],
      (DoubleMetaphone.new none).encode .latin1 w = .ok []) ∧
    (∀ w ∈ [c!"HHILLA", c!"HHAGH", c!"HHAUX", c!"HHE", c!"HHO", c!"HHY", c!"W"],
      (DoubleMetaphone.new none).encodeAlternate .latin1 w = .ok []) ∧
    (∀ w ∈ [c!"A", c!"E", c!"I", c!"O", c!"U", c!"AH", c!"AJ", c!"AY"],
      defaultEncoder.innerSoundex .latin1 w true = .ok [c!"000000"]) := by decide +kernel

/-- C105. The names of `cologne_blank`, `phonex_blank` and `mra_blank` exist. -/
theorem blank_names :
    Cologne.encode .latin1 c!"Hh" = [] ∧ Cologne.encode .latin1 c!"Ha" ≠ [] ∧
    (Phonex.new 4).encode .latin1 c!"Hss" = .ok c!"0000" ∧ (Phonex.new 4).encode .latin1 c!"Shs" ≠ .ok c!"0000" ∧
    MatchRating.encode .latin1 c!"-.'" = .ok [] ∧ MatchRating.encode .latin1 c!" a " = .ok [] ∧
    MatchRating.encode .latin1 c!"aa" ≠ .ok [] := by decide +kernel

/-- The hypotheses can be met. -/
example : AsciiStr c!"Aubrey" ∧ (∃ c ∈ asciiLetters c!"Aubrey", c ∉ c!"AEHIJOUY") ∧
    (∃ c ∈ c!"Aubrey", asciiUpper c ∈ c!"BCDFJKLMNPQTVZ") ∧
    (Unicode.latin1.trim c!" Gaia").head? = some 'G' ∧ asciiUpper 'G' ∉ c!"HW" := by decide +kernel

end Verif.Props
