import Verif.Proofs.CaverphoneCode
import Verif.Props.Caverphone
/-!
# Caverphone computes the sounds of a word (C72)
-/

namespace Verif.Props
open Spec CaverphoneProofs

/-- The code of a word, cut or filled up with '1' to a length. -/
def cutOrFill (n : Nat) (code : Str) : Str := (code ++ List.replicate n '1').take n

theorem slice_cut {w : Str} (hw : AsciiStr w) (n : Nat) : slice (w ++ List.replicate n '1') 0 n = .ok (cutOrFill n w) := by
  have ha : AsciiStr (w ++ List.replicate n '1') := by
    rw [asciiStr_append]
    refine ⟨hw, ?_⟩
    intro c hc
    rw [(List.mem_replicate.mp hc).2]; decide
  rw [slice_ascii ha (by omega) (by simp)]
  rfl

/-- C72. For every text, the code of Caverphone 1 is cut from the sounds of its letters followed by '1's: its letters are the
lower-case letters of the text in lower case.  (The cut is at byte 6, and panics inside a letter.) -/
theorem caverphone1_spec (U : Unicode) (s : Str) :
    Caverphone1.encode U s =
      slice (Spec.Caverphone.code .v1 ((U.strLower s).filter U.isLowercase) ++ List.replicate 6 '1') 0 6 := by
  rw [encode1_eq, CavSpec.body1]

/-- C72. For every text, the code of Caverphone 2. -/
theorem caverphone2_spec (U : Unicode) (s : Str) :
    Caverphone2.encode U s =
      slice (Spec.Caverphone.code .v2 ((U.strLower s).filter U.isLowercase) ++ List.replicate 10 '1') 0 10 := by
  rw [encode2_eq, CavSpec.body2]

/-- C72. For ASCII text both encoders return, and the codes are the sounds of its letters, cut or filled up with '1'. -/
theorem caverphone_spec_ascii (U : Unicode) (s : Str) (h : AsciiStr s) :
    Caverphone1.encode U s = .ok (cutOrFill 6 (Spec.Caverphone.code .v1 ((asciiLetters s).map asciiLower))) ∧
    Caverphone2.encode U s = .ok (cutOrFill 10 (Spec.Caverphone.code .v2 ((asciiLetters s).map asciiLower))) := by
  have e : (U.strLower s).filter U.isLowercase = (asciiLetters s).map asciiLower := clean_ascii U h
  constructor
  · rw [encode1_eq, slice_cut (ascii_of_alphabet (body1_alphabet U h)), CavSpec.body1, e]
  · rw [encode2_eq, slice_cut (ascii_of_alphabet (body2_alphabet U h)), CavSpec.body2, e]

/-- The specification on some words. -/
example : Spec.Caverphone.code .v1 c!"thumb" = c!"TM" ∧ Spec.Caverphone.code .v2 c!"thumb" = c!"TM" ∧
    Spec.Caverphone.code .v2 c!"whittle" = c!"WTA" ∧ Spec.Caverphone.code .v1 c!"whittle" = c!"WTL" ∧
    Spec.Caverphone.code .v2 c!"toughmagnificent" = c!"TFMKNFSNT" ∧ Spec.Caverphone.code .v2 c!"yough" = c!"YA" ∧
    Spec.Caverphone.code .v2 c!"doughagher" = c!"TKA" := by decide +kernel

example : AsciiStr c!"O'Callaghan-Wright" := by decide +kernel

end Verif.Props
