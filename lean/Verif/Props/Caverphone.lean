import Verif.Proofs.Caverphone
import Verif.Proofs.Common
/-!
# Properties of Caverphone 1 and 2 (C13–C16)
-/

set_option linter.unusedSimpArgs false

namespace Verif.Props
open Spec

namespace CaverphoneProofs

theorem strLowerAux_noSigma (U : Unicode) {s : Str} (h : 'Σ' ∉ s) (pre : Str) :
    U.strLowerAux pre s = s.flatMap U.toLower := by
  induction s generalizing pre with
  | nil => rfl
  | cons c cs ih =>
    simp only [List.mem_cons, not_or] at h
    have : c ≠ 'Σ' := fun e => h.1 e.symm
    simp [Unicode.strLowerAux, this, ih h.2]

theorem strLower_noSigma (U : Unicode) {s : Str} (h : 'Σ' ∉ s) : U.strLower s = s.flatMap U.toLower :=
  strLowerAux_noSigma U h []

/-- The letters that the encoders see: the lower-case letters of the lower-cased text. -/
theorem clean_ascii (U : Unicode) {s : Str} (h : AsciiStr s) :
    removeAllNonLetter U (U.strLower s) = (asciiLetters s).map asciiLower := by
  have key : ∀ c, isAscii c = true →
      (U.isLowercase (asciiLower c) = isAsciiAlpha c) := by
    intro c hc
    rw [U.isLowercase_ascii _ (isAscii_asciiLower hc)]
    revert c; apply forall_ascii; decide +kernel
  have key2 : ∀ c, isAscii c = true → asciiLower (asciiUpper c) = asciiLower c := by
    apply forall_ascii; decide +kernel
  rw [strLower_ascii U h]
  unfold removeAllNonLetter asciiLetters
  induction s with
  | nil => rfl
  | cons c cs ih =>
    rw [asciiStr_cons] at h
    simp only [List.map_cons, List.filter_cons, key c h.1]
    split
    · simp [key2 c h.1, ih h.2]
    · exact ih h.2

theorem lower_alphabet (s : Str) :
    (asciiLetters s).map asciiLower ⊆ c!"abcdefghijklmnopqrstuvwxyz" := by
  intro x hx
  obtain ⟨c, hc, rfl⟩ := List.mem_map.mp hx
  have hu := asciiLetters_upper c hc
  have : ∀ c, isAscii c = true → isAsciiUpper c = true →
      asciiLower c ∈ c!"abcdefghijklmnopqrstuvwxyz" := by apply forall_ascii; decide +kernel
  exact this c (isAscii_of_upper hu) hu

theorem body1_alphabet (U : Unicode) {s : Str} (h : AsciiStr s) :
    Caverphone1.body U s ⊆ c!"AFKLMNPRSTWY" := by
  rw [cav1_body_eq, clean_ascii U h]
  exact fun x hx => cav1_alpha x (runStages_alpha cav1Stages (by decide) (lower_alphabet s) hx)

theorem body2_alphabet (U : Unicode) {s : Str} (h : AsciiStr s) :
    Caverphone2.body U s ⊆ c!"AFKLMNPRSTWY" := by
  rw [cav2_body_eq, clean_ascii U h]
  exact fun x hx => cav2_alpha x (runStages_alpha cav2Stages (by decide) (lower_alphabet s) hx)

theorem ascii_of_alphabet {w : Str} (h : w ⊆ c!"AFKLMNPRSTWY") : AsciiStr w := by
  intro c hc
  have : ∀ c ∈ c!"AFKLMNPRSTWY", isAscii c = true := by decide
  exact this c (h hc)

/-- Padding with `n` times '1' and cutting at `n` bytes. -/
theorem padded {w : Str} (hw : AsciiStr w) (n : Nat) :
    slice (w ++ List.replicate n '1') 0 n =
      .ok (w.take n ++ List.replicate (n - (w.take n).length) '1') := by
  have ha : AsciiStr (w ++ List.replicate n '1') := by
    rw [asciiStr_append]
    refine ⟨hw, ?_⟩
    intro c hc
    rw [(List.mem_replicate.mp hc).2]; decide
  rw [slice_ascii ha (by omega) (by simp)]
  simp only [List.drop_zero, Nat.sub_zero, List.take_append, List.take_replicate, List.length_take]
  congr 3
  omega

theorem encode1_eq (U : Unicode) (s : Str) :
    Caverphone1.encode U s = slice (Caverphone1.body U s ++ List.replicate 6 '1') 0 6 := by
  have h1 : six1 = List.replicate 6 '1' := by decide
  have h2 : byteLen (List.replicate 6 '1') = 6 := by decide
  unfold Caverphone1.encode
  rw [h1, h2]
  cases s with
  | nil =>
    have h3 : Caverphone1.body U [] = runStages cav1Stages [] := rfl
    have h4 : runStages cav1Stages [] = [] := by decide +kernel
    rw [h3, h4]
    simp only [List.isEmpty_nil, if_true]
    decide +kernel
  | cons c cs => simp only [List.isEmpty_cons, Bool.false_eq_true, if_false]

theorem encode2_eq (U : Unicode) (s : Str) :
    Caverphone2.encode U s = slice (Caverphone2.body U s ++ List.replicate 10 '1') 0 10 := by
  have h1 : ten1 = List.replicate 10 '1' := by decide
  have h2 : byteLen (List.replicate 10 '1') = 10 := by decide
  unfold Caverphone2.encode
  rw [h1, h2]
  cases s with
  | nil =>
    have h3 : Caverphone2.body U [] = runStages cav2Stages [] := rfl
    have h4 : runStages cav2Stages [] = [] := by decide +kernel
    rw [h3, h4]
    simp only [List.isEmpty_nil, if_true]
    decide +kernel
  | cons c cs => simp only [List.isEmpty_cons, Bool.false_eq_true, if_false]

theorem slice_len {s c : Str} {n : Nat} (h : slice s 0 n = .ok c) : byteLen c = n := by
  rw [slice_zero] at h; exact (sliceTo_ok h).1

end CaverphoneProofs

open CaverphoneProofs

/-- C13. Whenever `encode` returns, the Caverphone 1 code has exactly 6 bytes and the Caverphone 2
code exactly 10; a text without any lower-case letter after lower-casing has the all-'1' codes. -/
theorem caverphone_fixed_length (U : Unicode) (s : Str) :
    (∀ code, Caverphone1.encode U s = .ok code → byteLen code = 6) ∧
    (∀ code, Caverphone2.encode U s = .ok code → byteLen code = 10) ∧
    ((∀ c ∈ U.strLower s, U.isLowercase c = false) →
      Caverphone1.encode U s = .ok (List.replicate 6 '1') ∧
      Caverphone2.encode U s = .ok (List.replicate 10 '1')) := by
  refine ⟨fun code h => ?_, fun code h => ?_, fun h => ?_⟩
  · rw [encode1_eq] at h; exact slice_len h
  · rw [encode2_eq] at h; exact slice_len h
  · have : removeAllNonLetter U (U.strLower s) = [] := by
      unfold removeAllNonLetter; rw [List.filter_eq_nil_iff]; intro c hc; simp [h c hc]
    rw [encode1_eq, encode2_eq, cav1_body_eq, cav2_body_eq, this]
    exact ⟨by decide +kernel, by decide +kernel⟩

/-- The hypotheses are met: a long Unicode word with a code, and a text without letters. -/
example : Caverphone1.encode .latin1 c!"éThompson" = .ok c!"éTMPS" := by decide +kernel

example : ∀ c ∈ Unicode.latin1.strLower c!"42-!", Unicode.latin1.isLowercase c = false := by
  decide +kernel

/-- C14. On ASCII text `Caverphone1::encode` returns, and the code is at most 6 letters of
`A F K L M N P R S T W Y` filled up with '1' to length 6. -/
theorem caverphone1_ascii (U : Unicode) (s : Str) (h : AsciiStr s) :
    ∃ w, w.length ≤ 6 ∧ (∀ c ∈ w, c ∈ c!"AFKLMNPRSTWY") ∧
      Caverphone1.encode U s = .ok (w ++ List.replicate (6 - w.length) '1') := by
  refine ⟨(Caverphone1.body U s).take 6, by simp; omega,
    fun c hc => body1_alphabet U h (List.mem_of_mem_take hc), ?_⟩
  rw [encode1_eq]
  exact padded (ascii_of_alphabet (body1_alphabet U h)) 6

/-- C14. On ASCII text `Caverphone2::encode` returns, and the code is at most 10 letters of
`A F K L M N P R S T W Y` filled up with '1' to length 10. -/
theorem caverphone2_ascii (U : Unicode) (s : Str) (h : AsciiStr s) :
    ∃ w, w.length ≤ 10 ∧ (∀ c ∈ w, c ∈ c!"AFKLMNPRSTWY") ∧
      Caverphone2.encode U s = .ok (w ++ List.replicate (10 - w.length) '1') := by
  refine ⟨(Caverphone2.body U s).take 10, by simp; omega,
    fun c hc => body2_alphabet U h (List.mem_of_mem_take hc), ?_⟩
  rw [encode2_eq]
  exact padded (ascii_of_alphabet (body2_alphabet U h)) 10

/-- Every letter of the alphabet really occurs, so the bound is tight. -/
example : Caverphone1.encode .latin1 c!"afakalamana" = .ok c!"AFKLMN" ∧
    Caverphone1.encode .latin1 c!"paRasatawaya" = .ok c!"PRSTWY" := by decide +kernel

/-- C14. Outside ASCII the cut can fall inside a character: then `encode` panics. -/
theorem caverphone_panics_outside_ascii :
    Caverphone1.encode .latin1 c!"papapapapañ" = .error .slice ∧
    Caverphone2.encode .latin1 c!"papapapapapapapapañ" = .error .slice := by decide +kernel

/-- C15. Two ASCII texts with the same letters up to case have the same codes. -/
theorem caverphone_case_insensitive (U : Unicode) (s t : Str) (hs : AsciiStr s) (ht : AsciiStr t)
    (h : asciiLetters s = asciiLetters t) :
    Caverphone1.encode U s = Caverphone1.encode U t ∧
    Caverphone2.encode U s = Caverphone2.encode U t := by
  rw [encode1_eq, encode1_eq, encode2_eq, encode2_eq, cav1_body_eq, cav1_body_eq, cav2_body_eq,
    cav2_body_eq, clean_ascii U hs, clean_ascii U ht, h]
  exact ⟨rfl, rfl⟩

example : asciiLetters c!"Mc-Donald 2" = asciiLetters c!"mcdonald" := by decide

/-- C15. Inserting ASCII characters that are not letters changes no code, in any Unicode text
without capital sigma (whose lower-case form depends on the neighbours). -/
theorem caverphone_ignores_nonletters (U : Unicode) (a junk b : Str) (hS : 'Σ' ∉ a ++ b)
    (h : ∀ c ∈ junk, isAscii c = true ∧ isAsciiAlpha c = false) :
    Caverphone1.encode U (a ++ junk ++ b) = Caverphone1.encode U (a ++ b) ∧
    Caverphone2.encode U (a ++ junk ++ b) = Caverphone2.encode U (a ++ b) := by
  have hj : 'Σ' ∉ junk := fun hm => absurd (h _ hm).1 (by decide)
  have h1 : 'Σ' ∉ a ++ junk ++ b := by
    simp only [List.mem_append, not_or] at hS ⊢; exact ⟨⟨hS.1, hj⟩, hS.2⟩
  have hjunk : (junk.flatMap U.toLower).filter U.isLowercase = [] := by
    rw [List.filter_eq_nil_iff]
    intro x hx
    obtain ⟨c, hc, hx⟩ := List.mem_flatMap.mp hx
    obtain ⟨ha, hl⟩ := h c hc
    rw [U.toLower_ascii c ha, List.mem_singleton] at hx
    subst hx
    rw [U.isLowercase_ascii _ (isAscii_asciiLower ha)]
    have : ∀ c, isAscii c = true → isAsciiAlpha c = false → ¬ isAsciiLower (asciiLower c) = true := by
      apply forall_ascii; decide +kernel
    exact this c ha hl
  have : removeAllNonLetter U (U.strLower (a ++ junk ++ b)) =
      removeAllNonLetter U (U.strLower (a ++ b)) := by
    rw [strLower_noSigma U h1, strLower_noSigma U hS]
    simp only [removeAllNonLetter, List.flatMap_append, List.filter_append, hjunk, List.append_nil]
  rw [encode1_eq, encode1_eq, encode2_eq, encode2_eq, cav1_body_eq, cav1_body_eq, cav2_body_eq,
    cav2_body_eq, this]
  exact ⟨rfl, rfl⟩

/-- C16. Appending a final 'e' to a text without capital sigma whose last letter is not already an
'e' does not change its Caverphone 2 code (nor whether it panics). -/
theorem caverphone2_final_e (U : Unicode) (s : Str) (hS : 'Σ' ∉ s)
    (h : ((U.strLower s).filter U.isLowercase).getLast? ≠ some 'e') :
    Caverphone2.encode U (s ++ c!"e") = Caverphone2.encode U s := by
  have h1 : 'Σ' ∉ s ++ c!"e" := by
    simp only [List.mem_append, not_or]; exact ⟨hS, by decide⟩
  have e1 : removeAllNonLetter U (U.strLower (s ++ c!"e")) =
      removeAllNonLetter U (U.strLower s) ++ c!"e" := by
    rw [strLower_noSigma U h1, strLower_noSigma U hS]
    have : U.isLowercase 'e' = true := by rw [U.isLowercase_ascii 'e' (by decide)]; decide
    simp only [removeAllNonLetter, List.flatMap_append, List.filter_append, List.flatMap_cons,
      List.flatMap_nil, U.toLower_ascii 'e' (by decide), show asciiLower 'e' = 'e' by decide,
      List.append_nil, List.filter_cons, this, List.filter_nil, if_true]
  rw [encode2_eq, encode2_eq, cav2_body_eq, cav2_body_eq, e1]
  change removeAllNonLetter U (U.strLower s) |>.getLast? |> (· ≠ some 'e') at h
  generalize removeAllNonLetter U (U.strLower s) = w at h
  have e2 : replaceEnd (w ++ c!"e") c!"e" [] = replaceEnd w c!"e" [] := by
    unfold replaceEnd endsWith
    have h2 : List.isSuffixOf c!"e" (w ++ c!"e") = true := by
      rw [List.isSuffixOf_iff_suffix]; exact List.suffix_append _ _
    have h3 : ¬ List.isSuffixOf c!"e" w = true := by
      rw [List.isSuffixOf_iff_suffix]
      rintro ⟨t, rfl⟩
      exact h (by simp)
    rw [if_pos h2, if_neg h3]
    simp
  change slice (runStages cav2Stages.tail (replaceEnd (w ++ c!"e") c!"e" []) ++ _) 0 10 =
    slice (runStages cav2Stages.tail (replaceEnd w c!"e" []) ++ _) 0 10
  rw [e2]

example : Caverphone2.encode .latin1 c!"Stevenson" = .ok c!"STFNSN1111" ∧
    Caverphone2.encode .latin1 c!"Stevensone" = .ok c!"STFNSN1111" := by decide +kernel

/-- A table in which a capital sigma is lower-cased to 'ς' at the end of a word (as in Rust). -/
def sigmaTable : Unicode :=
  { Unicode.latin1 with
    finalSigma := fun pre post => pre.any Unicode.latin1.isAlphabetic && !post.any Unicode.latin1.isAlphabetic
    isLowercase := fun c => Latin1.isLowercase c || c == 'σ' || c == 'ς'
    isLowercase_ascii := by
      intro c hc
      have h1 : c ≠ 'σ' := by rintro rfl; exact absurd hc (by decide)
      have h2 : c ≠ 'ς' := by rintro rfl; exact absurd hc (by decide)
      rw [beq_eq_false_iff_ne.mpr h1, beq_eq_false_iff_ne.mpr h2, Bool.or_false, Bool.or_false]
      simp [Latin1.isLowercase, hc] }

/-- C16. The exclusion of capital sigma is needed: appending 'e' changes how it is lower-cased. -/
theorem caverphone2_final_e_sigma :
    Caverphone2.encode sigmaTable c!"AΣ" ≠ Caverphone2.encode sigmaTable c!"AΣe" := by
  decide +kernel

end Verif.Props
