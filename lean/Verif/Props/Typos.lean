import Verif.Props.Parts
import Verif.Props.PartsMetaphone
import Verif.Props.Lengths
/-!
# C117: a change inside a name changes only the inside of its code
-/

set_option linter.unusedSimpArgs false

namespace Verif.Props
open Spec TogetherProofs PartsProofs LengthProofs

namespace TypoProofs

theorem weigh_le (x : Str) : weigh (fun c => if c = 'X' then 1 else 0) x ≤ 2 * x.length := by
  rw [weigh_x]
  have h1 : (x.filter isAsciiUpper).length ≤ x.length := List.length_filter_le _ _
  have h2 : (x.filter isAsciiUpper).count 'X' ≤ (x.filter isAsciiUpper).length := List.count_le_length
  omega

theorem weigh_one {w : Char} (h : isAsciiUpper w = true ∧ w ≠ 'X') : weigh (fun c => if c = 'X' then 1 else 0) [w] = 1 := by
  simp [weigh, h.1, h.2]

theorem cologne_middle (v w : Char) (hv : v ∈ c!"AEIJOUY") (hw : w ∈ c!"AEIJOUY") (x : Str) :
    ((cologneFinish (cologneCodes [] (v :: x ++ [w]))).drop 1).length ≤ 2 * x.length := by
  rw [List.cons_append, codes_vowel v hv, finish_zero, List.drop_one, List.tail_cons]
  obtain ⟨k, _, h2⟩ := codes_cut w hw [] x [v]
  have hX : ∀ w ∈ c!"AEIJOUY", isAsciiUpper w = true ∧ w ≠ 'X' := by decide +kernel
  have hlen := cologneCodes_length (x ++ [w]) [v]
  rw [weigh_append, weigh_one (hX w hw), h2, List.length_append, List.length_singleton] at hlen
  have := weigh_le x
  rw [h2]
  have hs : (((collapse ('0' :: (k ++ ['0']))).drop 1).filter (· ≠ '-')).Sublist (k ++ ['0']) := by
    have h1 := (collapse_sublist ('0' :: (k ++ ['0']))).drop 1
    simp only [List.drop_one, List.tail_cons] at h1 ⊢
    exact List.filter_sublist.trans h1
  have h3 := (hs.filter (· ≠ '0')).length_le
  have h4 : ((k ++ ['0']).filter (· ≠ '0')).length ≤ k.length := by
    rw [List.filter_append]
    simp only [List.length_append]
    have := List.length_filter_le (fun c => decide (c ≠ '0')) k
    simpa using this
  omega

theorem meta_middle {w : Char} (hw : w ∈ c!"AEOU") (x : Str) : ∀ p, p ≠ [] →
    (metaCodes p (x ++ [w])).length ≤ weigh (fun c => if c = 'X' then 1 else 0) x := by
  induction x with
  | nil =>
    intro p hp
    simp only [List.nil_append]
    rw [metaCodes, metaCodes]
    unfold metaLetter
    rw [if_pos (meta_vowel hw).2.2.2.2.2.1, if_neg hp]
    simp
  | cons c x ih =>
    intro p hp
    simp only [List.cons_append]
    rw [metaCodes, List.length_append, weigh]
    have h1 := ih (c :: p) (by simp)
    have h2 := metaLetter_length p c (x ++ [w])
    have h3 : ∀ {P : Prop} [Decidable P] (l : Str), (if P then [] else l : Str).length ≤ l.length := by
      intro P _ l; split <;> simp
    have h4 := h3 (P := metaAbsorbed p c (x ++ [w]) = true ∨ c ≠ 'C' ∧ [c] <+: p) (metaLetter p c (x ++ [w]))
    omega

end TypoProofs
open TypoProofs

/-- C117. Refined Soundex: whatever is written between two letters of an ASCII text, the code up to the first and the code from
the second on remain; what is between them is at most one longer than what is written. -/
theorem refined_soundex_typo (U : Unicode) (rs : RefinedSoundex) (a b : Str) (c d : Char) (ha : AsciiStr a) (hb : AsciiStr b)
    (hc : isAsciiAlpha c = true) (hd : isAsciiAlpha d = true) :
    ∃ p s, rs.encode U (a ++ [c]) = .ok p ∧ (∃ q, rs.encode U (d :: b) = .ok q ∧ s = q.drop 2) ∧
      ∀ x, AsciiStr x → ∃ m, rs.encode U (a ++ c :: (x ++ d :: b)) = .ok (p ++ m ++ s) ∧ m.length ≤ x.length + 1 := by
  have asc : ∀ {e : Char}, isAsciiAlpha e = true → isAscii e = true := by
    intro e h
    unfold isAsciiAlpha at h
    unfold isAscii
    simp [isAsciiLower, isAsciiUpper] at h ⊢
    omega
  have hdb : AsciiStr (d :: b) := fun y hy => by
    rcases List.mem_cons.mp hy with rfl | hy
    · exact asc hd
    · exact hb y hy
  obtain ⟨p, q0, hp, _, _⟩ := refined_soundex_cut U rs a b c ha hb hc
  refine ⟨p, _, hp, ⟨_, refinedSoundex_ascii U rs _ hdb, rfl⟩, ?_⟩
  intro x hx
  obtain ⟨p1, q1, e1, e2, e3⟩ := refined_soundex_cut U rs a (x ++ d :: b) c ha (asciiStr_append.mpr ⟨hx, hdb⟩) hc
  have hcx : AsciiStr (c :: x) := fun y hy => by
    rcases List.mem_cons.mp hy with rfl | hy
    · exact asc hc
    · exact hx y hy
  obtain ⟨p2, q2, f1, f2, f3⟩ := refined_soundex_cut U rs (c :: x) b d hcx hb hd
  have hp1 : p1 = p := Except.ok.inj (e1.symm.trans hp)
  have hq2 := Except.ok.inj (f2.symm.trans (refinedSoundex_ascii U rs _ hdb))
  have hq1 : q1 = p2 ++ q2.drop 2 := Except.ok.inj (e2.symm.trans f3)
  have hcxd : AsciiStr (c :: x ++ [d]) := asciiStr_append.mpr ⟨hcx, fun y hy => by simp at hy; exact hy ▸ asc hd⟩
  have hp2 := Except.ok.inj (f1.symm.trans (refinedSoundex_ascii U rs _ hcxd))
  have el : asciiLetters (c :: x ++ [d]) = asciiUpper c :: (asciiLetters x ++ [asciiUpper d]) := by
    simp [asciiLetters, hc, hd]
  obtain ⟨t, ht⟩ : ∃ t, p2 = asciiUpper c :: codeOf rs.mapping.val (asciiUpper c) :: t ∧ t.length ≤ x.length + 1 := by
    rw [hp2, el]
    simp only [refinedSoundex, List.map_cons]
    obtain ⟨t, ht⟩ := collapse_head (codeOf rs.mapping.val (asciiUpper c)) ((asciiLetters x ++ [asciiUpper d]).map (codeOf rs.mapping.val))
    refine ⟨t, by rw [ht], ?_⟩
    have hl := collapse_length_le (codeOf rs.mapping.val (asciiUpper c) :: (asciiLetters x ++ [asciiUpper d]).map (codeOf rs.mapping.val))
    rw [ht] at hl
    have : (asciiLetters x).length ≤ x.length := by
      unfold asciiLetters; rw [List.length_map]; exact List.length_filter_le _ _
    simp at hl
    omega
  refine ⟨t, ?_, ht.2⟩
  rw [e3, hp1, hq1, ht.1, hq2]
  simp

/-- C117. Cologne: whatever is written between two vowels, the code up to the first and the code from the second on remain; what
is between them is at most twice as long as what is written (in capitals). -/
theorem cologne_typo (U : Unicode) (a b : Str) (v w : Char) (hv : v ∈ germanVowels) (hw : w ∈ germanVowels) :
    ∃ p s, p = Cologne.encode U (a ++ [v]) ∧ s = (Cologne.encode U (w :: b)).drop 1 ∧
      ∀ x, ∃ m, Cologne.encode U (a ++ v :: (x ++ w :: b)) = p ++ m ++ s ∧ m.length ≤ 2 * (U.strUpper x).length := by
  refine ⟨_, _, rfl, rfl, fun x => ⟨(Cologne.encode U (v :: x ++ [w])).drop 1, ?_, ?_⟩⟩
  · have h1 := (cologne_cut U a (x ++ w :: b) v hv).1
    have h2 := (cologne_cut U (v :: x) b w hw).1
    have h3 := (cologne_cut U [] (x ++ [w]) v hv).2
    simp only [List.cons_append] at h2 h3 ⊢
    rw [h1, h2]
    generalize Cologne.encode U (v :: (x ++ [w])) = y at h3 ⊢
    cases y with
    | nil => simp at h3
    | cons d y => simp
  · obtain ⟨v', hv', ev⟩ := word_vowel U hv
    obtain ⟨w', hw', ew⟩ := word_vowel U hw
    have e : cologneWord U (v :: x ++ [w]) = v' :: cologneWord U x ++ [w'] := by
      have : v :: x ++ [w] = [v] ++ x ++ [w] := rfl
      rw [this, word_append, word_append, ev, ew]; rfl
    have := cologne_middle v' w' hv' hw' (cologneWord U x)
    rw [cologne_eq_spec, cologne, e]
    have hl : (cologneWord U x).length = (U.strUpper x).length := by simp [cologneWord]
    omega

/-- C117. Metaphone without limit: whatever is written between two of the vowels A, E, O, U of an ASCII text, the code up to the
first and the code from the second on remain, unless the text begins with CH before the first vowel, or AE arises; what is between
them is at most twice as long as what is written. -/
theorem metaphone_typo (U : Unicode) (a b : Str) (v w : Char) (hv : v ∈ c!"AEOUaeou") (hw : w ∈ c!"AEOUaeou")
    (ha : AsciiStr a) (hb : AsciiStr b) (hch : a.map asciiUpper ≠ c!"CH")
    (hae : ¬ (asciiUpper w = 'A' ∧ (b.map asciiUpper).head? = some 'E')) :
    ∃ p s, (Metaphone.new none).encode U (a ++ [v]) = .ok p ∧ (Metaphone.new none).encode U (w :: b) = .ok (asciiUpper w :: s) ∧
      ∀ x, AsciiStr x → ¬ (asciiUpper v = 'A' ∧ ((x ++ [w]).map asciiUpper).head? = some 'E') →
        ∃ m, (Metaphone.new none).encode U (a ++ v :: (x ++ w :: b)) = .ok (p ++ m ++ s) ∧ m.length ≤ 2 * x.length := by
  have vw : ∀ v ∈ c!"AEOUaeou", isAscii v = true ∧ asciiUpper v ∈ c!"AEOU" := by decide +kernel
  have hwb : AsciiStr (w :: b) := fun y hy => by
    rcases List.mem_cons.mp hy with rfl | hy
    · exact (vw _ hw).1
    · exact hb y hy
  obtain ⟨p0, q0, hp0, hq0, _, hh0⟩ := metaphone_cut U [] b w hw (by simp [AsciiStr]) hb (by simp) hae
  have hav : AsciiStr (a ++ [v]) := asciiStr_append.mpr ⟨ha, fun y hy => by simp at hy; exact hy ▸ (vw v hv).1⟩
  obtain ⟨s, rfl⟩ : ∃ s, q0 = asciiUpper w :: s := by
    cases q0 with
    | nil => simp at hh0
    | cons d s => simp at hh0; exact ⟨s, by rw [hh0]⟩
  refine ⟨_, s, (metaphone_eq_spec U _ hav).1, hq0, fun x hx hxe => ?_⟩
  have hxw : AsciiStr (x ++ w :: b) := asciiStr_append.mpr ⟨hx, hwb⟩
  have hvx : AsciiStr (v :: x) := fun y hy => by
    rcases List.mem_cons.mp hy with rfl | hy
    · exact (vw _ hv).1
    · exact hx y hy
  have hxe' : ¬ (asciiUpper v = 'A' ∧ ((x ++ w :: b).map asciiUpper).head? = some 'E') := by
    cases x with
    | nil => simpa using hxe
    | cons y x => simpa using hxe
  obtain ⟨p1, q1, e1, e2, e3, _⟩ := metaphone_cut U a (x ++ w :: b) v hv ha hxw hch hxe'
  have hne : (v :: x).map asciiUpper ≠ c!"CH" := by
    intro h
    have h' : asciiUpper v = 'C' := by simpa using congrArg List.head? h
    have := (vw v hv).2
    rw [h'] at this
    exact absurd this (by decide)
  obtain ⟨p2, q2, f1, f2, f3, _⟩ := metaphone_cut U (v :: x) b w hw hvx hb hne hae
  have hp1 := Except.ok.inj (e1.symm.trans (metaphone_eq_spec U _ hav).1)
  have hq2 := Except.ok.inj (f2.symm.trans hq0)
  have hq1 : q1 = p2 ++ q2.drop 1 := Except.ok.inj (e2.symm.trans f3)
  have hvxw : AsciiStr (v :: x ++ [w]) := asciiStr_append.mpr ⟨hvx, fun y hy => by simp at hy; exact hy ▸ (vw w hw).1⟩
  have hp2 := Except.ok.inj (f1.symm.trans (metaphone_eq_spec U _ hvxw).1)
  -- the code of the part in the middle
  have hmid : p2 = asciiUpper v :: metaCodes [asciiUpper v] (x.map asciiUpper ++ [asciiUpper w]) := by
    rw [hp2]
    have e : (v :: x ++ [w]).map asciiUpper = asciiUpper v :: (x.map asciiUpper ++ [asciiUpper w]) := by simp
    rw [e]
    have hm : asciiUpper v = 'A' ∨ asciiUpper v = 'E' ∨ asciiUpper v = 'O' ∨ asciiUpper v = 'U' := by simpa using (vw v hv).2
    have hxe2 : ¬ (asciiUpper v = 'A' ∧ (x.map asciiUpper ++ [asciiUpper w]).head? = some 'E') := by
      have : (x ++ [w]).map asciiUpper = x.map asciiUpper ++ [asciiUpper w] := by simp
      rw [this] at hxe; exact hxe
    have hvv := (vw v hv).2
    generalize asciiUpper v = u at hm hxe2 hvv
    unfold metaphone
    rw [if_neg (by simp)]
    have : metaInitial (u :: (x.map asciiUpper ++ [asciiUpper w])) = u :: (x.map asciiUpper ++ [asciiUpper w]) := by
      generalize x.map asciiUpper ++ [asciiUpper w] = c at hxe2
      cases c with
      | nil => rcases hm with rfl | rfl | rfl | rfl <;> simp [metaInitial]
      | cons d c =>
        rcases hm with rfl | rfl | rfl | rfl <;> simp [metaInitial]
        intro h; exact absurd ⟨rfl, by simp [← h]⟩ hxe2
    rw [this, meta_vowel_codes hvv]
  refine ⟨metaCodes [asciiUpper v] (x.map asciiUpper ++ [asciiUpper w]), ?_, ?_⟩
  · rw [e3, hp1, hq1, hmid, hq2]
    simp
  · have h1 := meta_middle (vw w hw).2 (x.map asciiUpper) [asciiUpper v] (by simp)
    have h2 := weigh_le (x.map asciiUpper)
    rw [List.length_map] at h2
    omega

/-! Cases. -/

example : Cologne.encode .latin1 c!"Schmidtmeister" = c!"8626827" ∧ Cologne.encode .latin1 c!"Schmittmeister" = c!"8626827" ∧
    Cologne.encode .latin1 c!"Schmixeister" = c!"8648827" := by decide +kernel

example : RefinedSoundex.default.encode .latin1 c!"Robertson" = .ok c!"R901096308" ∧
    RefinedSoundex.default.encode .latin1 c!"Robxxrtson" = .ok c!"R901596308" := by decide +kernel

example : (Metaphone.new none).encode .latin1 c!"Robertson" = .ok c!"RBRTSN" ∧
    (Metaphone.new none).encode .latin1 c!"Roxertson" = .ok c!"RKSRTSN" := by decide +kernel

end Verif.Props
