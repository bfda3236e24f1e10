import Verif.Spec.Together
import Verif.Props.Soundex
import Verif.Model.DaitchMokotoffRules
import Verif.Model.DoubleMetaphone
import Verif.Model.Caverphone
import Verif.Model.Nysiis
import Verif.Model.MatchRating
import Verif.Model.Metaphone
import Verif.Model.Cologne
import Verif.Model.Phonex
/-!
# C111: equal codes stay equal when the same text is added
-/
namespace Verif.Props
open Verif.Spec

namespace TogetherProofs

theorem collapse_join (a : Char) (k l : Str) : collapse (a :: (k ++ l)) =
    collapse (a :: k) ++ (collapse (((a :: k).getLast (by simp)) :: l)).drop 1 := by
  induction k generalizing a with
  | nil =>
    obtain ⟨t, h⟩ := collapse_head a l
    simp [collapse, h]
  | cons b k ih =>
    rw [List.cons_append, collapse_cons_cons, collapse_cons_cons, ih]
    by_cases h : a = b
    · subst h; simp
    · simp [h]

theorem three_append (x d d' : Str) (h : three d = three d') : three (x ++ d) = three (x ++ d') := by
  have key : ∀ d, three (x ++ d) = (x ++ three d).take 3 := by
    intro d
    unfold three
    rw [List.append_assoc, List.take_append (l₁ := x), List.take_append (l₁ := x), List.take_take, Nat.min_eq_left (by omega)]
  rw [key, key, h]

theorem three_take (d d' : Str) (h : three d = three d') (hd : '0' ∉ d) (hd' : '0' ∉ d') : d.take 3 = d'.take 3 := by
  have key : ∀ d, '0' ∉ d → (three d).filter (· ≠ '0') = d.take 3 := by
    intro d hd
    unfold three
    rw [List.take_append, List.filter_append]
    have h1 : (d.take 3).filter (· ≠ '0') = d.take 3 := by
      rw [List.filter_eq_self]
      intro c hc
      have : c ≠ '0' := fun h => hd (h ▸ List.mem_of_mem_take hc)
      simpa using this
    have h2 : ((['0', '0', '0'] : Str).take (3 - d.length)).filter (· ≠ '0') = [] := by
      rw [List.filter_eq_nil_iff]
      intro c hc
      have := List.mem_of_mem_take hc
      simp at this
      simp [this]
    rw [h1, h2, List.append_nil]
  rw [← key d hd, ← key d' hd', h]

theorem three_append_right (d d' e : Str) (h : three d = three d') (hd : '0' ∉ d) (hd' : '0' ∉ d') :
    three (d ++ e) = three (d' ++ e) := by
  have ht := three_take d d' h hd hd'
  by_cases hl : d.length < 3
  · have e1 : d.take 3 = d := List.take_of_length_le (by omega)
    have e2 : d'.length < 3 := by
      have := congrArg List.length ht
      simp only [List.length_take] at this
      omega
    have e3 : d'.take 3 = d' := List.take_of_length_le (by omega)
    rw [← e1, ht, e3]
  · have e2 : ¬ d'.length < 3 := by
      have := congrArg List.length ht
      simp only [List.length_take] at this
      omega
    unfold three
    rw [List.append_assoc, List.append_assoc, List.take_append_of_le_length (by omega), List.take_append_of_le_length (by omega), ht]

end TogetherProofs

namespace TogetherProofs

/-- The codes of the letters after the first. -/
def heard (table : Str) (hw : Bool) (rest : Str) : Str :=
  ((rest.filter fun c => !(hw && (c == 'H' || c == 'W'))).map (codeOf table)).filter (· ≠ '-')

theorem heard_append (table : Str) (hw : Bool) (a b : Str) : heard table hw (a ++ b) = heard table hw a ++ heard table hw b := by
  simp [heard]

theorem heard_cons {table : Str} {hw : Bool} {c : Char} (h : Separates table hw c) (rest : Str) :
    heard table hw (c :: rest) = codeOf table c :: heard table hw rest := by
  unfold heard
  rw [List.filter_cons_of_pos, List.map_cons, List.filter_cons_of_pos]
  · simpa using h.1
  · cases hw with
    | false => rfl
    | true => simp [(h.2 rfl).1, (h.2 rfl).2]

theorem digits_eq (table : Str) (hw : Bool) (f : Char) (rest : Str) :
    soundexDigits table hw f rest = ((collapse (codeOf table f :: heard table hw rest)).drop 1).filter (· ≠ '0') := rfl

/-- The digits of a word that begins with other letters. -/
theorem digits_left (table : Str) (hw : Bool) (g : Char) (q : Str) (f : Char) (hf : Separates table hw f) :
    ∃ x, ∀ rest, soundexDigits table hw g (q ++ f :: rest) = x ++ soundexDigits table hw f rest := by
  generalize hz : (codeOf table g :: heard table hw q).getLast (by simp) = z
  refine ⟨((collapse (codeOf table g :: heard table hw q)).drop 1 ++ if z = codeOf table f then [] else [codeOf table f]).filter (· ≠ '0'),
    fun rest => ?_⟩
  rw [digits_eq, digits_eq, heard_append, heard_cons hf, collapse_join, hz, ← List.filter_append]
  congr 1
  obtain ⟨t, ht⟩ := collapse_head (codeOf table g) (heard table hw q)
  obtain ⟨u, hu⟩ := collapse_head (codeOf table f) (heard table hw rest)
  rw [ht, collapse_cons_cons, hu]
  by_cases h : z = codeOf table f
  · simp [h]
  · simp [h]

/-- The digits of a word that ends with other letters. -/
theorem digits_right (table : Str) (hw : Bool) (x : Char) (t : Str) : ∃ e, ∀ f rest,
    (f :: rest).getLast (by simp) = x → Separates table hw x →
    soundexDigits table hw f (rest ++ t) = soundexDigits table hw f rest ++ e := by
  refine ⟨((collapse (codeOf table x :: heard table hw t)).drop 1).filter (· ≠ '0'), fun f rest hl hx => ?_⟩
  have last : (codeOf table f :: heard table hw rest).getLast (by simp) = codeOf table x := by
    rcases List.eq_nil_or_concat rest with rfl | ⟨r, y, rfl⟩
    · simp at hl; subst hl; simp [heard]
    · have hy : y = x := by
        rw [← hl]
        simp only [List.concat_eq_append]
        rw [List.getLast_cons (by simp), List.getLast_append_of_ne_nil (by simp) (by simp)]; rfl
      have e : heard table hw (r.concat y) = heard table hw r ++ [codeOf table x] := by
        rw [List.concat_eq_append, heard_append, hy, heard_cons hx]; rfl
      simp only [e]
      rw [List.getLast_cons (by simp), List.getLast_append_of_ne_nil (by simp) (by simp)]; rfl
  rw [digits_eq, digits_eq, heard_append, collapse_join, last, ← List.filter_append]
  congr 1
  obtain ⟨t, ht⟩ := collapse_head (codeOf table f) (heard table hw rest)
  rw [ht]; simp

theorem soundex_cons (table : Str) (hw : Bool) (f : Char) (rest : Str) :
    soundex table hw (f :: rest) = f :: three (soundexDigits table hw f rest) := rfl

theorem no_zero (table : Str) (hw : Bool) (f : Char) (rest : Str) : '0' ∉ soundexDigits table hw f rest := by
  rw [digits_eq]; simp

theorem asciiLetters_append (a b : Str) : asciiLetters (a ++ b) = asciiLetters a ++ asciiLetters b := by
  simp [asciiLetters]

end TogetherProofs

open TogetherProofs

/-- C111. Soundex: two ASCII texts with the same code have the same code after any text, if their first letter (it is the same)
separates. -/
theorem soundex_before (U : Unicode) (sx : Soundex) (a s s' : Str) (ha : AsciiStr a) (hs : AsciiStr s) (hs' : AsciiStr s')
    (he : sx.encode U s = sx.encode U s')
    (hf : ∀ c, (asciiLetters s).head? = some c → Separates sx.mapping.val sx.specialCaseHW c) :
    sx.encode U (a ++ s) = sx.encode U (a ++ s') := by
  rw [soundex_ascii U sx s hs, soundex_ascii U sx s' hs'] at he
  rw [soundex_ascii U sx _ (asciiStr_append.mpr ⟨ha, hs⟩), soundex_ascii U sx _ (asciiStr_append.mpr ⟨ha, hs'⟩),
    asciiLetters_append, asciiLetters_append]
  injection he with he
  congr 1
  generalize asciiLetters s = w at he hf
  generalize asciiLetters s' = w' at he
  generalize asciiLetters a = p
  cases w with
  | nil =>
    cases w' with
    | nil => rfl
    | cons f' r' => cases he
  | cons f r =>
    cases w' with
    | nil => cases he
    | cons f' r' =>
      rw [soundex_cons, soundex_cons] at he
      injection he with h1 h2
      subst h1
      cases p with
      | nil => rw [List.nil_append, List.nil_append, soundex_cons, soundex_cons, h2]
      | cons g q =>
        obtain ⟨x, hx⟩ := digits_left sx.mapping.val sx.specialCaseHW g q f (hf f rfl)
        rw [List.cons_append, List.cons_append, soundex_cons, soundex_cons, hx, hx, three_append x _ _ h2]

/-- C111. Soundex: two ASCII texts with the same code and the same last letter have the same code before any text, if this letter
separates. -/
theorem soundex_after (U : Unicode) (sx : Soundex) (s s' b : Str) (hb : AsciiStr b) (hs : AsciiStr s) (hs' : AsciiStr s')
    (he : sx.encode U s = sx.encode U s') (hl : (asciiLetters s).getLast? = (asciiLetters s').getLast?)
    (hx : ∀ c, (asciiLetters s).getLast? = some c → Separates sx.mapping.val sx.specialCaseHW c) :
    sx.encode U (s ++ b) = sx.encode U (s' ++ b) := by
  rw [soundex_ascii U sx s hs, soundex_ascii U sx s' hs'] at he
  rw [soundex_ascii U sx _ (asciiStr_append.mpr ⟨hs, hb⟩), soundex_ascii U sx _ (asciiStr_append.mpr ⟨hs', hb⟩),
    asciiLetters_append, asciiLetters_append]
  injection he with he
  congr 1
  generalize asciiLetters s = w at he hl hx
  generalize asciiLetters s' = w' at he hl
  generalize asciiLetters b = t
  cases w with
  | nil =>
    cases w' with
    | nil => rfl
    | cons f' r' => cases he
  | cons f r =>
    cases w' with
    | nil => cases he
    | cons f' r' =>
      rw [soundex_cons, soundex_cons] at he
      injection he with h1 h2
      subst h1
      obtain ⟨e, h⟩ := digits_right sx.mapping.val sx.specialCaseHW ((f :: r).getLast (by simp)) t
      have hsep := hx _ (List.getLast?_eq_some_getLast (by simp))
      rw [List.getLast?_eq_some_getLast (by simp), List.getLast?_eq_some_getLast (by simp)] at hl
      injection hl with hl
      rw [List.cons_append, List.cons_append, soundex_cons, soundex_cons, h f r rfl hsep, h f r' hl.symm hsep, three_append_right _ _ e h2 (no_zero _ _ _ _) (no_zero _ _ _ _)]

/-- C111. So equal codes can be put together, where letters that separate meet. -/
theorem soundex_together (U : Unicode) (sx : Soundex) (s s' t t' : Str) (hs : AsciiStr s) (hs' : AsciiStr s') (ht : AsciiStr t)
    (ht' : AsciiStr t') (h1 : sx.encode U s = sx.encode U s') (h2 : sx.encode U t = sx.encode U t')
    (hl : (asciiLetters s).getLast? = (asciiLetters s').getLast?)
    (hx : ∀ c, (asciiLetters s).getLast? = some c → Separates sx.mapping.val sx.specialCaseHW c)
    (hf : ∀ c, (asciiLetters t).head? = some c → Separates sx.mapping.val sx.specialCaseHW c) :
    sx.encode U (s ++ t) = sx.encode U (s' ++ t') :=
  (soundex_after U sx s s' t ht hs hs' h1 hl hx).trans (soundex_before U sx s' t t' hs' ht ht' h2 hf)

namespace TogetherProofs

theorem collapse_last (a : Char) (k : Str) : ∀ (h : collapse (a :: k) ≠ []), (collapse (a :: k)).getLast h = (a :: k).getLast (by simp) := by
  induction k generalizing a with
  | nil => intro h; rfl
  | cons b k ih =>
    have e := collapse_cons_cons a b k
    obtain ⟨u, hu⟩ := collapse_head b k
    intro h
    simp only [e]
    rw [List.getLast_cons (l := b :: k) (by simp)]
    by_cases hab : a = b
    · simp only [hab, if_true]
      exact ih b _
    · simp only [hab, if_false]
      rw [List.getLast_cons (by rw [hu]; simp)]
      exact ih b _

/-- Codes across a seam. -/
theorem refined_join (table : Str) (f : Char) (r : Str) (g : Char) (q : Str) : refinedSoundex table ((f :: r) ++ g :: q) =
    refinedSoundex table (f :: r) ++
      (collapse (((f :: r).map (codeOf table)).getLast (by simp) :: ((g :: q).map (codeOf table)))).drop 1 := by
  unfold refinedSoundex
  simp only [List.cons_append, List.map_cons, List.map_append]
  rw [collapse_join]

theorem seam (z : Char) (l l' : Str) (h : collapse l = collapse l') : (collapse (z :: l)).drop 1 = (collapse (z :: l')).drop 1 := by
  cases l with
  | nil =>
    cases l' with
    | nil => rfl
    | cons b l' => obtain ⟨u, hu⟩ := collapse_head b l'; rw [hu] at h; cases h
  | cons a l =>
    cases l' with
    | nil => obtain ⟨u, hu⟩ := collapse_head a l; rw [hu] at h; cases h
    | cons b l' =>
      obtain ⟨u, hu⟩ := collapse_head a l
      obtain ⟨v, hv⟩ := collapse_head b l'
      have : a = b := by rw [hu, hv] at h; injection h
      subst this
      rw [collapse_cons_cons, collapse_cons_cons, h]

end TogetherProofs

/-- C111. Refined Soundex, with any mapping: texts with the same codes can be exchanged anywhere in a name. -/
theorem refined_soundex_together (U : Unicode) (rs : RefinedSoundex) (s s' t t' : Str) (hs : AsciiStr s) (hs' : AsciiStr s')
    (ht : AsciiStr t) (ht' : AsciiStr t') (h1 : rs.encode U s = rs.encode U s') (h2 : rs.encode U t = rs.encode U t') :
    rs.encode U (s ++ t) = rs.encode U (s' ++ t') := by
  rw [refinedSoundex_ascii U rs s hs, refinedSoundex_ascii U rs s' hs'] at h1
  rw [refinedSoundex_ascii U rs t ht, refinedSoundex_ascii U rs t' ht'] at h2
  rw [refinedSoundex_ascii U rs _ (asciiStr_append.mpr ⟨hs, ht⟩), refinedSoundex_ascii U rs _ (asciiStr_append.mpr ⟨hs', ht'⟩),
    asciiLetters_append, asciiLetters_append]
  injection h1 with h1
  injection h2 with h2
  congr 1
  generalize asciiLetters s = w at h1
  generalize asciiLetters s' = w' at h1
  generalize asciiLetters t = v at h2
  generalize asciiLetters t' = v' at h2
  have nil : ∀ x : Str, refinedSoundex rs.mapping.val x = [] ↔ x = [] := fun x => by cases x <;> simp [refinedSoundex]
  by_cases hw : w = []
  · have hw' : w' = [] := (nil w').mp (h1 ▸ (nil w).mpr hw)
    subst hw; subst hw'; exact h2
  have hw' : w' ≠ [] := fun h => hw ((nil w).mp (h1.trans ((nil w').mpr h)))
  by_cases hv : v = []
  · have hv' : v' = [] := (nil v').mp (h2 ▸ (nil v).mpr hv)
    subst hv; subst hv'; rw [List.append_nil, List.append_nil]; exact h1
  have hv' : v' ≠ [] := fun h => hv ((nil v).mp (h2.trans ((nil v').mpr h)))
  obtain ⟨f, r, rfl⟩ := List.exists_cons_of_ne_nil hw
  obtain ⟨f', r', rfl⟩ := List.exists_cons_of_ne_nil hw'
  obtain ⟨g, q, rfl⟩ := List.exists_cons_of_ne_nil hv
  obtain ⟨g', q', rfl⟩ := List.exists_cons_of_ne_nil hv'
  rw [refined_join, refined_join, h1]
  have e1 : collapse ((f :: r).map (codeOf rs.mapping.val)) = collapse ((f' :: r').map (codeOf rs.mapping.val)) := by
    unfold refinedSoundex at h1; injection h1
  have e2 : collapse ((g :: q).map (codeOf rs.mapping.val)) = collapse ((g' :: q').map (codeOf rs.mapping.val)) := by
    unfold refinedSoundex at h2; injection h2
  have e3 : ((f :: r).map (codeOf rs.mapping.val)).getLast (by simp) = ((f' :: r').map (codeOf rs.mapping.val)).getLast (by simp) := by
    simp only [List.map_cons] at e1 ⊢
    obtain ⟨u, hu⟩ := collapse_head (codeOf rs.mapping.val f) (r.map (codeOf rs.mapping.val))
    rw [← collapse_last _ _ (by rw [hu]; simp), ← collapse_last _ _ (by rw [← e1, hu]; simp)]
    simp only [e1]
  rw [e3, seam _ _ _ e2]

/-- C111. The conditions for Soundex are needed: an H or W at the seam, or different last letters. -/
theorem soundex_together_needs :
    Soundex.default.encode .latin1 c!"HB" = Soundex.default.encode .latin1 c!"HAB" ∧
    Soundex.default.encode .latin1 c!"PHB" = .ok c!"P000" ∧ Soundex.default.encode .latin1 c!"PHAB" = .ok c!"P100" ∧
    Soundex.default.encode .latin1 c!"BH" = Soundex.default.encode .latin1 c!"BAH" ∧
    Soundex.default.encode .latin1 c!"BHP" = .ok c!"B000" ∧ Soundex.default.encode .latin1 c!"BAHP" = .ok c!"B100" ∧
    Soundex.default.encode .latin1 c!"C" = Soundex.default.encode .latin1 c!"CA" ∧
    Soundex.default.encode .latin1 c!"CS" = .ok c!"C000" ∧ Soundex.default.encode .latin1 c!"CAS" = .ok c!"C200" := by
  decide +kernel

/-- C111. With the other encoders, texts with the same code and the same last letter may have different codes when a letter is
added. -/
theorem others_not_together :
    (Cologne.encode .latin1 c!"AC" = Cologne.encode .latin1 c!"ACC" ∧
      Cologne.encode .latin1 c!"ACA" ≠ Cologne.encode .latin1 c!"ACCA") ∧
    (MatchRating.encode .latin1 c!"AAC" = MatchRating.encode .latin1 c!"ACC" ∧
      MatchRating.encode .latin1 c!"AACC" ≠ MatchRating.encode .latin1 c!"ACCC") ∧
    (Caverphone1.encode .latin1 c!"AAC" = Caverphone1.encode .latin1 c!"ACC" ∧
      Caverphone1.encode .latin1 c!"AACE" ≠ Caverphone1.encode .latin1 c!"ACCE") ∧
    (Caverphone2.encode .latin1 c!"CE" = Caverphone2.encode .latin1 c!"KE" ∧
      Caverphone2.encode .latin1 c!"CEA" ≠ Caverphone2.encode .latin1 c!"KEA") ∧
    (∀ strict, (Nysiis.new strict).encode .latin1 c!"AAK" = (Nysiis.new strict).encode .latin1 c!"ACK" ∧
      (Nysiis.new strict).encode .latin1 c!"AAKN" ≠ (Nysiis.new strict).encode .latin1 c!"ACKN") ∧
    (Phonex.default.encode .latin1 c!"BB" = Phonex.default.encode .latin1 c!"HB" ∧
      Phonex.default.encode .latin1 c!"BBB" ≠ Phonex.default.encode .latin1 c!"HBB") ∧
    (Metaphone.default.encode .latin1 c!"HS" = Metaphone.default.encode .latin1 c!"SS" ∧
      Metaphone.default.encode .latin1 c!"HSH" ≠ Metaphone.default.encode .latin1 c!"SSH") ∧
    (DoubleMetaphone.default.encode .latin1 c!"BB" = DoubleMetaphone.default.encode .latin1 c!"HB" ∧
      DoubleMetaphone.default.encode .latin1 c!"BBB" ≠ DoubleMetaphone.default.encode .latin1 c!"HBB") ∧
    (DaitchMokotoff.defaultEncoder.soundex .latin1 c!"SSS" = DaitchMokotoff.defaultEncoder.soundex .latin1 c!"ZZS" ∧
      DaitchMokotoff.defaultEncoder.soundex .latin1 c!"SSSC" ≠ DaitchMokotoff.defaultEncoder.soundex .latin1 c!"ZZSC") := by
  decide +kernel

/-- Names that are put together: Robert and Rupert, and son and sen. -/
example (U : Unicode) : Soundex.default.encode U (c!"Robert" ++ c!"son") = Soundex.default.encode U (c!"Rupert" ++ c!"sen") :=
  soundex_together U Soundex.default c!"Robert" c!"Rupert" c!"son" c!"sen" (by decide) (by decide) (by decide) (by decide)
    (by rw [soundex_ascii U _ _ (by decide), soundex_ascii U _ _ (by decide)]; decide +kernel)
    (by rw [soundex_ascii U _ _ (by decide), soundex_ascii U _ _ (by decide)]; decide +kernel)
    (by decide +kernel)
    (fun c hc => by
      rw [show (asciiLetters c!"Robert").getLast? = some 'T' by decide +kernel] at hc
      injection hc with hc
      subst hc
      exact ⟨by decide +kernel, fun _ => by decide⟩)
    (fun c hc => by
      rw [show (asciiLetters c!"son").head? = some 'S' by decide +kernel] at hc
      injection hc with hc
      subst hc
      exact ⟨by decide +kernel, fun _ => by decide⟩)

example (U : Unicode) : RefinedSoundex.default.encode U (c!"Brown" ++ c!"ing") = RefinedSoundex.default.encode U (c!"Braun" ++ c!"inj") :=
  refined_soundex_together U RefinedSoundex.default _ _ _ _ (by decide) (by decide) (by decide) (by decide)
    (by rw [refinedSoundex_ascii U _ _ (by decide), refinedSoundex_ascii U _ _ (by decide)]; decide +kernel)
    (by rw [refinedSoundex_ascii U _ _ (by decide), refinedSoundex_ascii U _ _ (by decide)]; decide +kernel)

end Verif.Props
