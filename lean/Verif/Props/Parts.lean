import Verif.Spec.Parts
import Verif.Props.Cologne
import Verif.Props.Together
/-!
# C116: codes are put together from the codes of parts
-/

set_option linter.unusedSimpArgs false

namespace Verif.Props
open Spec TogetherProofs

namespace PartsProofs

/-- Only the last letter read, and whether a letter other than H was read, matter. -/
theorem codes_congr (w : Str) : ∀ (p q : Str), p.head? = q.head? → p.all (· == 'H') = q.all (· == 'H') →
    cologneCodes p w = cologneCodes q w := by
  induction w with
  | nil => intros; rfl
  | cons c r ih =>
    intro p q h1 h2
    unfold cologneCodes
    rw [h1, h2, ih (c :: p) (c :: q) rfl (by simp only [List.all_cons, h2]), ih p q h1 h2]

theorem vowel_code (onset : Bool) (p n : Option Char) (v : Char) (hv : v ∈ c!"AEIJOUY") : cologneCode onset p n v = ['0'] := by
  unfold cologneCode
  rw [if_pos (List.contains_iff_mem.mpr hv)]

theorem vowel_upper {v : Char} (hv : v ∈ c!"AEIJOUY") : isAsciiUpper v = true ∧ v ≠ 'H' := by
  have : ∀ v ∈ c!"AEIJOUY", isAsciiUpper v = true ∧ v ≠ 'H' := by decide +kernel
  exact this v hv

theorem codes_cut (v : Char) (hv : v ∈ c!"AEIJOUY") (b : Str) (w : Str) : ∀ p,
    ∃ k, cologneCodes p (w ++ v :: b) = k ++ '0' :: cologneCodes [v] b ∧ cologneCodes p (w ++ [v]) = k ++ ['0'] := by
  obtain ⟨hu, hH⟩ := vowel_upper hv
  induction w with
  | nil =>
    intro p
    refine ⟨[], ?_, ?_⟩
    · simp only [List.nil_append]
      rw [cologneCodes, if_pos hu, vowel_code _ _ _ v hv]
      rw [codes_congr b (v :: p) [v] rfl (by simp [hH])]; rfl
    · simp only [List.nil_append]
      rw [cologneCodes, if_pos hu, vowel_code _ _ _ v hv]; rfl
  | cons c r ih =>
    intro p
    have hn : (r ++ v :: b).head? = (r ++ [v]).head? := by cases r <;> rfl
    simp only [List.cons_append]
    cases hc : isAsciiUpper c with
    | false =>
      obtain ⟨k, h1, h2⟩ := ih p
      refine ⟨k, ?_, ?_⟩
      · rw [cologneCodes, hc]; exact h1
      · rw [cologneCodes, hc]; exact h2
    | true =>
      obtain ⟨k, h1, h2⟩ := ih (c :: p)
      refine ⟨cologneCode (p.all (· == 'H')) p.head? (r ++ [v]).head? c ++ k, ?_, ?_⟩
      · rw [cologneCodes, hc, if_pos rfl, h1, hn, List.append_assoc]
      · rw [cologneCodes, hc, if_pos rfl, h2, List.append_assoc]

theorem codes_vowel (v : Char) (hv : v ∈ c!"AEIJOUY") (b : Str) :
    cologneCodes [] (v :: b) = '0' :: cologneCodes [v] b := by
  rw [cologneCodes, if_pos (vowel_upper hv).1, vowel_code _ _ _ v hv]; rfl

theorem collapse_cut (k l : Str) : collapse (k ++ '0' :: l) = collapse (k ++ ['0']) ++ (collapse ('0' :: l)).drop 1 := by
  cases k with
  | nil =>
    obtain ⟨t, ht⟩ := collapse_head '0' l
    simp [ht, collapse]
  | cons a k =>
    have h := collapse_join a (k ++ ['0']) l
    have e : (a :: (k ++ ['0'])).getLast (by simp) = '0' := by
      rw [List.getLast_cons (by simp)]; simp
    rw [e] at h
    simpa using h

theorem finish_zero (l : Str) : cologneFinish ('0' :: l) = '0' :: (((collapse ('0' :: l)).drop 1).filter (· ≠ '-')).filter (· ≠ '0') := by
  unfold cologneFinish
  obtain ⟨t, ht⟩ := collapse_head '0' l
  rw [ht, List.filter_cons_of_pos (by decide)]
  rfl

theorem finish_cut (k l : Str) :
    cologneFinish (k ++ '0' :: l) = cologneFinish (k ++ ['0']) ++ (cologneFinish ('0' :: l)).drop 1 := by
  rw [finish_zero]
  unfold cologneFinish
  rw [collapse_cut, List.filter_append]
  generalize hf : (collapse (k ++ ['0'])).filter (· ≠ '-') = f
  have hm : '0' ∈ f := by
    rw [← hf, List.mem_filter]
    exact ⟨mem_collapse.mpr (by simp), by decide⟩
  cases f with
  | nil => exact absurd hm (by simp)
  | cons d ds => simp only [List.cons_append, List.filter_append, List.drop_one, List.tail_cons]

theorem word_append (U : Unicode) (a b : Str) : cologneWord U (a ++ b) = cologneWord U a ++ cologneWord U b := by
  simp [cologneWord, Unicode.strUpper]

theorem word_vowel (U : Unicode) {v : Char} (hv : v ∈ germanVowels) : ∃ x, x ∈ c!"AEIJOUY" ∧ cologneWord U [v] = [x] := by
  have main : ∀ v ∈ c!"AEIJOUYaeijouy", isAscii v = true ∧ unUmlaut (asciiUpper v) ∈ c!"AEIJOUY" := by decide +kernel
  have : v ∈ c!"AEIJOUYaeijouy" ∨ v ∈ c!"ÄÖÜäöü" := by
    have : germanVowels = c!"AEIJOUYaeijouy" ++ c!"ÄÖÜäöü" := rfl
    rw [this] at hv; exact List.mem_append.mp hv
  rcases this with h | h
  · obtain ⟨h1, h2⟩ := main v h
    refine ⟨_, h2, ?_⟩
    simp [cologneWord, Unicode.strUpper, U.toUpper_ascii v h1]
  · obtain ⟨u1, u2, u3, u4, u5, u6⟩ := U.toUpper_umlaut
    simp only [List.mem_cons, List.not_mem_nil, or_false] at h
    rcases h with rfl | rfl | rfl | rfl | rfl | rfl
    · exact ⟨'A', by decide, by simp [cologneWord, Unicode.strUpper, u4, unUmlaut]⟩
    · exact ⟨'O', by decide, by simp [cologneWord, Unicode.strUpper, u5]; decide⟩
    · exact ⟨'U', by decide, by simp [cologneWord, Unicode.strUpper, u6]; decide⟩
    · exact ⟨'A', by decide, by simp [cologneWord, Unicode.strUpper, u1, unUmlaut]⟩
    · exact ⟨'O', by decide, by simp [cologneWord, Unicode.strUpper, u2]; decide⟩
    · exact ⟨'U', by decide, by simp [cologneWord, Unicode.strUpper, u3]; decide⟩

/-- The codes of a word that does not end in C do not depend on a vowel after it. -/
theorem codes_before_vowel (v : Char) (hv : v ∈ c!"AEIJOUY") (w : Str) : ∀ p, w.getLast? ≠ some 'C' →
    cologneCodes p (w ++ [v]) = cologneCodes p w ++ ['0'] := by
  induction w with
  | nil =>
    intro p _
    show cologneCodes p [v] = ['0']
    rw [cologneCodes, if_pos (vowel_upper hv).1, vowel_code _ _ _ v hv]; rfl
  | cons c r ih =>
    intro p hl
    simp only [List.cons_append]
    have hl' : r.getLast? ≠ some 'C' := by
      cases r with
      | nil => simp
      | cons d r => simpa [List.getLast?_cons_cons] using hl
    cases hc : isAsciiUpper c with
    | false =>
      rw [cologneCodes, hc]
      simp only [Bool.false_eq_true, if_false]
      rw [ih p hl']
      conv => rhs; rw [cologneCodes, hc]
      simp only [Bool.false_eq_true, if_false]
    | true =>
      rw [cologneCodes, hc, if_pos rfl, ih (c :: p) hl']
      conv => rhs; rw [cologneCodes, hc, if_pos rfl]
      rw [List.append_assoc]
      congr 1
      cases r with
      | cons d r => rfl
      | nil =>
        have hcC : c ≠ 'C' := by rintro rfl; exact hl rfl
        have h1 : oneOf (some v) c!"CSZ" = false := by
          have : ∀ v ∈ c!"AEIJOUY", oneOf (some v) c!"CSZ" = false := by decide +kernel
          exact this v hv
        have h2 : v ≠ 'H' := (vowel_upper hv).2
        simp only [List.nil_append, List.head?_cons, List.head?_nil]
        unfold cologneCode
        simp only [hcC, if_false, h1, Option.some.injEq, h2, reduceCtorEq]
        rfl

theorem finish_nil_iff (k : Str) : cologneFinish k = [] ↔ ∀ d ∈ k, d = '-' := by
  unfold cologneFinish
  constructor
  · intro h d hd
    cases hf : (collapse k).filter (· ≠ '-') with
    | cons x xs => rw [hf] at h; simp at h
    | nil =>
      have := (List.filter_eq_nil_iff.mp hf) d (mem_collapse.mpr hd)
      simpa using this
  · intro h
    have : (collapse k).filter (· ≠ '-') = [] := by
      rw [List.filter_eq_nil_iff]
      intro d hd
      simp [h d (mem_collapse.mp hd)]
    rw [this]

theorem finish_append_zero (k : Str) (h : cologneFinish k ≠ []) : cologneFinish (k ++ ['0']) = cologneFinish k := by
  cases k with
  | nil => exact absurd rfl h
  | cons a k =>
    unfold cologneFinish at h ⊢
    have e := collapse_join a k ['0']
    rw [List.cons_append, e, List.filter_append]
    generalize (a :: k).getLast _ = z
    generalize (collapse (a :: k)).filter (· ≠ '-') = f at h ⊢
    cases f with
    | nil => exact absurd rfl h
    | cons d ds =>
      have : (((collapse [z, '0']).drop 1).filter (· ≠ '-')).filter (· ≠ '0') = [] := by
        rw [collapse_cons_cons]
        by_cases hz : z = '0'
        · simp [hz, collapse]
        · simp [hz, collapse]
      simp only [List.cons_append, List.filter_append, this, List.append_nil]

theorem finish_silent (k l : Str) (h : ∀ d ∈ k, d = '-') : cologneFinish (k ++ '0' :: l) = cologneFinish ('0' :: l) := by
  unfold cologneFinish
  rw [collapse_cut, List.filter_append]
  have : (collapse (k ++ ['0'])).filter (· ≠ '-') = ['0'] := by
    induction k with
    | nil => rfl
    | cons a k ih =>
      have ha := h a (by simp)
      subst ha
      have ih := ih (fun d hd => h d (by simp [hd]))
      cases k with
      | nil => decide
      | cons b k =>
        have hb := h b (by simp)
        subst hb
        simpa [List.cons_append, collapse_cons_cons] using ih
  rw [this]
  obtain ⟨t, ht⟩ := collapse_head '0' l
  rw [ht, List.filter_cons_of_pos (by decide)]
  rfl

theorem refined_cut (table : Str) (l : Str) (c : Char) (r : Str) :
    refinedSoundex table (l ++ c :: r) = refinedSoundex table (l ++ [c]) ++ (refinedSoundex table (c :: r)).drop 2 := by
  obtain ⟨t, ht⟩ := collapse_head (codeOf table c) (r.map (codeOf table))
  cases l with
  | nil =>
    simp only [List.nil_append, refinedSoundex, List.map_cons, List.map_nil, ht]
    simp [collapse]
  | cons f k =>
    simp only [List.cons_append, refinedSoundex, List.map_cons, List.map_append, List.map_nil]
    have h := collapse_join (codeOf table f) (k.map (codeOf table) ++ [codeOf table c]) (r.map (codeOf table))
    have e : (codeOf table f :: (k.map (codeOf table) ++ [codeOf table c])).getLast (by simp) = codeOf table c := by
      rw [List.getLast_cons (by simp)]; simp
    rw [e] at h
    rw [ht] at h ⊢
    simpa using h

end PartsProofs
open PartsProofs

/-- C116. Cologne: a text can be cut at a vowel.  Its code is that of the part up to the vowel followed by that of the part from
the vowel on, without the zero of the vowel. -/
theorem cologne_cut (U : Unicode) (a b : Str) (v : Char) (hv : v ∈ germanVowels) :
    Cologne.encode U (a ++ v :: b) = Cologne.encode U (a ++ [v]) ++ (Cologne.encode U (v :: b)).drop 1 ∧
    (Cologne.encode U (v :: b)).head? = some '0' := by
  obtain ⟨x, hx, e⟩ := word_vowel U hv
  simp only [cologne_eq_spec, cologne]
  have e1 : cologneWord U (a ++ v :: b) = cologneWord U a ++ x :: cologneWord U b := by
    have : a ++ v :: b = a ++ ([v] ++ b) := rfl
    rw [this, word_append, word_append, e]; rfl
  have e2 : cologneWord U (v :: b) = x :: cologneWord U b := by
    have : v :: b = [v] ++ b := rfl
    rw [this, word_append, e]; rfl
  have e3 : cologneWord U (a ++ [v]) = cologneWord U a ++ [x] := by rw [word_append, e]
  obtain ⟨k, h1, h2⟩ := codes_cut x hx (cologneWord U b) (cologneWord U a) []
  rw [e1, e2, e3, h1, h2, codes_vowel x hx, finish_cut]
  exact ⟨rfl, by rw [finish_zero]; rfl⟩

/-- C116. Cologne: cut at any number of vowels. -/
theorem cologne_parts (U : Unicode) (first : Str) (parts : List (Char × Str)) (h : ∀ p ∈ parts, p.1 ∈ germanVowels) :
    Cologne.encode U (partsText first parts) = partsCode (Cologne.encode U) first parts := by
  induction parts generalizing first with
  | nil => rfl
  | cons p r ih =>
    obtain ⟨v, b⟩ := p
    have hv := h (v, b) (by simp)
    have ih := ih (v :: b) (fun p hp => h p (by simp [hp]))
    have shape : ∃ t, partsText (v :: b) r = v :: t := by
      cases r with
      | nil => exact ⟨b, rfl⟩
      | cons q r => exact ⟨b ++ partsText (q.1 :: q.2) r, rfl⟩
    obtain ⟨t, ht⟩ := shape
    rw [partsCode, ← ih, partsText, ht]
    exact (cologne_cut U first t v hv).1

/-- C116. Cologne: the code of two texts put together, if the second begins with a vowel and the first does not end in C, is
that of the first followed by that of the second without its zero. -/
theorem cologne_compound (U : Unicode) (a b : Str) (v : Char) (hv : v ∈ germanVowels)
    (ha : (U.strUpper a).getLast? ≠ some 'C') :
    Cologne.encode U (a ++ v :: b) = if Cologne.encode U a = [] then Cologne.encode U (v :: b)
      else Cologne.encode U a ++ (Cologne.encode U (v :: b)).drop 1 := by
  obtain ⟨x, hx, e⟩ := word_vowel U hv
  have hl : (cologneWord U a).getLast? ≠ some 'C' := by
    unfold cologneWord
    rw [List.getLast?_map]
    cases hg : (U.strUpper a).getLast? with
    | none => simp
    | some c =>
      rw [hg] at ha
      simp only [Option.map_some, ne_eq, Option.some.injEq] at ha ⊢
      unfold unUmlaut
      split
      · decide
      · split
        · decide
        · split
          · decide
          · exact ha
  have hcut := (cologne_cut U a b v hv).1
  have e3 : cologneWord U (a ++ [v]) = cologneWord U a ++ [x] := by rw [word_append, e]
  have e2 : cologneWord U (v :: b) = x :: cologneWord U b := by
    have : v :: b = [v] ++ b := rfl
    rw [this, word_append, e]; rfl
  have hp : Cologne.encode U (a ++ [v]) = cologneFinish (cologneCodes [] (cologneWord U a) ++ ['0']) := by
    rw [cologne_eq_spec, cologne, e3, codes_before_vowel x hx _ _ hl]
  have hq : Cologne.encode U a = cologneFinish (cologneCodes [] (cologneWord U a)) := by rw [cologne_eq_spec, cologne]
  have hr : Cologne.encode U (v :: b) = cologneFinish ('0' :: cologneCodes [x] (cologneWord U b)) := by
    rw [cologne_eq_spec, cologne, e2, codes_vowel x hx]
  split
  · rename_i hn
    rw [hq, finish_nil_iff] at hn
    rw [hcut, hp, hr, finish_silent _ [] hn, finish_zero (cologneCodes [x] (cologneWord U b))]
    rfl
  · rename_i hn
    rw [hcut, hp]
    rw [hq] at hn ⊢
    rw [finish_append_zero _ hn]

/-- C116. Refined Soundex: an ASCII text can be cut at any letter.  Its code is that of the part up to the letter followed by
that of the part from the letter on, without the letter and its digit. -/
theorem refined_soundex_cut (U : Unicode) (rs : RefinedSoundex) (a b : Str) (c : Char) (ha : AsciiStr a) (hb : AsciiStr b)
    (hc : isAsciiAlpha c = true) :
    ∃ p q, rs.encode U (a ++ [c]) = .ok p ∧ rs.encode U (c :: b) = .ok q ∧
      rs.encode U (a ++ c :: b) = .ok (p ++ q.drop 2) := by
  have hca : isAscii c = true := by
    unfold isAsciiAlpha at hc
    unfold isAscii
    simp [isAsciiLower, isAsciiUpper] at hc ⊢
    omega
  have h1 : AsciiStr (a ++ [c]) := asciiStr_append.mpr ⟨ha, fun x hx => by simp at hx; exact hx ▸ hca⟩
  have h2 : AsciiStr (c :: b) := fun x hx => by
    rcases List.mem_cons.mp hx with rfl | hx
    · exact hca
    · exact hb x hx
  have h3 : AsciiStr (a ++ c :: b) := asciiStr_append.mpr ⟨ha, h2⟩
  have e : asciiLetters (c :: b) = asciiUpper c :: asciiLetters b := by
    simp [asciiLetters, hc]
  refine ⟨_, _, refinedSoundex_ascii U rs _ h1, refinedSoundex_ascii U rs _ h2, ?_⟩
  have e1 : asciiLetters [c] = [asciiUpper c] := by simp [asciiLetters, hc]
  rw [refinedSoundex_ascii U rs _ h3, asciiLetters_append, asciiLetters_append, e, e1, refined_cut]

/-! Cases. -/

example : Cologne.encode .latin1 c!"Müller-Lüdenscheidt" = c!"65752682" ∧
    Cologne.encode .latin1 c!"Müller-Lü" = c!"6575" ∧ Cologne.encode .latin1 c!"üdenscheidt" = c!"02682" ∧
    partsText c!"M" [('ü', c!"ll"), ('e', c!"r-L"), ('ü', c!"denscheidt")] = c!"Müller-Lüdenscheidt" := by decide +kernel

/-- The first part must not end in C. -/
example : Cologne.encode .latin1 c!"Marc" = c!"678" ∧ Cologne.encode .latin1 c!"Anton" = c!"0626" ∧
    Cologne.encode .latin1 c!"MarcAnton" = c!"674626" := by decide +kernel

example : Cologne.encode .latin1 c!"Karl" = c!"475" ∧ Cologne.encode .latin1 c!"KarlAnton" = c!"475626" := by decide +kernel

/-- A cut at a consonant would not do: TS, and equal digits. -/
example : Cologne.encode .latin1 c!"Brats" = c!"178" ∧ Cologne.encode .latin1 c!"Brat" = c!"172" ∧
    Cologne.encode .latin1 c!"ts" = c!"8" := by decide +kernel

example : RefinedSoundex.default.encode .latin1 c!"Testing" = .ok c!"T6036084" ∧
    RefinedSoundex.default.encode .latin1 c!"Tes" = .ok c!"T603" ∧
    RefinedSoundex.default.encode .latin1 c!"sting" = .ok c!"S36084" := by decide +kernel

end Verif.Props
