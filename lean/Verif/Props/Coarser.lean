import Verif.Props.Soundex
/-!
# Refined Soundex and Soundex (C97)
-/

namespace Verif.CoarserProofs
open Spec

/-- The codes that are not silent. -/
def sounded (f : Char → Char) (l : Str) : Str := (l.map f).filter (· ≠ '-')

theorem sounded_cons (f : Char → Char) (x : Char) (l : Str) :
    sounded f (x :: l) = if f x = '-' then sounded f l else f x :: sounded f l := by
  unfold sounded
  rw [List.map_cons, List.filter_cons]
  by_cases h : f x = '-' <;> simp [h]

theorem collapse_same (a : Char) (l : Str) : collapse (a :: a :: l) = collapse (a :: l) := by
  rw [collapse_cons_cons, if_pos rfl]

theorem cons_congr (u v : Char) {a b : Str} (h : collapse (v :: a) = collapse (v :: b)) :
    collapse (u :: v :: a) = collapse (u :: v :: b) := by
  rw [collapse_cons_cons, collapse_cons_cons, h]

theorem sounded_collapse (f : Char → Char) (l : Str) : ∀ u,
    collapse (u :: sounded f l) = collapse (u :: sounded f (collapse l)) := by
  induction l with
  | nil => intro u; rfl
  | cons x l ih =>
    intro u
    have step : collapse (u :: sounded f (x :: l)) = collapse (u :: sounded f (x :: collapse l)) := by
      rw [sounded_cons, sounded_cons]
      split
      · exact ih u
      · exact cons_congr _ _ (ih _)
    cases l with
    | nil => rfl
    | cons y l =>
      rw [collapse_cons_cons]
      by_cases hxy : x = y
      · subst hxy
        rw [if_pos rfl, ← ih u, sounded_cons]
        split
        · rfl
        · rename_i hx
          rw [sounded_cons, if_neg hx]
          simp [collapse_cons_cons]
      · rw [if_neg hxy]
        exact step

theorem digits_eq (f : Char → Char) (r : Char) (m : Str) :
    collapse (f r :: sounded f m) = collapse (f r :: sounded f (collapse (r :: m))) := by
  rw [← sounded_collapse, sounded_cons]
  split
  · rfl
  · rw [collapse_same]

theorem soundexDigits_through (S R : Str) (f : Char → Char) (c : Char) (rest : Str)
    (h : ∀ x ∈ c :: rest, codeOf S x = f (codeOf R x)) :
    soundexDigits S false c rest =
      ((collapse (f (codeOf R c) :: sounded f (collapse ((c :: rest).map (codeOf R))))).drop 1).filter (· ≠ '0') := by
  unfold soundexDigits
  dsimp only
  have h1 : (rest.filter fun c => !(false && (c == 'H' || c == 'W'))) = rest := by simp
  have h2 : ((rest.map (codeOf S)).filter (· ≠ '-')) = sounded f (rest.map (codeOf R)) := by
    unfold sounded
    rw [List.map_map]
    congr 1
    exact List.map_congr_left fun x hx => h x (List.mem_cons_of_mem _ hx)
  rw [h1, h2, h c List.mem_cons_self, List.map_cons, digits_eq]

end Verif.CoarserProofs

namespace Verif.Props
open Spec CoarserProofs

/-- C97. Names with the same Refined Soundex code have the same Soundex code, for all mappings such that letters with the same
refined code have the same plain code, unless H and W are skipped and occur in the names. -/
theorem refined_finer (U : Unicode) (rs : RefinedSoundex) (sx : Soundex)
    (hm : ∀ x y, isAsciiUpper x = true → isAsciiUpper y = true →
      codeOf rs.mapping.val x = codeOf rs.mapping.val y → codeOf sx.mapping.val x = codeOf sx.mapping.val y)
    (a b : Str) (ha : AsciiStr a) (hb : AsciiStr b)
    (hw : sx.specialCaseHW = false ∨ ∀ c ∈ a ++ b, isHW c = false) (h : rs.encode U a = rs.encode U b) :
    sx.encode U a = sx.encode U b := by
  classical
  rw [refinedSoundex_ascii U rs a ha, refinedSoundex_ascii U rs b hb] at h
  have h := Except.ok.inj h
  rw [soundex_ascii U sx a ha, soundex_ascii U sx b hb]
  congr 1
  have hoff : ∀ s : Str, AsciiStr s → (sx.specialCaseHW = false ∨ ∀ c ∈ s, isHW c = false) →
      soundex sx.mapping.val sx.specialCaseHW (asciiLetters s) = soundex sx.mapping.val false (asciiLetters s) := by
    intro s hs h
    rcases h with h | h
    · rw [h]
    · have hn : ∀ c ∈ asciiLetters s, (c == 'H' || c == 'W') = false := by
        intro c hc
        unfold asciiLetters at hc
        obtain ⟨d, hd, rfl⟩ := List.mem_map.mp hc
        have hd := (List.mem_filter.mp hd).1
        have key : ∀ d, isAscii d = true → isHW d = false → (asciiUpper d == 'H' || asciiUpper d == 'W') = false := by
          apply forall_ascii; decide +kernel
        exact key d (hs d hd) (h d hd)
      cases hl : asciiLetters s with
      | nil => rfl
      | cons c l =>
        rw [hl] at hn
        unfold soundex soundexDigits
        dsimp only
        have : (l.filter fun c => !(sx.specialCaseHW && (c == 'H' || c == 'W'))) =
            l.filter fun c => !(false && (c == 'H' || c == 'W')) := by
          apply List.filter_congr
          intro x hx
          rw [hn x (List.mem_cons_of_mem _ hx)]
          cases sx.specialCaseHW <;> rfl
        rw [this]
  rw [hoff a ha (hw.imp_right fun h c hc => h c (List.mem_append_left _ hc)),
    hoff b hb (hw.imp_right fun h c hc => h c (List.mem_append_right _ hc))]
  let f : Char → Char := fun d =>
    if h : ∃ x, isAsciiUpper x = true ∧ codeOf rs.mapping.val x = d then codeOf sx.mapping.val h.choose else '0'
  have hf : ∀ s : Str, ∀ x ∈ asciiLetters s, codeOf sx.mapping.val x = f (codeOf rs.mapping.val x) := by
    intro s x hx
    have hu : isAsciiUpper x = true := asciiLetters_upper x hx
    have he : ∃ y, isAsciiUpper y = true ∧ codeOf rs.mapping.val y = codeOf rs.mapping.val x := ⟨x, hu, rfl⟩
    show _ = dite _ _ _
    rw [dif_pos he]
    exact hm _ _ hu he.choose_spec.1 he.choose_spec.2.symm
  have fa := hf a
  have fb := hf b
  cases la : asciiLetters a with
  | nil =>
    cases lb : asciiLetters b with
    | nil => rfl
    | cons d m => rw [la, lb] at h; cases h
  | cons c l =>
    cases lb : asciiLetters b with
    | nil => rw [la, lb] at h; cases h
    | cons d m =>
      rw [la] at fa
      rw [lb] at fb
      rw [la, lb] at h
      unfold refinedSoundex at h
      injection h with h1 h2
      subst h1
      show c :: three (soundexDigits sx.mapping.val false c l) = c :: three (soundexDigits sx.mapping.val false c m)
      rw [soundexDigits_through _ _ f c l fa, soundexDigits_through _ _ f c m fb, h2]

/-- The predefined mapping of Refined Soundex is finer than those of Soundex. -/
theorem refined_mapping_finer : ∀ m ∈ [defaultMapping, genealogyMapping],
    ∀ x y, isAsciiUpper x = true → isAsciiUpper y = true →
      codeOf RefinedSoundex.englishMapping.val x = codeOf RefinedSoundex.englishMapping.val y →
      codeOf m.val x = codeOf m.val y := by
  have h : ∀ m ∈ [defaultMapping, genealogyMapping], ∀ x ∈ c!"ABCDEFGHIJKLMNOPQRSTUVWXYZ",
      ∀ y ∈ c!"ABCDEFGHIJKLMNOPQRSTUVWXYZ",
      codeOf RefinedSoundex.englishMapping.val x = codeOf RefinedSoundex.englishMapping.val y →
      codeOf m.val x = codeOf m.val y := by decide +kernel
  have hu : ∀ x, isAscii x = true → isAsciiUpper x = true → x ∈ c!"ABCDEFGHIJKLMNOPQRSTUVWXYZ" := by
    apply forall_ascii; decide +kernel
  have ha : ∀ x, isAsciiUpper x = true → isAscii x = true := by
    intro x hx
    simp only [isAsciiUpper, isAscii, Bool.and_eq_true, decide_eq_true_eq] at hx ⊢
    omega
  exact fun m hm x y hx hy => h m hm x (hu x (ha x hx) hx) y (hu y (ha y hy) hy)

/-- C97. With the predefined mappings: the same Refined Soundex code means the same genealogical Soundex code, for all ASCII names;
and the same default Soundex code for ASCII names without H and W. -/
theorem refined_finer_default (U : Unicode) (a b : Str) (ha : AsciiStr a) (hb : AsciiStr b)
    (h : RefinedSoundex.default.encode U a = RefinedSoundex.default.encode U b) :
    (Soundex.ofMapping genealogyMapping).encode U a = (Soundex.ofMapping genealogyMapping).encode U b ∧
    (Soundex.new defaultMapping false).encode U a = (Soundex.new defaultMapping false).encode U b ∧
    ((∀ c ∈ a ++ b, isHW c = false) → Soundex.default.encode U a = Soundex.default.encode U b) :=
  ⟨refined_finer U _ _ (refined_mapping_finer genealogyMapping (by simp)) a b ha hb (.inl (by decide +kernel)) h,
    refined_finer U _ _ (refined_mapping_finer defaultMapping (by simp)) a b ha hb (.inl rfl) h,
    fun hw => refined_finer U _ _ (refined_mapping_finer defaultMapping (by simp)) a b ha hb (.inr hw) h⟩

/-- C97. The exception is real (H between letters with the same code), there are different names with the same Refined Soundex
code, and the converse does not hold: Soundex relates names that Refined Soundex tells apart. -/
theorem refined_finer_examples :
    (RefinedSoundex.default.encode .latin1 c!"Ashcraft" = RefinedSoundex.default.encode .latin1 c!"Asecraft" ∧
      Soundex.default.encode .latin1 c!"Ashcraft" ≠ Soundex.default.encode .latin1 c!"Asecraft") ∧
    (RefinedSoundex.default.encode .latin1 c!"Brenda" = RefinedSoundex.default.encode .latin1 c!"Bromto" ∧
      Soundex.default.encode .latin1 c!"Brenda" = .ok c!"B653") ∧
    (RefinedSoundex.default.encode .latin1 c!"Robert" ≠ RefinedSoundex.default.encode .latin1 c!"Rufert" ∧
      Soundex.default.encode .latin1 c!"Robert" = Soundex.default.encode .latin1 c!"Rufert") := by
  decide +kernel

end Verif.Props
