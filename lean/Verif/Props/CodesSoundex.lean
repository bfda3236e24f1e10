import Verif.Spec.Codes
import Verif.Props.Soundex
import Verif.Props.Cologne
/-!
# C93: which strings are codes (Soundex, Refined Soundex, Cologne)
-/

set_option linter.unusedSimpArgs false

namespace Verif.Props
open Spec

namespace CodeProofs

theorem caps_upper {c : Char} (h : c ∈ capitals) : isAsciiUpper c = true := by
  have : ∀ c ∈ capitals, isAsciiUpper c = true := by decide +kernel
  exact this c h

theorem upper_caps {c : Char} (h : isAsciiUpper c = true) : c ∈ capitals := by
  have : ∀ c, isAscii c = true → isAsciiUpper c = true → c ∈ capitals := by
    apply forall_ascii; decide +kernel
  exact this c (isAscii_of_upper h) h

theorem upper_ascii {w : Str} (h : ∀ c ∈ w, isAsciiUpper c = true) : AsciiStr w :=
  fun c hc => isAscii_of_upper (h c hc)

theorem asciiUpper_upper {c : Char} (h : isAsciiUpper c = true) : asciiUpper c = c := by
  have : ∀ c, isAscii c = true → isAsciiUpper c = true → asciiUpper c = c := by
    apply forall_ascii; decide +kernel
  exact this c (isAscii_of_upper h) h

theorem map_upper {w : Str} (h : ∀ c ∈ w, isAsciiUpper c = true) : w.map asciiUpper = w := by
  induction w with
  | nil => rfl
  | cons a r ih =>
    simp only [List.map_cons]
    rw [asciiUpper_upper (h a (by simp)), ih (fun c hc => h c (by simp [hc]))]

theorem asciiLetters_caps {w : Str} (h : ∀ c ∈ w, isAsciiUpper c = true) : asciiLetters w = w := by
  unfold asciiLetters
  rw [List.filter_eq_self.mpr, map_upper h]
  intro c hc
  have := h c hc
  simp only [isAsciiAlpha, this, Bool.or_true]

theorem collapse_noDup {w : Str} (h : NoAdjacentDup w) : collapse w = w := by
  induction w with
  | nil => rfl
  | cons a r ih =>
    cases r with
    | nil => rfl
    | cons b r =>
      rw [collapse_cons_cons, if_neg h.1, ih h.2]

/-- Letters with the Soundex digits. -/
def soundexLetter (d : Char) : Char :=
  if d = '1' then 'B' else if d = '2' then 'C' else if d = '3' then 'D' else if d = '4' then 'L'
  else if d = '5' then 'M' else 'R'

theorem soundexLetter_spec : ∀ d ∈ c!"123456", isAsciiUpper (soundexLetter d) = true ∧
    codeOf defaultMapping.val (soundexLetter d) = d ∧ soundexLetter d ≠ 'H' ∧ soundexLetter d ≠ 'W' ∧ d ≠ '0' ∧ d ≠ '-' := by
  decide +kernel

theorem alternate_noDup (ds : Str) (h : ∀ d ∈ ds, d ≠ '0') : NoAdjacentDup (ds.flatMap fun d => ['0', d]) ∧
    (ds.flatMap fun d => ['0', d]).filter (· ≠ '0') = ds := by
  induction ds with
  | nil => simp [NoAdjacentDup]
  | cons d r ih =>
    have hd := h d (by simp)
    have ih := ih fun x hx => h x (by simp [hx])
    constructor
    · cases r with
      | nil => simpa [NoAdjacentDup] using Ne.symm hd
      | cons e r =>
        have := ih.1
        simp only [List.flatMap_cons, List.cons_append, List.nil_append] at this ⊢
        exact ⟨Ne.symm hd, hd, this⟩
    · have h2 := ih.2
      simp only [List.flatMap_cons, List.cons_append, List.nil_append, List.filter_cons]
      simp [hd]
      simpa using h2

theorem digits_alternate (x : Char) (ds : Str) (h : ∀ d ∈ ds, d ≠ '0') :
    ((collapse (x :: ds.flatMap fun d => ['0', d])).drop 1).filter (· ≠ '0') = ds := by
  obtain ⟨h1, h2⟩ := alternate_noDup ds h
  cases ds with
  | nil => simp [collapse]
  | cons d r =>
    have e : (d :: r).flatMap (fun d => ['0', d]) = '0' :: d :: r.flatMap (fun d => ['0', d]) := by simp
    rw [e] at h1 h2 ⊢
    rw [collapse_cons_cons, collapse_noDup h1]
    split
    · rw [← h2]; simp
    · simpa using h2

theorem word_codes (table : Str) (hA : codeOf table 'A' = '0') (letter : Char → Char) (ds : Str)
    (h : ∀ d ∈ ds, codeOf table (letter d) = d) :
    (ds.flatMap fun d => ['A', letter d]).map (codeOf table) = ds.flatMap fun d => ['0', d] := by
  induction ds with
  | nil => rfl
  | cons d r ih =>
    simp only [List.flatMap_cons, List.map_append, ih (fun x hx => h x (by simp [hx])), List.map_cons, List.map_nil, hA,
      h d (by simp)]

theorem soundex_word (f : Char) (ds : Str) (hd : ∀ d ∈ ds, d ∈ c!"123456") :
    soundex defaultMapping.val true (f :: ds.flatMap fun d => ['A', soundexLetter d]) = f :: three ds := by
  have h0 : ∀ d ∈ ds, d ≠ '0' := fun d hx => (soundexLetter_spec d (hd d hx)).2.2.2.2.1
  simp only [soundex, soundexDigits]
  have e : (ds.flatMap fun d => ['A', soundexLetter d]).filter (fun c => !(true && (c == 'H' || c == 'W'))) =
      ds.flatMap fun d => ['A', soundexLetter d] := by
    apply List.filter_eq_self.mpr
    intro c hc
    obtain ⟨d, hx, hc⟩ := List.mem_flatMap.mp hc
    have := soundexLetter_spec d (hd d hx)
    simp only [List.mem_cons, List.not_mem_nil, or_false] at hc
    rcases hc with rfl | rfl
    · decide
    · simp [this.2.2.1, this.2.2.2.1]
  have e2 : (ds.flatMap fun d => ['0', d]).filter (fun x => decide (x ≠ '-')) = ds.flatMap fun d => ['0', d] := by
    apply List.filter_eq_self.mpr
    intro c hc
    obtain ⟨d, hx, hc⟩ := List.mem_flatMap.mp hc
    have := (soundexLetter_spec d (hd d hx)).2.2.2.2.2
    simp only [List.mem_cons, List.not_mem_nil, or_false] at hc
    rcases hc with rfl | rfl
    · decide
    · simpa using this
  rw [e, word_codes _ (by decide) _ _ (fun d hx => (soundexLetter_spec d (hd d hx)).2.1), e2, digits_alternate _ _ h0]

theorem three_short (ds : Str) (k : Nat) (h : ds.length + k = 3) : three ds = ds ++ List.replicate k '0' := by
  unfold three
  match ds, h with
  | [], h => obtain rfl : k = 3 := by simpa using h
             rfl
  | [a], h => obtain rfl : k = 2 := by simp at h; omega
              rfl
  | [a, b], h => obtain rfl : k = 1 := by simp at h; omega
                 rfl
  | [a, b, c], h => obtain rfl : k = 0 := by simpa using h
                    rfl
  | a :: b :: c :: d :: r, h => simp at h; omega

end CodeProofs

open CodeProofs

/-- C93. The Soundex codes (default mapping) are exactly the strings of the shape `SoundexCode`; each is the code of an
ASCII word. -/
theorem soundex_codes (U : Unicode) (code : Str) :
    ((∃ s, Soundex.default.encode U s = .ok code) ↔ SoundexCode code) ∧
    ((∃ s, AsciiStr s ∧ Soundex.default.encode U s = .ok code) ↔ SoundexCode code) := by
  have h1 : (∃ s, Soundex.default.encode U s = .ok code) → SoundexCode code := by
    rintro ⟨s, hs⟩
    by_cases hne : code = []
    · exact Or.inl hne
    · right
      obtain ⟨hl, hh, ds, k, hds, hall⟩ := (soundex_shape U Soundex.default s code hs).2 hne
      cases code with
      | nil => exact absurd rfl hne
      | cons f r =>
        simp only [List.drop_one, List.tail_cons] at hds
        refine ⟨f, ds, k, ?_, ?_, ?_, by rw [hds]; rfl⟩
        · apply upper_caps
          cases hb : isAsciiUpper f with
          | true => rfl
          | false =>
            exfalso
            have : ∃ e, Soundex.default.encode U s = .error e := by
              rw [soundex_panic_iff]
              simp only [List.head?_cons] at hh
              cases hlt : letters U s with
              | nil => rw [hlt] at hh; simp at hh
              | cons g t =>
                rw [hlt] at hh
                simp only [List.head?_cons, Option.some.injEq] at hh
                exact ⟨[], g, t, rfl, by simp, by rw [← hh]; exact hb, by simp⟩
            rw [hs] at this
            simp at this
        · intro d hd
          have := hall d hd
          have hm : ∀ x ∈ defaultMapping.val, x ≠ '0' → x ∈ c!"123456" := by decide +kernel
          exact hm d this.1 this.2.1
        · have := congrArg List.length hds
          simp only [List.length_append, List.length_replicate] at this
          simp only [List.length_cons] at hl
          omega
  have h2 : SoundexCode code → ∃ s, AsciiStr s ∧ Soundex.default.encode U s = .ok code := by
    rintro (rfl | ⟨f, ds, k, hf, hd, hk, rfl⟩)
    · exact ⟨[], by simp [AsciiStr], by rw [soundex_ascii U _ _ (by simp [AsciiStr])]; rfl⟩
    · have hw : ∀ c ∈ f :: ds.flatMap (fun d => ['A', soundexLetter d]), isAsciiUpper c = true := by
        intro c hc
        rcases List.mem_cons.mp hc with rfl | hc
        · exact caps_upper hf
        · obtain ⟨d, hx, hc⟩ := List.mem_flatMap.mp hc
          simp only [List.mem_cons, List.not_mem_nil, or_false] at hc
          rcases hc with rfl | rfl
          · decide
          · exact (soundexLetter_spec d (hd d hx)).1
      refine ⟨_, upper_ascii hw, ?_⟩
      rw [soundex_ascii U _ _ (upper_ascii hw), asciiLetters_caps hw]
      show Except.ok (soundex defaultMapping.val true _) = _
      rw [soundex_word f ds hd, three_short ds k hk]
      rfl
  exact ⟨⟨h1, fun h => let ⟨s, _, hs⟩ := h2 h; ⟨s, hs⟩⟩, ⟨fun ⟨s, _, hs⟩ => h1 ⟨s, hs⟩, h2⟩⟩

example : SoundexCode c!"Q160" := Or.inr ⟨'Q', c!"16", 1, by decide, by decide, rfl, rfl⟩

namespace CodeProofs

/-- Letters with the Refined Soundex digits. -/
def refinedLetter (d : Char) : Char :=
  if d = '0' then 'A' else if d = '1' then 'B' else if d = '2' then 'F' else if d = '3' then 'C' else if d = '4' then 'G'
  else if d = '5' then 'Q' else if d = '6' then 'D' else if d = '7' then 'L' else if d = '8' then 'M' else 'R'

theorem refinedLetter_spec : ∀ d ∈ c!"0123456789", isAsciiUpper (refinedLetter d) = true ∧
    codeOf RefinedSoundex.englishMapping.val (refinedLetter d) = d := by decide +kernel

theorem refinedDigit_spec : ∀ c ∈ capitals, codeOf RefinedSoundex.englishMapping.val c = refinedDigit c := by decide +kernel

end CodeProofs

/-- C93. The Refined Soundex codes (default mapping) are exactly the strings of the shape `RefinedSoundexCode`. -/
theorem refined_soundex_codes (U : Unicode) (code : Str) :
    ((∃ s, RefinedSoundex.default.encode U s = .ok code) ↔ RefinedSoundexCode code) ∧
    ((∃ s, AsciiStr s ∧ RefinedSoundex.default.encode U s = .ok code) ↔ RefinedSoundexCode code) := by
  have h1 : (∃ s, RefinedSoundex.default.encode U s = .ok code) → RefinedSoundexCode code := by
    rintro ⟨s, hs⟩
    have hall : ∀ c ∈ letters U s, isAsciiUpper c = true := by
      intro c hc
      cases hb : isAsciiUpper c with
      | true => rfl
      | false =>
        have := (refinedSoundex_panic_iff U RefinedSoundex.default s).mpr ⟨c, hc, hb⟩
        rw [hs] at this; simp at this
    obtain ⟨_, _, hdup, _, hmem⟩ := refinedSoundex_shape U _ s code hs
    rw [refinedSoundex_eq_spec U _ s hall] at hs
    have hs := Except.ok.inj hs
    cases hl : letters U s with
    | nil => rw [hl] at hs; exact Or.inl hs.symm
    | cons f rest =>
      rw [hl] at hs hall
      have hf := upper_caps (hall f (by simp))
      simp only [refinedSoundex, List.map_cons] at hs
      obtain ⟨t, ht⟩ := collapse_head (codeOf RefinedSoundex.englishMapping.val f) (rest.map (codeOf RefinedSoundex.englishMapping.val))
      have hs : f :: collapse (codeOf RefinedSoundex.englishMapping.val f :: rest.map (codeOf RefinedSoundex.englishMapping.val)) = code := hs
      rw [ht, refinedDigit_spec f hf] at hs
      subst hs
      right
      refine ⟨f, t, hf, ?_, by simpa using hdup, rfl⟩
      intro d hd
      have hm : ∀ x ∈ RefinedSoundex.englishMapping.val, x ∈ c!"0123456789" := by decide +kernel
      exact hm d (hmem d (by simp [hd]))
  have h2 : RefinedSoundexCode code → ∃ s, AsciiStr s ∧ RefinedSoundex.default.encode U s = .ok code := by
    rintro (rfl | ⟨f, ds, hf, hd, hdup, rfl⟩)
    · exact ⟨[], by simp [AsciiStr], by rw [refinedSoundex_ascii U _ _ (by simp [AsciiStr])]; rfl⟩
    · have hw : ∀ c ∈ f :: ds.map refinedLetter, isAsciiUpper c = true := by
        intro c hc
        rcases List.mem_cons.mp hc with rfl | hc
        · exact caps_upper hf
        · obtain ⟨d, hx, rfl⟩ := List.mem_map.mp hc
          exact (refinedLetter_spec d (hd d hx)).1
      refine ⟨_, upper_ascii hw, ?_⟩
      rw [refinedSoundex_ascii U _ _ (upper_ascii hw), asciiLetters_caps hw]
      show Except.ok (refinedSoundex RefinedSoundex.englishMapping.val _) = _
      have hm : (ds.map refinedLetter).map (codeOf RefinedSoundex.englishMapping.val) = ds := by
        clear hw hdup h1
        induction ds with
        | nil => rfl
        | cons d r ih =>
          simp only [List.map_cons, (refinedLetter_spec d (hd d (by simp))).2]
          rw [ih fun x hx => hd x (by simp [hx])]
      simp only [refinedSoundex, List.map_cons, hm]
      rw [refinedDigit_spec f hf, collapse_noDup hdup]
  exact ⟨⟨h1, fun h => let ⟨s, _, hs⟩ := h2 h; ⟨s, hs⟩⟩, ⟨fun ⟨s, _, hs⟩ => h1 ⟨s, hs⟩, h2⟩⟩

example : RefinedSoundexCode c!"T60309" :=
  Or.inr ⟨'T', c!"0309", by decide, by decide, by decide, by decide⟩

namespace CodeProofs

/-- Letters with the Cologne digits. -/
def cologneLetter (d : Char) : Char :=
  if d = '1' then 'B' else if d = '2' then 'T' else if d = '3' then 'F' else if d = '4' then 'K'
  else if d = '5' then 'L' else if d = '6' then 'M' else if d = '7' then 'R' else 'S'

theorem cologneLetter_spec (d : Char) (hd : d ∈ c!"12345678") (before rest : Str) :
    isAsciiUpper (cologneLetter d) = true ∧
    cologneCodes before (cologneLetter d :: 'A' :: rest) =
      d :: '0' :: cologneCodes ('A' :: cologneLetter d :: before) rest := by
  simp only [List.mem_cons, List.not_mem_nil, or_false] at hd
  rcases hd with rfl | rfl | rfl | rfl | rfl | rfl | rfl | rfl <;>
    exact ⟨by decide, by simp [cologneCodes, cologneLetter, isAsciiUpper, cologneCode, oneOf]⟩

theorem cologne_word (ds : Str) (hd : ∀ d ∈ ds, d ∈ c!"12345678") (before : Str) :
    cologneCodes before (ds.flatMap fun d => [cologneLetter d, 'A']) = ds.flatMap fun d => [d, '0'] := by
  induction ds generalizing before with
  | nil => rfl
  | cons d r ih =>
    simp only [List.flatMap_cons, List.cons_append, List.nil_append]
    rw [(cologneLetter_spec d (hd d (by simp)) before _).2, ih fun x hx => hd x (by simp [hx])]

theorem alternate_noDup' (ds : Str) (h : ∀ d ∈ ds, d ≠ '0' ∧ d ≠ '-') :
    NoAdjacentDup ('0' :: ds.flatMap fun d => [d, '0']) ∧
    (ds.flatMap fun d => [d, '0']).filter (· ≠ '-') = ds.flatMap (fun d => [d, '0']) ∧
    (ds.flatMap fun d => [d, '0']).filter (· ≠ '0') = ds := by
  induction ds with
  | nil => simp [NoAdjacentDup]
  | cons d r ih =>
    have hd := h d (by simp)
    obtain ⟨i1, i2, i3⟩ := ih fun x hx => h x (by simp [hx])
    simp only [List.flatMap_cons, List.cons_append, List.nil_append]
    refine ⟨⟨Ne.symm hd.1, ?_⟩, ?_, ?_⟩
    · exact ⟨hd.1, i1⟩
    · simp only [List.filter_cons]; simp [hd.2]; simpa using i2
    · simp only [List.filter_cons]; simp [hd.1]; simpa using i3

theorem cologneWord_caps (U : Unicode) {w : Str} (h : ∀ c ∈ w, isAsciiUpper c = true) : cologneWord U w = w := by
  unfold cologneWord
  rw [strUpper_ascii U (upper_ascii h), map_upper h]
  have : ∀ c, isAscii c = true → unUmlaut c = c := by apply forall_ascii; decide +kernel
  induction w with
  | nil => rfl
  | cons a r ih =>
    simp only [List.map_cons]
    rw [this a (isAscii_of_upper (h a (by simp))), ih fun c hc => h c (by simp [hc])]

end CodeProofs

/-- C93. The Cologne codes are exactly the strings of digits from 0 to 8 with 0 only at the beginning; each is the code
of an ASCII word. -/
theorem cologne_codes (U : Unicode) (code : Str) :
    ((∃ s, Cologne.encode U s = code) ↔ CologneCode code) ∧
    ((∃ s, AsciiStr s ∧ Cologne.encode U s = code) ↔ CologneCode code) := by
  have h1 : (∃ s, Cologne.encode U s = code) → CologneCode code := by
    rintro ⟨s, rfl⟩
    exact ⟨(cologne_shape U s).1, (cologne_shape U s).2.1⟩
  have h2 : CologneCode code → ∃ s, AsciiStr s ∧ Cologne.encode U s = code := by
    rintro ⟨ha, hz⟩
    have hcaps : ∀ ds : Str, (∀ d ∈ ds, d ∈ c!"12345678") →
        ∀ c ∈ ds.flatMap (fun d => [cologneLetter d, 'A']), isAsciiUpper c = true := by
      intro ds hds c hc
      obtain ⟨d, hx, hc⟩ := List.mem_flatMap.mp hc
      simp only [List.mem_cons, List.not_mem_nil, or_false] at hc
      rcases hc with rfl | rfl
      · exact (cologneLetter_spec d (hds d hx) [] []).1
      · decide
    have hne : ∀ d ∈ c!"12345678", d ≠ '0' ∧ d ≠ '-' := by decide
    have hnz : ∀ d ∈ c!"012345678", d ≠ '0' → d ∈ c!"12345678" := by decide
    cases code with
    | nil => exact ⟨[], by simp [AsciiStr], by rw [cologne_eq_spec]; rfl⟩
    | cons d ds =>
      simp only [List.drop_one, List.tail_cons] at hz
      have hds : ∀ x ∈ ds, x ∈ c!"12345678" := fun x hx => hnz x (ha x (by simp [hx])) (hz x hx)
      by_cases h0 : d = '0'
      · subst h0
        have hw : ∀ c ∈ 'A' :: ds.flatMap (fun d => [cologneLetter d, 'A']), isAsciiUpper c = true := by
          intro c hc
          rcases List.mem_cons.mp hc with rfl | hc
          · decide
          · exact hcaps ds hds c hc
        refine ⟨_, upper_ascii hw, ?_⟩
        obtain ⟨n1, n2, n3⟩ := alternate_noDup' ds fun x hx => hne x (hds x hx)
        rw [cologne_eq_spec, cologne, cologneWord_caps U hw]
        have : cologneCodes [] ('A' :: ds.flatMap (fun d => [cologneLetter d, 'A'])) =
            '0' :: ds.flatMap (fun d => [d, '0']) := by
          rw [← cologne_word ds hds ['A']]
          simp [cologneCodes, isAsciiUpper, cologneCode]
        rw [this, cologneFinish, collapse_noDup n1, List.filter_cons_of_pos (by decide), n2]
        simp only [n3]
      · have hdd : ∀ x ∈ d :: ds, x ∈ c!"12345678" := by
          intro x hx
          rcases List.mem_cons.mp hx with rfl | hx
          · exact hnz x (ha x (by simp)) h0
          · exact hds x hx
        have hw := hcaps (d :: ds) hdd
        refine ⟨_, upper_ascii hw, ?_⟩
        obtain ⟨n1, n2, n3⟩ := alternate_noDup' (d :: ds) fun x hx => hne x (hdd x hx)
        rw [cologne_eq_spec, cologne, cologneWord_caps U hw, cologne_word _ hdd, cologneFinish, collapse_noDup, n2]
        · simp only [List.flatMap_cons, List.cons_append, List.nil_append] at n3 ⊢
          rw [List.filter_cons_of_pos (by simpa using h0)] at n3
          simp only [List.cons.injEq, true_and] at n3
          simp only [n3]
        · have e : (d :: ds).flatMap (fun d => [d, '0']) = d :: '0' :: ds.flatMap (fun d => [d, '0']) := by simp
          rw [e] at n1 ⊢
          exact n1.2
  exact ⟨⟨h1, fun h => let ⟨s, _, hs⟩ := h2 h; ⟨s, hs⟩⟩, ⟨fun ⟨s, _, hs⟩ => h1 ⟨s, hs⟩, h2⟩⟩

example : CologneCode c!"04417" := ⟨by decide, by decide⟩

end Verif.Props
