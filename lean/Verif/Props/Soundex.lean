import Verif.Proofs.Soundex
/-!
# Properties of `is_encoded_equals`, `difference`, Soundex and Refined Soundex (C01–C09)
-/

set_option linter.unusedSimpArgs false

namespace Verif.Props
open Spec

/-! ## C01: the default `is_encoded_equals` -/

/-- C01. On strings that the encoder accepts, `is_encoded_equals` answers whether the two codes are
equal; it panics exactly when one of the two encodings does. -/
theorem isEncodedEquals_spec (encode : Str → Res Str) (a b : Str) :
    (∀ ca cb, encode a = .ok ca → encode b = .ok cb →
      isEncodedEquals encode a b = .ok (decide (ca = cb))) ∧
    ((∃ e, isEncodedEquals encode a b = .error e) ↔
      (∃ e, encode a = .error e) ∨ (∃ e, encode b = .error e)) := by
  unfold isEncodedEquals
  cases ha : encode a <;> cases hb : encode b <;> simp [bind, Except.bind, pure, Except.pure]
  rw [Bool.eq_iff_iff]; simp

/-- C01. On the strings that the encoder accepts, `is_encoded_equals` is an equivalence relation. -/
theorem isEncodedEquals_equivalence (encode : Str → Res Str) :
    Equivalence fun a b : { s : Str // ∃ c, encode s = .ok c } =>
      isEncodedEquals encode a.val b.val = .ok true := by
  have key : ∀ a b : { s : Str // ∃ c, encode s = .ok c },
      isEncodedEquals encode a.val b.val = .ok true ↔ encode a.val = encode b.val := by
    rintro ⟨a, ca, ha⟩ ⟨b, cb, hb⟩
    simp [isEncodedEquals, ha, hb, bind, Except.bind, pure, Except.pure]
  constructor
  · intro a; rw [key]
  · intro a b h; rw [key] at *; exact h.symm
  · intro a b c h1 h2; rw [key] at *; exact h1.trans h2

example : isEncodedEquals (Soundex.encode .latin1 .default) c!"Robert" c!"Rupert" = .ok true := by
  decide +kernel
example : isEncodedEquals (Soundex.encode .latin1 .default) c!"Robert" c!"Rubin" = .ok false := by
  decide +kernel

/-! ## C02: `difference` -/

/-- C02. `difference` counts the positions at which the codes agree. -/
theorem difference_eq_agreements (encode : Str → Res Str) (a b ca cb : Str)
    (ha : encode a = .ok ca) (hb : encode b = .ok cb) :
    difference encode a b = .ok (agreements ca cb) := by
  simp only [difference, ha, hb, bind, Except.bind, pure, Except.pure]
  by_cases h : (ca.isEmpty || cb.isEmpty) = true
  · rw [if_pos h]
    rcases Bool.or_eq_true_iff.mp h with h | h
    · rw [List.isEmpty_iff.mp h, agreements_nil_left]
    · rw [List.isEmpty_iff.mp h, agreements_nil_right]
  · rw [if_neg h, differenceLoop_eq]; simp

/-- C02. `difference` is symmetric, bounded by both code lengths, zero when a code is empty, and the
difference of a word with itself is the length of its code. -/
theorem difference_laws (encode : Str → Res Str) (a b ca cb : Str)
    (ha : encode a = .ok ca) (hb : encode b = .ok cb) :
    difference encode a b = difference encode b a ∧
    (∃ n, difference encode a b = .ok n ∧ n ≤ ca.length ∧ n ≤ cb.length) ∧
    (ca = [] ∨ cb = [] → difference encode a b = .ok 0) ∧
    difference encode a a = .ok ca.length := by
  refine ⟨?_, ?_, ?_, ?_⟩
  · rw [difference_eq_agreements _ _ _ _ _ ha hb, difference_eq_agreements _ _ _ _ _ hb ha,
      agreements_comm]
  · have := agreements_le ca cb
    exact ⟨_, difference_eq_agreements _ _ _ _ _ ha hb, by omega, by omega⟩
  · intro h
    rw [difference_eq_agreements _ _ _ _ _ ha hb]
    rcases h with rfl | rfl
    · rw [agreements_nil_left]
    · rw [agreements_nil_right]
  · rw [difference_eq_agreements _ _ _ _ _ ha ha, agreements_self]

/-! ## C03, C07: Soundex against its declarative definition -/

/-- C03. On every word whose (cleaned, upper-cased) letters are A–Z, `Soundex::encode` returns the
code of the declarative definition, for every mapping and H/W flag. -/
theorem soundex_eq_spec (U : Unicode) (sx : Soundex) (s : Str)
    (h : ∀ c ∈ letters U s, isAsciiUpper c = true) :
    sx.encode U s = .ok (soundex sx.mapping.val sx.specialCaseHW (letters U s)) := by
  unfold Soundex.encode
  rw [soundexClean_eq_letters]
  cases hl : letters U s with
  | nil => rfl
  | cons f rest =>
    rw [hl] at h
    have hf := h f (by simp)
    have hr : ∀ c ∈ rest, isAsciiUpper c = true := fun c hc => h c (by simp [hc])
    simp only [getMappingCode_upper _ hf, bind, Except.bind]
    exact Soundex.loop_eq sx f rest [] _ (by simp) hr

example : ∀ c ∈ letters .latin1 c!"Straße-27", isAsciiUpper c = true := by decide +kernel
example : soundex defaultMapping.val true c!"ASHCRAFT" = c!"A261" := by decide +kernel

/-- C03. On ASCII words the letters are the ASCII letters in upper case, and the code is defined
without reference to the Unicode tables. -/
theorem soundex_ascii (U : Unicode) (sx : Soundex) (s : Str) (h : AsciiStr s) :
    sx.encode U s = .ok (soundex sx.mapping.val sx.specialCaseHW (asciiLetters s)) := by
  rw [← letters_ascii U h]
  apply soundex_eq_spec
  rw [letters_ascii U h]
  exact asciiLetters_upper

/-- C07. `Soundex::encode` panics exactly when it reaches a letter outside A–Z before three digits
have been produced from the letters before it (in particular when the first letter is such). -/
theorem soundex_panic_iff (U : Unicode) (sx : Soundex) (s : Str) :
    (∃ e, sx.encode U s = .error e) ↔
    ∃ pre bad post, letters U s = pre ++ bad :: post ∧ (∀ c ∈ pre, isAsciiUpper c = true) ∧
      isAsciiUpper bad = false ∧
      (∀ f rest, pre = f :: rest →
        (soundexDigits sx.mapping.val sx.specialCaseHW f rest).length < 3) := by
  constructor
  · rintro ⟨e, he⟩
    rcases Soundex.split_bad (letters U s) with hall | ⟨pre, bad, post, hl, hp, hb⟩
    · rw [soundex_eq_spec U sx s hall] at he; simp at he
    · refine ⟨pre, bad, post, hl, hp, hb, ?_⟩
      rintro f rest rfl
      have hf := hp f (by simp)
      have hr : ∀ c ∈ rest, isAsciiUpper c = true := fun c hc => hp c (by simp [hc])
      unfold Soundex.encode at he
      rw [soundexClean_eq_letters, hl] at he
      simp only [List.cons_append, getMappingCode_upper _ hf, bind, Except.bind] at he
      have hb := (Soundex.loop_bad sx f bad post rest hb [] (codeOf sx.mapping.val f) (by simp) hr).2
      apply Nat.lt_of_not_le
      intro hge
      have := hb (by simpa [Soundex.digitsFrom, soundexDigits] using hge)
      simp only [List.length_nil, Nat.zero_add] at this
      have he' : Soundex.loop sx (rest ++ bad :: post) 1 (codeOf sx.mapping.val f)
        (f :: ([] ++ List.replicate (3 - 0) '0')) = .error e := he
      rw [this] at he'
      simp at he'
  · rintro ⟨pre, bad, post, hl, hp, hb, hd⟩
    unfold Soundex.encode
    rw [soundexClean_eq_letters, hl]
    cases pre with
    | nil =>
      obtain ⟨e, he⟩ := getMappingCode_not_upper sx.mapping hb
      exact ⟨e, by simp [he, bind, Except.bind]⟩
    | cons f rest =>
      have hf := hp f (by simp)
      have hr : ∀ c ∈ rest, isAsciiUpper c = true := fun c hc => hp c (by simp [hc])
      have hdig := hd f rest rfl
      simp only [List.cons_append, getMappingCode_upper _ hf, bind, Except.bind]
      exact (Soundex.loop_bad sx f bad post rest hb [] _ (by simp) hr).1
        (by simpa [Soundex.digitsFrom, soundexDigits] using hdig)

/-- C07. Once three digits have been produced the remaining letters are irrelevant, whatever they
are: the code is that of the prefix. -/
theorem soundex_full_prefix (U : Unicode) (sx : Soundex) (s : Str) (f : Char) (rest post : Str)
    (hl : letters U s = f :: rest ++ post) (hp : ∀ c ∈ f :: rest, isAsciiUpper c = true)
    (hd : 3 ≤ (soundexDigits sx.mapping.val sx.specialCaseHW f rest).length) :
    sx.encode U s = .ok (soundex sx.mapping.val sx.specialCaseHW (f :: rest)) := by
  have hf := hp f (by simp)
  have hr : ∀ c ∈ rest, isAsciiUpper c = true := fun c hc => hp c (by simp [hc])
  have key : ∀ (post : Str), (∀ c ∈ post, isAsciiUpper c = true) →
      three (soundexDigits sx.mapping.val sx.specialCaseHW f (rest ++ post)) =
        three (soundexDigits sx.mapping.val sx.specialCaseHW f rest) := by
    intro post hpost
    -- run the loop on a word that continues with a character outside A–Z
    have h1 := Soundex.loop_bad sx f '!' [] (rest ++ post) (by decide) [] (codeOf sx.mapping.val f)
      (by simp) (by intro c hc; rcases List.mem_append.mp hc with h | h; exact hr c h; exact hpost c h)
    -- the digits of the longer word extend those of the shorter one
    have hext : ∀ (l : Str) (prev : Char), ∃ t,
        Soundex.digitsFrom sx.mapping.val sx.specialCaseHW prev (l ++ post) =
        Soundex.digitsFrom sx.mapping.val sx.specialCaseHW prev l ++ t := by
      intro l
      induction l with
      | nil => intro prev; exact ⟨_, by rw [Soundex.digitsFrom_nil]; rfl⟩
      | cons c cs ih =>
        intro prev
        rw [List.cons_append]
        by_cases hhw : (sx.specialCaseHW && (c == 'H' || c == 'W')) = true
        · rw [Soundex.digitsFrom_hw _ _ _ _ _ hhw, Soundex.digitsFrom_hw _ _ _ _ _ hhw]
          exact ih prev
        · have hhw := Bool.eq_false_iff.mpr hhw
          by_cases hs : codeOf sx.mapping.val c = '-'
          · rw [Soundex.digitsFrom_silent _ _ _ _ _ hhw hs, Soundex.digitsFrom_silent _ _ _ _ _ hhw hs]
            exact ih prev
          · rw [Soundex.digitsFrom_code _ _ _ _ _ hhw hs, Soundex.digitsFrom_code _ _ _ _ _ hhw hs]
            obtain ⟨t, ht⟩ := ih (codeOf sx.mapping.val c)
            refine ⟨t, ?_⟩
            split
            · rw [ht]; rfl
            · exact ht
    obtain ⟨t, ht⟩ := hext rest (codeOf sx.mapping.val f)
    have e1 : soundexDigits sx.mapping.val sx.specialCaseHW f (rest ++ post) =
      soundexDigits sx.mapping.val sx.specialCaseHW f rest ++ t := ht
    rw [e1, Soundex.three_of_ge (by simp; omega), Soundex.three_of_ge hd,
      List.take_append_of_le_length hd]
  unfold Soundex.encode
  rw [soundexClean_eq_letters, hl]
  simp only [List.cons_append, getMappingCode_upper _ hf, bind, Except.bind]
  rcases Soundex.split_bad post with hall | ⟨pre, bad, post', rfl, hp', hb⟩
  · have := Soundex.loop_eq sx f (rest ++ post) [] (codeOf sx.mapping.val f) (by simp)
      (by intro c hc; rcases List.mem_append.mp hc with h | h; exact hr c h; exact hall c h)
    have h2 := key post hall
    simp only [soundex]
    rw [← h2]
    exact this
  · have hpre : ∀ c ∈ rest ++ pre, isAsciiUpper c = true := by
      intro c hc; rcases List.mem_append.mp hc with h | h; exact hr c h; exact hp' c h
    have h2 := key pre hp'
    have hlen : 3 ≤ (soundexDigits sx.mapping.val sx.specialCaseHW f (rest ++ pre)).length := by
      rcases Nat.lt_or_ge (soundexDigits sx.mapping.val sx.specialCaseHW f (rest ++ pre)).length 3 with h | h
      · exfalso
        have e : three (soundexDigits sx.mapping.val sx.specialCaseHW f rest) =
          (soundexDigits sx.mapping.val sx.specialCaseHW f rest).take 3 := Soundex.three_of_ge hd
        have e2 := Soundex.three_of_le (Nat.le_of_lt h)
        rw [e2, e] at h2
        have hmem : '0' ∈ (soundexDigits sx.mapping.val sx.specialCaseHW f rest).take 3 := by
          rw [← h2]
          apply List.mem_append_right
          simp; omega
        have := List.mem_of_mem_take hmem
        simp [soundexDigits] at this
      · exact h
    have := (Soundex.loop_bad sx f bad post' (rest ++ pre) hb [] (codeOf sx.mapping.val f) (by simp) hpre).2
      (by simpa [Soundex.digitsFrom, soundexDigits] using hlen)
    rw [List.append_assoc] at this
    simp only [soundex]
    rw [← h2]
    exact this

/-- C07. `Soundex::encode` never panics on ASCII input. -/
theorem soundex_ascii_no_panic (U : Unicode) (sx : Soundex) (s : Str) (h : AsciiStr s) :
    ∃ code, sx.encode U s = .ok code := ⟨_, soundex_ascii U sx s h⟩

/-- C07. The panic is reachable: `"é"`. -/
theorem soundex_panics_on_accent : Soundex.encode .latin1 .default ['é'] = .error .index := by
  decide +kernel

example : Soundex.encode .latin1 .default c!"Ashcraftonéé" = .ok c!"A261" := by decide +kernel

/-! ## C04: shape of the code -/

/-- C04. The code is empty exactly when the input has no alphabetic character; otherwise it has
four characters: the first letter, then codes of the table that are neither '0' nor '-', then '0's. -/
theorem soundex_shape (U : Unicode) (sx : Soundex) (s code : Str) (h : sx.encode U s = .ok code) :
    (code = [] ↔ ∀ c ∈ s, U.isAlphabetic c = false) ∧
    (code ≠ [] → code.length = 4 ∧ code.head? = (letters U s).head? ∧
      ∃ ds k, code.drop 1 = ds ++ List.replicate k '0' ∧
        ∀ d ∈ ds, d ∈ sx.mapping.val ∧ d ≠ '0' ∧ d ≠ '-') := by
  -- every result is the declarative code of a prefix of the letters
  have hmain : ∃ pre, (∀ c ∈ pre, isAsciiUpper c = true) ∧ code = soundex sx.mapping.val sx.specialCaseHW pre ∧
      (pre = [] ↔ letters U s = []) ∧ pre.head? = (letters U s).head? := by
    rcases Soundex.split_bad (letters U s) with hall | ⟨pre, bad, post, hl, hp, hb⟩
    · rw [soundex_eq_spec U sx s hall] at h
      exact ⟨_, hall, by simpa using h.symm, Iff.rfl, rfl⟩
    · have hn : ¬ ∃ e, sx.encode U s = .error e := by rw [h]; simp
      rw [soundex_panic_iff] at hn
      cases pre with
      | nil => exact absurd ⟨[], bad, post, hl, hp, hb, by simp⟩ hn
      | cons f rest =>
        have hd : 3 ≤ (soundexDigits sx.mapping.val sx.specialCaseHW f rest).length := by
          apply Nat.le_of_not_lt
          intro hlt
          exact hn ⟨f :: rest, bad, post, hl, hp, hb, by rintro f' rest' heq; cases heq; exact hlt⟩
        rw [soundex_full_prefix U sx s f rest (bad :: post) hl hp hd] at h
        refine ⟨f :: rest, hp, by simpa using h.symm, by simp [hl], by simp [hl]⟩
  obtain ⟨pre, hp, rfl, hnil, hhead⟩ := hmain
  refine ⟨?_, ?_⟩
  · rw [← letters_eq_nil, ← hnil]
    cases pre <;> simp [soundex]
  · intro hne
    cases pre with
    | nil => simp [soundex] at hne
    | cons f rest =>
      refine ⟨by simp [soundex, three], by rw [← hhead]; rfl, ?_⟩
      have hds : ∀ d ∈ soundexDigits sx.mapping.val sx.specialCaseHW f rest,
          d ∈ sx.mapping.val ∧ d ≠ '0' ∧ d ≠ '-' := by
        intro d hd
        simp only [soundexDigits, List.mem_filter, decide_eq_true_eq] at hd
        obtain ⟨hd1, hd0⟩ := hd
        refine ⟨?_, hd0, ?_⟩
        · have := List.mem_of_mem_drop hd1
          rw [mem_collapse] at this
          have hcode : ∀ c, isAsciiUpper c = true → codeOf sx.mapping.val c ∈ sx.mapping.val := by
            intro c hc
            simp only [isAsciiUpper, Bool.and_eq_true, decide_eq_true_eq] at hc
            have hlt : c.toNat - 65 < sx.mapping.val.length := by rw [sx.mapping.property]; omega
            have hA : 'A'.toNat = 65 := rfl
            simp only [codeOf, hA, List.getD_eq_getElem?_getD, List.getElem?_eq_getElem hlt, Option.getD_some]
            exact List.getElem_mem _
          rcases List.mem_cons.mp this with rfl | h'
          · exact hcode f (hp f (by simp))
          · simp only [List.mem_filter, List.mem_map] at h'
            obtain ⟨⟨c, hc, rfl⟩, _⟩ := h'
            exact hcode c (hp c (by simp [hc.1]))
        · rintro rfl
          -- '-' can only be the head, which is dropped, or repeat it
          rw [List.drop_one] at hd1
          have : ∀ (l : Str) (a : Char), '-' ∉ l → '-' ∉ (collapse (a :: l)).tail := by
            intro l
            induction l with
            | nil => intro a _; simp [collapse]
            | cons b l ih =>
              intro a hnot
              rw [collapse_cons_cons]
              split
              · exact ih b (fun hm => hnot (by simp [hm]))
              · rw [List.tail_cons, collapse_cons_drop, List.mem_cons]
                rintro (rfl | hm)
                · exact hnot (by simp)
                · rw [List.drop_one] at hm
                  exact ih b (fun hm => hnot (by simp [hm])) hm
          exact this _ _ (by simp) hd1
      have hlen : (soundexDigits sx.mapping.val sx.specialCaseHW f rest).length ≤ 3 ∨
          3 ≤ (soundexDigits sx.mapping.val sx.specialCaseHW f rest).length := by omega
      simp only [soundex, List.drop_one, List.tail_cons]
      rcases hlen with hlen | hlen
      · exact ⟨_, _, Soundex.three_of_le hlen, hds⟩
      · exact ⟨_, 0, by rw [Soundex.three_of_ge hlen]; simp; rfl,
          fun d hd => hds d (List.mem_of_mem_take hd)⟩

/-- C04. With the default encoder the three characters after the letter are digits 0–6. -/
theorem soundex_default_digits (U : Unicode) (s code : Str)
    (h : Soundex.default.encode U s = .ok code) : ∀ d ∈ code.drop 1, d ∈ c!"0123456" := by
  by_cases hne : code = []
  · subst hne; simp
  · obtain ⟨_, _, ds, k, hds, hall⟩ := (soundex_shape U Soundex.default s code h).2 hne
    rw [hds]
    intro d hd
    rcases List.mem_append.mp hd with h1 | h1
    · have hm := (hall d h1).1
      have : ∀ x ∈ defaultMapping.val, x ∈ c!"0123456" := by decide +kernel
      exact this d hm
    · rw [List.eq_of_mem_replicate h1]; decide

example : Soundex.encode .latin1 .default c!"o'Brien" = .ok c!"O165" := by decide +kernel

/-- C02. Soundex differences are between 0 and 4, and 4 means equal, non-empty codes. -/
theorem soundex_difference_four (U : Unicode) (sx : Soundex) (a b ca cb : Str)
    (ha : sx.encode U a = .ok ca) (hb : sx.encode U b = .ok cb) :
    ∃ n, difference (sx.encode U) a b = .ok n ∧ n ≤ 4 ∧ (n = 4 ↔ ca = cb ∧ ca ≠ []) := by
  refine ⟨_, difference_eq_agreements _ _ _ _ _ ha hb, ?_, ?_⟩
  · have := agreements_le ca cb
    by_cases hne : ca = []
    · subst hne; simp at this; omega
    · have := ((soundex_shape U sx a ca ha).2 hne).1; omega
  · by_cases hne : ca = []
    · subst hne; simp [agreements_nil_left]
    · have h4 := ((soundex_shape U sx a ca ha).2 hne).1
      by_cases hne2 : cb = []
      · subst hne2; simp [agreements_nil_right, hne]
      · have h4' := ((soundex_shape U sx b cb hb).2 hne2).1
        rw [← h4, agreements_eq_length_iff (by omega)]
        simp [hne]

example : difference (Soundex.encode .latin1 .default) c!"Smithers" c!"Smythers" = .ok 4 := by
  decide +kernel

/-! ## C05: case and non-letters -/

/-- C05. ASCII words with the same letters up to case have the same code. -/
theorem soundex_case_insensitive (U : Unicode) (sx : Soundex) (s t : Str) (hs : AsciiStr s)
    (ht : AsciiStr t) (h : asciiLetters s = asciiLetters t) : sx.encode U s = sx.encode U t := by
  rw [soundex_ascii U sx s hs, soundex_ascii U sx t ht, h]

/-- C05. So they cannot be told apart by `difference` and `is_encoded_equals` either. -/
theorem soundex_case_insensitive_compare (U : Unicode) (sx : Soundex) (s t u : Str) (hs : AsciiStr s)
    (ht : AsciiStr t) (h : asciiLetters s = asciiLetters t) :
    difference (sx.encode U) s u = difference (sx.encode U) t u ∧
    difference (sx.encode U) u s = difference (sx.encode U) u t ∧
    isEncodedEquals (sx.encode U) s u = isEncodedEquals (sx.encode U) t u ∧
    isEncodedEquals (sx.encode U) u s = isEncodedEquals (sx.encode U) u t ∧
    isEncodedEquals (sx.encode U) s t = .ok true := by
  have e := soundex_case_insensitive U sx s t hs ht h
  obtain ⟨c, hc⟩ : ∃ c, sx.encode U t = .ok c := ⟨_, soundex_ascii U sx t ht⟩
  refine ⟨by simp only [difference, e], by simp only [difference, e], by simp only [isEncodedEquals, e],
    by simp only [isEncodedEquals, e], ?_⟩
  have := (isEncodedEquals_spec (sx.encode U) s t).1 c c (e.trans hc) hc
  simpa using this

/-- C05. Inserting characters that are not alphabetic never changes the code (any Unicode word). -/
theorem soundex_ignores_nonletters (U : Unicode) (sx : Soundex) (a junk b : Str)
    (h : ∀ c ∈ junk, U.isAlphabetic c = false) : sx.encode U (a ++ junk ++ b) = sx.encode U (a ++ b) := by
  have : soundexClean U (a ++ junk ++ b) = soundexClean U (a ++ b) := by
    rw [soundexClean_eq_letters, soundexClean_eq_letters, letters_append, letters_append,
      letters_append, letters_eq_nil.mpr h]; simp
  unfold Soundex.encode
  rw [this]

example : asciiLetters c!"O'Hara 3" = asciiLetters c!"ohARa" ∧ AsciiStr c!"O'Hara 3" := by
  decide +kernel

/-! ## C06: H and W are transparent -/

/-- `h`, `H`, `w`, `W`. -/
def isHW (c : Char) : Bool := c == 'h' || c == 'H' || c == 'w' || c == 'W'

/-- C06. With the H/W rule, removing every H and W after the first letter does not change the code. -/
theorem soundex_hw_transparent (U : Unicode) (sx : Soundex) (hsx : sx.specialCaseHW = true)
    (p : Str) (c : Char) (t : Str) (hp : ∀ x ∈ p, isAsciiAlpha x = false) (hc : isAsciiAlpha c = true)
    (ha : AsciiStr (p ++ c :: t)) :
    sx.encode U (p ++ c :: t) = sx.encode U (p ++ c :: t.filter (fun x => !isHW x)) := by
  have hat := asciiStr_append.mp ha
  have hct := asciiStr_cons.mp hat.2
  have ha2 : AsciiStr (p ++ c :: t.filter (fun x => !isHW x)) :=
    asciiStr_append.mpr ⟨hat.1, asciiStr_cons.mpr ⟨hct.1, hct.2.sublist List.filter_sublist⟩⟩
  rw [soundex_ascii U sx _ ha, soundex_ascii U sx _ ha2]
  have hl : ∀ t, asciiLetters (p ++ c :: t) = asciiUpper c :: asciiLetters t := by
    intro t
    have : p.filter isAsciiAlpha = [] := by rw [List.filter_eq_nil_iff]; simpa using hp
    simp [asciiLetters, List.filter_append, this, hc]
  rw [hl, hl]
  simp only [soundex, soundexDigits, hsx, Bool.true_and]
  have hk : ∀ x, isAscii x = true →
      (asciiUpper x == 'H' || asciiUpper x == 'W') = isHW x := by
    apply forall_ascii; decide +kernel
  have hf : (asciiLetters (t.filter (fun x => !isHW x))).filter (fun c => !(c == 'H' || c == 'W')) =
      (asciiLetters t).filter (fun c => !(c == 'H' || c == 'W')) := by
    have hct2 := hct.2
    clear hl ha2 ha hat hct
    induction t with
    | nil => rfl
    | cons x xs ih =>
      rw [asciiStr_cons] at hct2
      have ih := ih hct2.2
      have hkx := hk x hct2.1
      simp only [asciiLetters] at ih ⊢
      cases hx : isHW x <;> cases hal : isAsciiAlpha x <;> rw [hx] at hkx <;>
        simp only [List.filter_cons, hx, hal, hkx, Bool.not_false, Bool.not_true, if_true, if_false,
          Bool.false_eq_true, List.map_cons, ih]
  rw [hf]

/-- C06. Two letters of the same class separated by H or W are coded once, separated by a vowel
twice (default Soundex, first letter of another class). -/
theorem soundex_hw_vs_vowel (f x y v : Char) (hf : f ∈ c!"ABCDEFGHIJKLMNOPQRSTUVWXYZ")
    (hx : x ∈ c!"ABCDEFGHIJKLMNOPQRSTUVWXYZ") (hy : y ∈ c!"ABCDEFGHIJKLMNOPQRSTUVWXYZ")
    (hxy : codeOf defaultMapping.val x = codeOf defaultMapping.val y)
    (h0 : codeOf defaultMapping.val x ≠ '0') (hfx : codeOf defaultMapping.val f ≠ codeOf defaultMapping.val x)
    (U : Unicode) :
    (v ∈ c!"HW" → Soundex.default.encode U [f, x, v, y] = .ok [f, codeOf defaultMapping.val x, '0', '0']) ∧
    (v ∈ c!"AEIOUY" → Soundex.default.encode U [f, x, v, y] =
      .ok [f, codeOf defaultMapping.val x, codeOf defaultMapping.val x, '0']) := by
  have hup : ∀ c ∈ c!"ABCDEFGHIJKLMNOPQRSTUVWXYZ", isAscii c = true ∧ asciiLetters [c] = [c] := by
    decide +kernel
  have hvs : ∀ c ∈ c!"HWAEIOUY", isAscii c = true ∧ asciiLetters [c] = [c] := by decide +kernel
  have hS : ∀ c ∈ c!"ABCDEFGHIJKLMNOPQRSTUVWXYZ", codeOf defaultMapping.val c ≠ '-' ∧
    (codeOf defaultMapping.val c ≠ '0' → (c == 'H' || c == 'W') = false) := by decide +kernel
  have hV : ∀ c ∈ c!"AEIOUY", codeOf defaultMapping.val c = '0' ∧ (c == 'H' || c == 'W') = false := by
    decide +kernel
  have hH : ∀ c ∈ c!"HW", (c == 'H' || c == 'W') = true := by decide +kernel
  have split4 : ∀ a b c d : Char, asciiLetters [a, b, c, d] =
      asciiLetters [a] ++ (asciiLetters [b] ++ (asciiLetters [c] ++ asciiLetters [d])) := by
    intro a b c d; simp [asciiLetters, List.filter_cons]; repeat' split
    all_goals simp
  have henc : v ∈ c!"HWAEIOUY" → Soundex.default.encode U [f, x, v, y] =
      .ok (soundex defaultMapping.val true [f, x, v, y]) := by
    intro hv
    have hasc : AsciiStr [f, x, v, y] := by
      simp only [AsciiStr, List.mem_cons, List.not_mem_nil, or_false]
      rintro c (rfl | rfl | rfl | rfl)
      · exact (hup _ hf).1
      · exact (hup _ hx).1
      · exact (hvs _ hv).1
      · exact (hup _ hy).1
    rw [soundex_ascii U _ _ hasc, split4, (hup _ hf).2, (hup _ hx).2, (hvs _ hv).2, (hup _ hy).2]
    rfl
  have hx' := hS x hx
  have hy' := hS y hy
  rw [← hxy] at hy'
  constructor
  · intro hv
    rw [henc (by simp at hv ⊢; rcases hv with rfl | rfl <;> simp)]
    simp only [soundex, soundexDigits, List.filter_cons, hx'.2 h0, hy'.2 h0, hH v hv, Bool.and_true,
      Bool.and_false, Bool.true_and, Bool.not_true, Bool.not_false, if_true, List.map_cons,
      List.filter_nil, List.map_nil, ← hxy, hx'.1, ne_eq, not_false_eq_true, decide_true,
      Bool.false_eq_true, if_false]
    simp [collapse, hfx, h0, three]
  · intro hv
    rw [henc (by simp at hv ⊢; rcases hv with rfl | rfl | rfl | rfl | rfl | rfl <;> simp)]
    have hv' := hV v hv
    have h0' : ¬ '0' = codeOf defaultMapping.val x := fun e => h0 e.symm
    simp only [soundex, soundexDigits, List.filter_cons, hx'.2 h0, hy'.2 h0, hv'.2, Bool.and_true,
      Bool.and_false, Bool.true_and, Bool.not_true, Bool.not_false, if_true, List.map_cons,
      List.filter_nil, List.map_nil, ← hxy, hx'.1, ne_eq, not_false_eq_true, decide_true, hv'.1,
      Bool.false_eq_true, if_false]
    simp [collapse, hfx, h0, h0', three]

/-- C06. For every mapping: after a letter, a letter of the same class is not coded when only H, W and
characters that are not letters separate the two (anywhere in a word). -/
theorem soundex_hw_coded_once (U : Unicode) (sx : Soundex) (hsx : sx.specialCaseHW = true)
    (p : Str) (x : Char) (sep : Str) (y : Char) (t : Str) (ha : AsciiStr (p ++ x :: (sep ++ y :: t)))
    (hx : isAsciiAlpha x = true ∧ isHW x = false) (hy : isAsciiAlpha y = true ∧ isHW y = false)
    (hsep : ∀ c ∈ sep, isHW c = true ∨ isAsciiAlpha c = false)
    (hxy : codeOf sx.mapping.val (asciiUpper x) = codeOf sx.mapping.val (asciiUpper y)) :
    sx.encode U (p ++ x :: (sep ++ y :: t)) = sx.encode U (p ++ x :: (sep ++ t)) := by
  have hasc := ha
  simp only [asciiStr_append, asciiStr_cons] at hasc
  obtain ⟨hap, hax, has, hay, hat⟩ := hasc
  have ha2 : AsciiStr (p ++ x :: (sep ++ t)) := by
    simp only [asciiStr_append, asciiStr_cons]; exact ⟨hap, hax, has, hat⟩
  rw [soundex_ascii U sx _ ha, soundex_ascii U sx _ ha2, hsx]
  have happ : ∀ a b : Str, asciiLetters (a ++ b) = asciiLetters a ++ asciiLetters b := by
    intro a b; simp [asciiLetters]
  have hcons : ∀ (c : Char) (b : Str), isAsciiAlpha c = true →
      asciiLetters (c :: b) = asciiUpper c :: asciiLetters b := by
    intro c b h; simp [asciiLetters, h]
  have hk : ∀ x, isAscii x = true →
      (asciiUpper x == 'H' || asciiUpper x == 'W') = isHW x := by
    apply forall_ascii; decide +kernel
  have hS : ∀ c ∈ asciiLetters sep, (c == 'H' || c == 'W') = true := by
    intro c hc
    simp only [asciiLetters, List.mem_map, List.mem_filter] at hc
    obtain ⟨a, ⟨h1, h2⟩, rfl⟩ := hc
    rw [hk a (has a h1)]
    rcases hsep a h1 with h | h
    · exact h
    · rw [h2] at h; cases h
  have hX := hk x hax
  have hY := hk y hay
  rw [hx.2] at hX
  rw [hy.2] at hY
  rw [happ, happ, hcons x _ hx.1, hcons x _ hx.1, happ, happ, hcons y _ hy.1]
  generalize asciiLetters p = P
  generalize asciiLetters t = T
  generalize asciiLetters sep = S at hS
  generalize asciiUpper x = X at hX hxy
  generalize asciiUpper y = Y at hY hxy
  -- the letters between are skipped
  have hskip : ∀ prev R, Soundex.digitsFrom sx.mapping.val true prev (S ++ R) =
      Soundex.digitsFrom sx.mapping.val true prev R := by
    intro prev R
    induction S with
    | nil => rfl
    | cons c S ih =>
      rw [List.cons_append, Soundex.digitsFrom_hw _ _ _ _ _ (by rw [hS c (by simp)]; rfl),
        ih (fun c hc => hS c (by simp [hc]))]
  have hsame : Soundex.digitsFrom sx.mapping.val true (codeOf sx.mapping.val X) (S ++ Y :: T) =
      Soundex.digitsFrom sx.mapping.val true (codeOf sx.mapping.val X) (S ++ T) := by
    rw [hskip, hskip]
    by_cases hd : codeOf sx.mapping.val Y = '-'
    · rw [Soundex.digitsFrom_silent _ _ _ _ _ (by rw [hY]; rfl) hd]
    · rw [Soundex.digitsFrom_code _ _ _ _ _ (by rw [hY]; rfl) hd, hxy, if_neg (by simp)]
  have hafter : ∀ prev, Soundex.digitsFrom sx.mapping.val true prev (X :: (S ++ Y :: T)) =
      Soundex.digitsFrom sx.mapping.val true prev (X :: (S ++ T)) := by
    intro prev
    by_cases hd : codeOf sx.mapping.val X = '-'
    · rw [Soundex.digitsFrom_silent _ _ _ _ _ (by rw [hX]; rfl) hd,
        Soundex.digitsFrom_silent _ _ _ _ _ (by rw [hX]; rfl) hd, hskip, hskip,
        Soundex.digitsFrom_silent _ _ _ _ _ (by rw [hY]; rfl) (by rw [← hxy]; exact hd)]
    · rw [Soundex.digitsFrom_code _ _ _ _ _ (by rw [hX]; rfl) hd,
        Soundex.digitsFrom_code _ _ _ _ _ (by rw [hX]; rfl) hd, hsame]
  have hany : ∀ (P : Str) prev, Soundex.digitsFrom sx.mapping.val true prev (P ++ X :: (S ++ Y :: T)) =
      Soundex.digitsFrom sx.mapping.val true prev (P ++ X :: (S ++ T)) := by
    intro P
    induction P with
    | nil => exact hafter
    | cons c P ih =>
      intro prev
      rw [List.cons_append, List.cons_append]
      cases hc : (true && (c == 'H' || c == 'W')) with
      | true => rw [Soundex.digitsFrom_hw _ _ _ _ _ hc, Soundex.digitsFrom_hw _ _ _ _ _ hc, ih]
      | false =>
        by_cases hd : codeOf sx.mapping.val c = '-'
        · rw [Soundex.digitsFrom_silent _ _ _ _ _ hc hd, Soundex.digitsFrom_silent _ _ _ _ _ hc hd, ih]
        · rw [Soundex.digitsFrom_code _ _ _ _ _ hc hd, Soundex.digitsFrom_code _ _ _ _ _ hc hd, ih]
  cases P with
  | nil =>
    show Except.ok (X :: three (Soundex.digitsFrom sx.mapping.val true (codeOf sx.mapping.val X) (S ++ Y :: T))) =
      Except.ok (X :: three (Soundex.digitsFrom sx.mapping.val true (codeOf sx.mapping.val X) (S ++ T)))
    rw [hsame]
  | cons c P =>
    show Except.ok (c :: three (Soundex.digitsFrom sx.mapping.val true (codeOf sx.mapping.val c)
        (P ++ X :: (S ++ Y :: T)))) =
      Except.ok (c :: three (Soundex.digitsFrom sx.mapping.val true (codeOf sx.mapping.val c)
        (P ++ X :: (S ++ T))))
    rw [hany]

example : AsciiStr (c!"T" ++ 'b' :: (c!"h-W" ++ 'p' :: c!"er")) ∧
    (∀ c ∈ c!"h-W", isHW c = true ∨ isAsciiAlpha c = false) ∧
    codeOf defaultMapping.val 'B' = codeOf defaultMapping.val 'P' ∧
    Soundex.encode .latin1 .default c!"Tbh-Wper" = .ok c!"T160" := by decide +kernel

/-- C06. For every mapping: with a letter of code '0' (a vowel) between them both are coded. -/
theorem soundex_vowel_separates (U : Unicode) (sx : Soundex) (f x v y : Char) (t : Str)
    (hf : isAsciiUpper f = true) (hx : isAsciiUpper x = true) (hv : isAsciiUpper v = true)
    (hy : isAsciiUpper y = true) (ht : AsciiStr t)
    (hhw : isHW x = false ∧ isHW v = false ∧ isHW y = false)
    (hxy : codeOf sx.mapping.val x = codeOf sx.mapping.val y)
    (h0 : codeOf sx.mapping.val x ≠ '0' ∧ codeOf sx.mapping.val x ≠ '-')
    (hv0 : codeOf sx.mapping.val v = '0')
    (hfx : codeOf sx.mapping.val f ≠ codeOf sx.mapping.val x) :
    ∃ d, sx.encode U (f :: x :: v :: y :: t) =
      .ok [f, codeOf sx.mapping.val x, codeOf sx.mapping.val x, d] := by
  have hup : ∀ c, isAsciiUpper c = true → isAscii c = true ∧ isAsciiAlpha c = true ∧ asciiUpper c = c := by
    intro c hc
    have h : isAscii c = true := by
      simp only [isAsciiUpper, isAscii, Bool.and_eq_true, decide_eq_true_eq] at hc ⊢; omega
    revert hc
    revert c
    have := forall_ascii (P := fun c => isAsciiUpper c = true → isAscii c = true ∧ isAsciiAlpha c = true ∧ asciiUpper c = c)
      (by decide +kernel)
    exact fun c h hc => this c h hc
  have hk : ∀ c, isHW c = false → (c == 'H' || c == 'W') = false := by
    intro c hc
    simp only [isHW, Bool.or_eq_false_iff] at hc ⊢
    exact ⟨hc.1.1.2, hc.2⟩
  have ha : AsciiStr (f :: x :: v :: y :: t) := by
    simp only [asciiStr_cons]
    exact ⟨(hup f hf).1, (hup x hx).1, (hup v hv).1, (hup y hy).1, ht⟩
  have hcons : ∀ (c : Char) (b : Str), isAsciiUpper c = true → asciiLetters (c :: b) = c :: asciiLetters b := by
    intro c b h; simp [asciiLetters, (hup c h).2.1, (hup c h).2.2]
  rw [soundex_ascii U sx _ ha, hcons f _ hf, hcons x _ hx, hcons v _ hv, hcons y _ hy]
  generalize asciiLetters t = T
  have hX : ∀ hw : Bool, (hw && (x == 'H' || x == 'W')) = false := fun hw => by rw [hk x hhw.1, Bool.and_false]
  have hV : ∀ hw : Bool, (hw && (v == 'H' || v == 'W')) = false := fun hw => by rw [hk v hhw.2.1, Bool.and_false]
  have hY : ∀ hw : Bool, (hw && (y == 'H' || y == 'W')) = false := fun hw => by rw [hk y hhw.2.2, Bool.and_false]
  have e : Soundex.digitsFrom sx.mapping.val sx.specialCaseHW (codeOf sx.mapping.val f) (x :: v :: y :: T) =
      codeOf sx.mapping.val x :: codeOf sx.mapping.val x ::
        Soundex.digitsFrom sx.mapping.val sx.specialCaseHW (codeOf sx.mapping.val x) T := by
    rw [Soundex.digitsFrom_code _ _ _ _ _ (hX _) h0.2, if_pos ⟨h0.1, fun h => hfx h.symm⟩,
      Soundex.digitsFrom_code _ _ _ _ _ (hV _) (by rw [hv0]; decide), if_neg (by rw [hv0]; simp), hv0,
      Soundex.digitsFrom_code _ _ _ _ _ (hY _) (by rw [← hxy]; exact h0.2), ← hxy, if_pos ⟨h0.1, h0.1⟩]
  show ∃ d, Except.ok (f :: three (Soundex.digitsFrom sx.mapping.val sx.specialCaseHW (codeOf sx.mapping.val f)
    (x :: v :: y :: T))) = _
  rw [e]
  cases Soundex.digitsFrom sx.mapping.val sx.specialCaseHW (codeOf sx.mapping.val x) T with
  | nil => exact ⟨'0', rfl⟩
  | cons d _ => exact ⟨d, rfl⟩

example : codeOf defaultMapping.val 'B' = codeOf defaultMapping.val 'P' ∧
    codeOf defaultMapping.val 'A' = '0' ∧ codeOf defaultMapping.val 'T' ≠ codeOf defaultMapping.val 'B' ∧
    Soundex.encode .latin1 .default c!"TBAPer" = .ok c!"T116" := by decide +kernel

example : Soundex.encode .latin1 .default c!"Tbhp" = .ok c!"T100" ∧
    Soundex.encode .latin1 .default c!"Tbap" = .ok c!"T110" := by decide +kernel

namespace SoundexProofs

/-- A vowel and a coded letter after any letters: the letter is coded. -/
theorem digits_vowel (table : Str) (hw : Bool) (v y : Char) (T : Str) (hv : (hw && (v == 'H' || v == 'W')) = false)
    (hy : (hw && (y == 'H' || y == 'W')) = false) (hv0 : codeOf table v = '0') (hy0 : codeOf table y ≠ '0')
    (hy1 : codeOf table y ≠ '-') (rest : Str) : ∀ prev : Char,
    Soundex.digitsFrom table hw prev (rest ++ v :: y :: T) =
      Soundex.digitsFrom table hw prev rest ++ codeOf table y :: Soundex.digitsFrom table hw (codeOf table y) T := by
  induction rest with
  | nil =>
    intro prev
    rw [List.nil_append, Soundex.digitsFrom_nil, List.nil_append,
      Soundex.digitsFrom_code _ _ _ _ _ hv (by rw [hv0]; decide), if_neg (by rw [hv0]; simp), hv0,
      Soundex.digitsFrom_code _ _ _ _ _ hy hy1, if_pos ⟨hy0, hy0⟩]
  | cons c rest ih =>
    intro prev
    rw [List.cons_append]
    by_cases h : (hw && (c == 'H' || c == 'W')) = true
    · rw [Soundex.digitsFrom_hw _ _ _ _ _ h, Soundex.digitsFrom_hw _ _ _ _ _ h, ih]
    · have h : (hw && (c == 'H' || c == 'W')) = false := by simpa using h
      by_cases hs : codeOf table c = '-'
      · rw [Soundex.digitsFrom_silent _ _ _ _ _ h hs, Soundex.digitsFrom_silent _ _ _ _ _ h hs, ih]
      · rw [Soundex.digitsFrom_code _ _ _ _ _ h hs, Soundex.digitsFrom_code _ _ _ _ _ h hs]
        by_cases hc : codeOf table c ≠ '0' ∧ codeOf table c ≠ prev
        · rw [if_pos hc, if_pos hc, ih]; rfl
        · rw [if_neg hc, if_neg hc, ih]

end SoundexProofs

/-- C06. For every mapping, anywhere in a word: a letter that follows a vowel (a letter of code '0') is coded, whatever
precedes the vowel (a letter of the same class, say), if there is place left in the code: the code starts with what is coded
before the vowel, followed by the code of the letter. -/
theorem soundex_vowel_separates_anywhere (U : Unicode) (sx : Soundex) (p : Str) (v y : Char) (t w : Str) (k : Nat)
    (ha : AsciiStr (p ++ v :: y :: t)) (hv : isAsciiAlpha v = true) (hy : isAsciiAlpha y = true)
    (hhw : isHW v = false ∧ isHW y = false) (hv0 : codeOf sx.mapping.val (asciiUpper v) = '0')
    (hy0 : codeOf sx.mapping.val (asciiUpper y) ≠ '0' ∧ codeOf sx.mapping.val (asciiUpper y) ≠ '-')
    (hp : sx.encode U p = .ok (w ++ List.replicate (k + 1) '0')) (hw : '0' ∉ w) :
    ∃ code, sx.encode U (p ++ v :: y :: t) = .ok code ∧ w ++ [codeOf sx.mapping.val (asciiUpper y)] <+: code := by
  have hap : AsciiStr p := fun c hc => ha c (by simp [hc])
  have hl : asciiLetters (p ++ v :: y :: t) = asciiLetters p ++ asciiUpper v :: asciiUpper y :: asciiLetters t := by
    simp [asciiLetters, hv, hy]
  have hk : ∀ c, isHW c = false → ∀ b : Bool, (b && (asciiUpper c == 'H' || asciiUpper c == 'W')) = false := by
    intro c hc b
    have h : ∀ c, isAscii c = true → isHW c = false → (asciiUpper c == 'H' || asciiUpper c == 'W') = false :=
      forall_ascii (P := fun c => isHW c = false → (asciiUpper c == 'H' || asciiUpper c == 'W') = false) (by decide +kernel)
    by_cases hc' : isAscii c = true
    · rw [h c hc' hc, Bool.and_false]
    · have h' : asciiUpper c = c := by
        unfold asciiUpper
        rw [if_neg]
        intro hlow
        apply hc'
        simp only [isAsciiLower, isAscii, Bool.and_eq_true, decide_eq_true_eq] at hlow ⊢
        omega
      have h1 : c ≠ 'H' := by rintro rfl; exact hc' (by decide)
      have h2 : c ≠ 'W' := by rintro rfl; exact hc' (by decide)
      rw [h']
      simp [h1, h2]
  rw [soundex_ascii U sx _ hap] at hp
  rw [soundex_ascii U sx _ ha, hl]
  have hp := Except.ok.inj hp
  cases hq : asciiLetters p with
  | nil => rw [hq] at hp; cases w <;> cases hp
  | cons f rest =>
    rw [hq] at hp
    cases w with
    | nil =>
      exfalso
      have hf : f = '0' := (List.cons.inj hp).1
      have : f ∈ asciiLetters p := by rw [hq]; simp
      simp only [asciiLetters, List.mem_map, List.mem_filter] at this
      obtain ⟨c, ⟨hc, hal⟩, hcf⟩ := this
      have := forall_ascii (P := fun c => isAsciiAlpha c = true → asciiUpper c ≠ '0') (by decide +kernel) c (hap c hc) hal
      exact this (hcf.trans hf)
    | cons g w =>
      obtain ⟨hfg, hthree⟩ := List.cons.inj hp
      subst hfg
      refine ⟨_, rfl, ?_⟩
      show _ <+: f :: three (Soundex.digitsFrom sx.mapping.val sx.specialCaseHW (codeOf sx.mapping.val f)
        (rest ++ asciiUpper v :: asciiUpper y :: asciiLetters t))
      rw [SoundexProofs.digits_vowel _ _ _ _ _ (hk v hhw.1 _) (hk y hhw.2 _) hv0 hy0.1 hy0.2]
      have hd : three (Soundex.digitsFrom sx.mapping.val sx.specialCaseHW (codeOf sx.mapping.val f) rest) =
          w ++ List.replicate (k + 1) '0' := hthree
      have hz : '0' ∉ Soundex.digitsFrom sx.mapping.val sx.specialCaseHW (codeOf sx.mapping.val f) rest := by
        unfold Soundex.digitsFrom
        intro h
        have := (List.mem_filter.mp h).2
        simp at this
      have hw' : '0' ∉ w := fun h => hw (by simp [h])
      rw [List.cons_append, List.cons_prefix_cons]
      refine ⟨rfl, ?_⟩
      generalize Soundex.digitsFrom sx.mapping.val sx.specialCaseHW (codeOf sx.mapping.val f) rest = D at hd hz
      generalize Soundex.digitsFrom sx.mapping.val sx.specialCaseHW _ (asciiLetters t) = E
      generalize codeOf sx.mapping.val (asciiUpper y) = d
      have key : D = w := by
        unfold three at hd
        rcases D with _ | ⟨a, _ | ⟨b, _ | ⟨c, D⟩⟩⟩ <;> rcases w with _ | ⟨a', _ | ⟨b', _ | ⟨c', w⟩⟩⟩ <;>
          simp_all [List.replicate_succ]
      subst key
      unfold three at hd ⊢
      have hlen := congrArg List.length hd
      simp only [List.length_take, List.length_append, List.length_cons, List.length_nil, List.length_replicate] at hlen
      rw [List.prefix_take_iff]
      refine ⟨⟨E ++ ['0', '0', '0'], by simp⟩, ?_⟩
      simp
      omega

/-- "Tymbapfer": the P is coded although B is of the same class. -/
theorem soundex_vowel_separates_example :
    Soundex.encode .latin1 .default c!"Tb" = .ok (c!"T1" ++ List.replicate 2 '0') ∧
    Soundex.encode .latin1 .default c!"Tb-apr" = .ok c!"T116" := by decide +kernel

/-! ## C08: constructors -/

/-- C08. Parsing a mapping succeeds exactly on strings of 26 characters; the encoder then uses these
characters in order, with the H/W rule exactly when there is no '-'; otherwise the error is the list
of characters. `from_str`, `TryFrom<&str>` and `TryFrom<String>` agree. -/
theorem soundex_fromStr (s : Str) :
    (∀ sx, Soundex.fromStr s = .ok sx ↔
      s.length = 26 ∧ sx.mapping.val = s ∧ (sx.specialCaseHW = true ↔ '-' ∉ s)) ∧
    (∀ e, Soundex.fromStr s = .error e ↔ s.length ≠ 26 ∧ e = s) ∧
    Soundex.tryFromStr s = Soundex.fromStr s ∧ Soundex.tryFromString s = Soundex.fromStr s := by
  refine ⟨?_, ?_, rfl, rfl⟩
  · intro sx
    unfold Soundex.fromStr toArray26
    by_cases h : s.length = 26
    · simp only [h, dif_pos, Except.ok.injEq, true_and, Soundex.ofMapping, hasSilentInMapping]
      have hany : (s.any fun x => x == '-') = true ↔ '-' ∈ s := by simp
      constructor
      · rintro rfl
        refine ⟨rfl, ?_⟩
        simp only [Bool.not_eq_true', ← Bool.not_eq_true, hany]
      · rintro ⟨h1, h2⟩
        cases sx with
        | mk m sp =>
          simp only at h1 h2
          have hm : m = ⟨s, h⟩ := Subtype.ext h1
          subst hm
          simp only [Soundex.mk.injEq, true_and]
          rw [Bool.eq_iff_iff, h2]
          simp only [Bool.not_eq_true', ← Bool.not_eq_true, hany]
    · simp [h]
  · intro e
    unfold Soundex.fromStr toArray26
    by_cases h : s.length = 26
    · simp [h]
    · simp [h]; exact eq_comm

/-- C08. The same for Refined Soundex (no H/W rule). -/
theorem refinedSoundex_fromStr (s : Str) :
    (∀ rs, RefinedSoundex.fromStr s = .ok rs ↔ s.length = 26 ∧ rs.mapping.val = s) ∧
    (∀ e, RefinedSoundex.fromStr s = .error e ↔ s.length ≠ 26 ∧ e = s) ∧
    RefinedSoundex.tryFromStr s = RefinedSoundex.fromStr s ∧
    RefinedSoundex.tryFromString s = RefinedSoundex.fromStr s := by
  refine ⟨?_, ?_, rfl, rfl⟩
  · intro rs
    unfold RefinedSoundex.fromStr toArray26
    by_cases h : s.length = 26
    · simp only [h, dif_pos, Except.ok.injEq, true_and]
      constructor
      · rintro rfl; rfl
      · intro h1; cases rs with
        | mk m => simp only [RefinedSoundex.mk.injEq]; exact (Subtype.ext h1).symm
    · simp [h]
  · intro e
    unfold RefinedSoundex.fromStr toArray26
    by_cases h : s.length = 26
    · simp [h]
    · simp [h]; exact eq_comm

/-- C08. The documented strings give the default encoders. -/
theorem default_mappings :
    Soundex.fromStr c!"01230120022455012623010202" = .ok Soundex.default ∧
    RefinedSoundex.fromStr c!"01360240043788015936020505" = .ok RefinedSoundex.default ∧
    Soundex.fromStr c!"-123-12--22455-12623-1-2-2" = .ok ⟨genealogyMapping, false⟩ := by
  refine ⟨rfl, rfl, rfl⟩

/-! ## C09: Refined Soundex -/

/-- C09. On letters A–Z the code is the first letter followed by the run-collapsed codes. -/
theorem refinedSoundex_eq_spec (U : Unicode) (rs : RefinedSoundex) (s : Str)
    (h : ∀ c ∈ letters U s, isAsciiUpper c = true) :
    rs.encode U s = .ok (refinedSoundex rs.mapping.val (letters U s)) := by
  unfold RefinedSoundex.encode
  rw [soundexClean_eq_letters]
  cases hl : letters U s with
  | nil => rfl
  | cons f rest =>
    rw [hl] at h
    have hf := h f (by simp)
    have hr : ∀ c ∈ rest, isAsciiUpper c = true := fun c hc => h c (by simp [hc])
    simp only [RefinedSoundex.loop, getMappingCode_upper _ hf, bind, Except.bind]
    rw [if_pos (by simp), RefinedSoundex.loop_eq _ _ hr]
    simp only [refinedSoundex, List.map_cons]
    conv => rhs; rw [collapse_cons_drop]
    simp

/-- C09. It panics exactly when some letter is outside A–Z. -/
theorem refinedSoundex_panic_iff (U : Unicode) (rs : RefinedSoundex) (s : Str) :
    (∃ e, rs.encode U s = .error e) ↔ ∃ c ∈ letters U s, isAsciiUpper c = false := by
  constructor
  · rintro ⟨e, he⟩
    rcases Soundex.split_bad (letters U s) with hall | ⟨pre, bad, post, hl, hp, hb⟩
    · rw [refinedSoundex_eq_spec U rs s hall] at he; simp at he
    · exact ⟨bad, by rw [hl]; simp, hb⟩
  · intro h
    unfold RefinedSoundex.encode
    rw [soundexClean_eq_letters]
    cases hl : letters U s with
    | nil => rw [hl] at h; simp at h
    | cons f rest =>
      rw [hl] at h
      exact RefinedSoundex.loop_bad _ _ h _ _

/-- C09. Shape: empty iff no letter; the codes after the first letter have no two equal neighbours,
are entries of the table, and there is at most one per letter. -/
theorem refinedSoundex_shape (U : Unicode) (rs : RefinedSoundex) (s code : Str)
    (h : rs.encode U s = .ok code) :
    (code = [] ↔ ∀ c ∈ s, U.isAlphabetic c = false) ∧
    code.head? = (letters U s).head? ∧
    NoAdjacentDup (code.drop 1) ∧
    code.length ≤ (letters U s).length + 1 ∧
    ∀ d ∈ code.drop 1, d ∈ rs.mapping.val := by
  have hall : ∀ c ∈ letters U s, isAsciiUpper c = true := by
    intro c hc
    cases hb : isAsciiUpper c with
    | true => rfl
    | false =>
      have := (refinedSoundex_panic_iff U rs s).mpr ⟨c, hc, hb⟩
      rw [h] at this; simp at this
  rw [refinedSoundex_eq_spec U rs s hall] at h
  simp only [Except.ok.injEq] at h
  subst h
  rw [← letters_eq_nil]
  cases hl : letters U s with
  | nil => simp [refinedSoundex, NoAdjacentDup]
  | cons f rest =>
    rw [hl] at hall
    refine ⟨by simp [refinedSoundex], by simp [refinedSoundex], ?_, ?_, ?_⟩
    · simp only [refinedSoundex, List.drop_one, List.tail_cons]
      exact noAdjacentDup_collapse _
    · simp only [refinedSoundex, List.length_cons]
      have := collapse_length_le ((f :: rest).map (codeOf rs.mapping.val))
      simp only [List.length_map, List.length_cons] at this
      omega
    · intro d hd
      simp only [refinedSoundex, List.drop_one, List.tail_cons, mem_collapse, List.mem_map] at hd
      obtain ⟨c, hc, rfl⟩ := hd
      have hc := hall c hc
      simp only [isAsciiUpper, Bool.and_eq_true, decide_eq_true_eq] at hc
      have hlt : c.toNat - 65 < rs.mapping.val.length := by rw [rs.mapping.property]; omega
      have hA : 'A'.toNat = 65 := rfl
      simp only [codeOf, hA, List.getD_eq_getElem?_getD, List.getElem?_eq_getElem hlt, Option.getD_some]
      exact List.getElem_mem _

/-- C09. On ASCII input it never panics and depends only on the letters up to case. -/
theorem refinedSoundex_ascii (U : Unicode) (rs : RefinedSoundex) (s : Str) (h : AsciiStr s) :
    rs.encode U s = .ok (refinedSoundex rs.mapping.val (asciiLetters s)) := by
  rw [← letters_ascii U h]
  apply refinedSoundex_eq_spec
  rw [letters_ascii U h]
  exact asciiLetters_upper

example : RefinedSoundex.encode .latin1 .default c!"Testing" = .ok c!"T6036084" := by decide +kernel
example : ∃ e, RefinedSoundex.encode .latin1 .default c!"aé" = .error e := ⟨.index, by decide +kernel⟩

end Verif.Props
