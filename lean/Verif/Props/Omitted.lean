import Verif.Props.Doubled
/-!
# Exactly which letters may be left out (C102)
-/

set_option linter.unusedSimpArgs false
set_option linter.unusedVariables false

namespace Verif.Props
open Spec

namespace OmittedProofs
open InterchangeProofs

instance (u v : Str) : Decidable (afterLetter u v) := inferInstanceAs (Decidable (_ ∧ _ ∧ _))
instance (u v : Str) : Decidable (afterLetterOfTwo u v) := inferInstanceAs (Decidable (_ ∧ _))

/-- A letter that may be left out for `f` may be left out for `g` in ASCII contexts, if `f` and `g` agree there. -/
theorem out_of_contexts {β : Type} {f g : Str → β} {around : Str → Str → Prop} {c : Char} {good : Str}
    (hc : c ∈ allLetters) (h : Omissible f around c) (contexts : List (Str × Str))
    (hb : ∀ x ∈ contexts, around x.1 x.2) (hx : ∀ x ∈ contexts, AsciiStr x.1 ∧ AsciiStr x.2)
    (hfg : ∀ s, AsciiStr s → f s = g s)
    (hd : ∀ c ∈ allLetters, (∀ x ∈ contexts, g (x.1 ++ c :: x.2) = g (x.1 ++ x.2)) → c ∈ good) : c ∈ good := by
  refine hd c hc fun x hm => ?_
  have a1 : AsciiStr (x.1 ++ c :: x.2) := asciiStr_append.mpr ⟨(hx x hm).1, asciiStr_cons.mpr ⟨cap_ascii hc, (hx x hm).2⟩⟩
  have a2 : AsciiStr (x.1 ++ x.2) := asciiStr_append.mpr (hx x hm)
  rw [← hfg _ a1, ← hfg _ a2]
  exact h x.1 x.2 (hb x hm)

theorem soundex_skip (sx : Soundex) (hs : sx.specialCaseHW = true) (c : Char) (hc : c = 'H' ∨ c = 'W') (x y : Str) :
    ∀ count prev code, Soundex.loop sx (x ++ c :: y) count prev code = Soundex.loop sx (x ++ y) count prev code := by
  induction x with
  | nil =>
    intro count prev code
    have hh : (sx.specialCaseHW && (c == 'H' || c == 'W')) = true := by
      rcases hc with rfl | rfl <;> simp [hs]
    simp only [List.nil_append, Soundex.loop, hh, if_true]
    split
    · rfl
    · rename_i h
      cases y with
      | nil => rfl
      | cons d y => simp only [Soundex.loop, if_neg h]
  | cons d x ih =>
    intro count prev code
    simp only [List.cons_append, Soundex.loop, ih]

theorem second_letter (s : Str) (h : 2 ≤ (s.filter isAsciiAlpha).length) :
    ∃ (p : Str) (a : Char) (q : Str) (c : Char), s = p ++ a :: q ∧ c ∈ p ∧ isAsciiAlpha c = true ∧ isAsciiAlpha a = true := by
  induction s with
  | nil => simp at h
  | cons d s ih =>
    by_cases hd : isAsciiAlpha d = true
    · rw [List.filter_cons, if_pos hd, List.length_cons] at h
      obtain ⟨a, ha⟩ := List.exists_mem_of_length_pos (l := s.filter isAsciiAlpha) (by omega)
      obtain ⟨h1, h2⟩ := List.mem_filter.mp ha
      obtain ⟨p, q, rfl⟩ := List.append_of_mem h1
      exact ⟨d :: p, a, q, d, rfl, by simp, hd, h2⟩
    · rw [List.filter_cons, if_neg hd] at h
      obtain ⟨p, a, q, c, rfl, h1, h2, h3⟩ := ih h
      exact ⟨d :: p, a, q, c, rfl, List.mem_cons_of_mem _ h1, h2, h3⟩

theorem alpha_not_space (U : Unicode) {c : Char} (h : isAsciiAlpha c = true) : U.isWhitespace c = false := by
  have ha : isAscii c = true := by
    unfold isAsciiAlpha isAsciiLower isAsciiUpper at h
    unfold isAscii
    simp only [Bool.or_eq_true, Bool.and_eq_true, decide_eq_true_eq] at h
    simp only [decide_eq_true_eq]
    omega
  rw [U.isWhitespace_ascii c ha]
  have : ∀ c, isAscii c = true → isAsciiAlpha c = true → isAsciiWs c = false := by
    apply forall_ascii; decide +kernel
  exact this c ha h

end OmittedProofs

open InterchangeProofs OmittedProofs

/-- C102: Soundex ignores H and W after a letter, in a text in any alphabet, and no other letter; Refined Soundex ignores
no letter. -/
theorem soundex_omissible (U : Unicode) (c : Char) (hc : c ∈ allLetters) :
    (Omissible (Soundex.default.encode U) (fun u _ => hasLetter u) c ↔ c ∈ c!"HW") ∧
    ¬ Omissible (Soundex.default.encode U) (fun _ _ => True) c ∧
    ¬ Omissible (RefinedSoundex.default.encode U) afterLetter c := by
  refine ⟨⟨fun h => ?_, fun h u v hu => ?_⟩, fun h => ?_, fun h => ?_⟩
  · exact out_of_contexts hc h [(c!"L", c!"L"), (c!"C", c!"UGH")] (by decide) (by decide)
      (fun s hs => (ascii_tables U .latin1 s hs).1 Soundex.default) (by decide +kernel)
  · obtain ⟨d, r, hd⟩ := letters_ne U hu
    unfold Soundex.encode
    rw [soundexClean_eq_letters, soundexClean_eq_letters, letters_cap U u v hc, letters_append, hd]
    simp only [List.cons_append]
    have := soundex_skip Soundex.default rfl c (by simpa using h) r (letters U v)
    simp only [this]
  · have := out_of_contexts (good := []) hc h [([], [])] (by simp) (by decide)
      (fun s hs => (ascii_tables U .latin1 s hs).1 Soundex.default) (by decide +kernel)
    cases this
  · have := out_of_contexts (good := []) hc h [(c!"B", c!"B"), (c!"A", c!"A")] (by decide) (by decide)
      (fun s hs => (ascii_tables U .latin1 s hs).2.1 RefinedSoundex.default) (by decide +kernel)
    cases this

/-- C102: Match Rating ignores the vowels after a letter as long as two letters remain, in a text in any alphabet, and no
other letter. -/
theorem mra_omissible (U : Unicode) (c : Char) (hc : c ∈ allLetters) :
    (Omissible (MatchRating.encode U) afterLetterOfTwo c ↔ c ∈ c!"AEIOU") ∧
    ¬ Omissible (MatchRating.encode U) afterLetter c := by
  refine ⟨⟨fun h => ?_, fun h u v ⟨hu, h2⟩ => ?_⟩, fun h => ?_⟩
  · exact out_of_contexts hc h [(c!"SC", c!"CH")] (by decide) (by decide)
      (fun s hs => (ascii_tables U .latin1 s hs).2.2.2.2.2.2.1) (by decide +kernel)
  · obtain ⟨l1, e1⟩ := DoubledProofs.mra_ignored U u v hu h
    obtain ⟨p, a, q, d, e, hd, hd1, ha⟩ := second_letter _ h2
    have l2 : MraProofs.Long U (u ++ v) := by
      rw [e]
      exact trim_long U p q d a hd (alpha_not_space U hd1) (alpha_not_space U ha)
    rw [MraProofs.encode_long l1, MraProofs.encode_long l2, e1]
  · have := out_of_contexts (good := []) hc h [(c!"SC", c!"CH"), (c!"B", [])] (by decide) (by decide)
      (fun s hs => (ascii_tables U .latin1 s hs).2.2.2.2.2.2.1) (by decide +kernel)
    cases this

/-- C102: Cologne phonetics, both versions of Caverphone and NYSIIS ignore no letter, not even after another one. -/
theorem plain_omissible (U : Unicode) (c : Char) (hc : c ∈ allLetters) :
    ¬ Omissible (Cologne.encode U) afterLetter c ∧
    ¬ Omissible (Caverphone1.encode U) afterLetter c ∧
    ¬ Omissible (Caverphone2.encode U) afterLetter c ∧
    ∀ strict, ¬ Omissible ((Nysiis.new strict).encode U) afterLetter c := by
  refine ⟨fun h => ?_, fun h => ?_, fun h => ?_, fun strict h => ?_⟩
  · have := out_of_contexts (good := []) hc h [(c!"SC", c!"X")] (by decide) (by decide)
      (fun s hs => (ascii_tables U .latin1 s hs).2.2.1) (by decide +kernel)
    cases this
  · have := out_of_contexts (good := []) hc h [(c!"D", c!"GH")] (by decide) (by decide)
      (fun s hs => (ascii_tables U .latin1 s hs).2.2.2.1) (by decide +kernel)
    cases this
  · have := out_of_contexts (good := []) hc h [(c!"T", c!"OUGH")] (by decide) (by decide)
      (fun s hs => (ascii_tables U .latin1 s hs).2.2.2.2.1) (by decide +kernel)
    cases this
  · have := out_of_contexts (good := []) hc h [(c!"E", c!"E")] (by decide) (by decide)
      (fun s hs => (ascii_tables U .latin1 s hs).2.2.2.2.2.1 (Nysiis.new strict)) (by cases strict <;> decide +kernel)
    cases this

/-- C102: Metaphone, Phonex and Double Metaphone (by either code alone), without a maximum or with one of at least two,
ignore no letter, not even after another one. -/
theorem limited_omissible (U : Unicode) (c : Char) (hc : c ∈ allLetters) :
    (∀ max : Option Nat, (∀ n, max = some n → 2 ≤ n) → ¬ Omissible ((Metaphone.new max).encode U) afterLetter c) ∧
    (∀ n, 2 ≤ n → n < 2 ^ 63 → ¬ Omissible ((Phonex.new n).encode U) afterLetter c) ∧
    (∀ max : Option Nat, (∀ n, max = some n → 2 ≤ n ∧ n < 2 ^ 63) →
      ¬ Omissible ((DoubleMetaphone.new max).encode U) afterLetter c ∧
      ¬ Omissible ((DoubleMetaphone.new max).encodeAlternate U) afterLetter c) := by
  refine ⟨fun max h2 h => ?_, fun n h2 hn h => ?_, fun max h2 => ⟨fun h => ?_, fun h => ?_⟩⟩
  · have h' : Omissible (fun s => ((Metaphone.new max).encode U s).map fun c => c.take 2) afterLetter c :=
      fun u v hu => congrArg _ (h u v hu)
    have := out_of_contexts (good := []) hc h' (g := fun s => .ok ((metaphone (s.map asciiUpper)).take 2))
      [(c!"C", [])] (by decide) (by decide)
      (fun s hs => by
        have e := metaphone_eq_spec U s hs
        cases hm : max with
        | none => simp only [e.1]; rfl
        | some n =>
          have := h2 n hm
          simp only [e.2 n (.inr (by omega)), Except.map, List.take_take, Nat.min_eq_left this]) (by decide +kernel)
    cases this
  · have h' : Omissible (fun s => ((Phonex.new n).encode U s).map fun c => c.take 2) afterLetter c :=
      fun u v hu => congrArg _ (h u v hu)
    have := out_of_contexts (good := []) hc h' (g := fun s => .ok (exactly 2 (phonex (letters .latin1 s))))
      [(c!"B", c!"B")] (by decide) (by decide)
      (fun s hs => by
        simp only [LocalProofs.phonex_exactly U n h2 hn s hs, letters_ascii U hs, letters_ascii .latin1 hs]
        simp only [Except.map, Except.ok.injEq]
        unfold exactly
        rw [List.take_append, List.take_take, List.length_take, List.take_replicate, Nat.min_eq_left h2]
        congr 2
        omega) (by decide +kernel)
    cases this
  · have h' : Omissible (fun s => ((DoubleMetaphone.new max).encode U s).map fun r => r.take 2) afterLetter c :=
      fun u v hu => congrArg _ (h u v hu)
    have := out_of_contexts (good := []) hc h' (g := (DoubleMetaphone.new (some 2)).encode .latin1)
      [(c!"B", c!"B")] (by decide) (by decide)
      (fun s hs => by
        obtain ⟨r, hr, h1, _⟩ := double_metaphone_ascii U max s hs (fun n hn => (h2 n hn).2)
        have e := (double_metaphone_truncation U 2 max (fun n hn => (h2 n hn).1) (by decide) s r hr).2.1
        unfold DoubleMetaphone.encode at e ⊢
        rw [← (ascii_tables U .latin1 s hs).2.2.2.2.2.2.2.2.1, e]
        unfold DoubleMetaphone.encode at h1
        simp only [h1, Except.map]) (by decide +kernel)
    cases this
  · have h' : Omissible (fun s => ((DoubleMetaphone.new max).encodeAlternate U s).map fun r => r.take 2) afterLetter c :=
      fun u v hu => congrArg _ (h u v hu)
    have := out_of_contexts (good := []) hc h' (g := (DoubleMetaphone.new (some 2)).encodeAlternate .latin1)
      [(c!"B", c!"B")] (by decide) (by decide)
      (fun s hs => by
        obtain ⟨r, hr, _, h1⟩ := double_metaphone_ascii U max s hs (fun n hn => (h2 n hn).2)
        have e := (double_metaphone_truncation U 2 max (fun n hn => (h2 n hn).1) (by decide) s r hr).2.2
        unfold DoubleMetaphone.encodeAlternate at e ⊢
        rw [← (ascii_tables U .latin1 s hs).2.2.2.2.2.2.2.2.1, e]
        unfold DoubleMetaphone.encodeAlternate at h1
        simp only [h1, Except.map]) (by decide +kernel)
    cases this

/-! Beside C102: letters that may be left out and letters that may not. -/

example : Soundex.default.encode .latin1 c!"SacHs" = Soundex.default.encode .latin1 c!"Sacs" ∧
    MatchRating.encode .latin1 c!"SmIth" = MatchRating.encode .latin1 c!"Smth" ∧
    hasLetter c!"Sac" ∧ afterLetterOfTwo c!"Sm" c!"th" ∧ afterLetter c!"Sac" c!"s" ∧
    MatchRating.encode .latin1 c!"BA" ≠ MatchRating.encode .latin1 c!"B" ∧
    Cologne.encode .latin1 c!"Bach" ≠ Cologne.encode .latin1 c!"Bac" := by decide +kernel

end Verif.Props
