import Verif.Spec.Doubled
import Verif.Props.Letters
import Verif.Props.Interchange
import Verif.Proofs.DoubledMetaphone
import Verif.Proofs.DoubledPhonex
import Verif.Proofs.DoubledNysiis
import Verif.Proofs.DoubledCaverphone
/-!
# Exactly which letters may be written twice (C101)
-/

set_option linter.unusedSimpArgs false
set_option linter.unusedVariables false

namespace Verif.Props
open Spec

namespace DoubledProofs
open InterchangeProofs

instance (s : Str) : Decidable (asciiWithLetter s) := inferInstanceAs (Decidable (_ ∧ _))
instance (s : Str) : Decidable (letterWithoutSigma s) := inferInstanceAs (Decidable (_ ∧ _))

/-- A letter that may be doubled for `f` may be doubled for `g` in ASCII contexts, if `f` and `g` agree there. -/
theorem in_contexts {β : Type} {f g : Str → β} {before after : Str → Prop} {c : Char} {good : Str}
    (hc : c ∈ allLetters) (h : Doublable f before after c) (contexts : List (Str × Str))
    (hb : ∀ x ∈ contexts, before x.1 ∧ after x.2) (hx : ∀ x ∈ contexts, AsciiStr x.1 ∧ AsciiStr x.2)
    (hfg : ∀ s, AsciiStr s → f s = g s)
    (hd : ∀ c ∈ allLetters, (∀ x ∈ contexts, g (x.1 ++ c :: c :: x.2) = g (x.1 ++ c :: x.2)) → c ∈ good) : c ∈ good := by
  refine hd c hc fun x hm => ?_
  have a1 : AsciiStr (x.1 ++ c :: x.2) := asciiStr_append.mpr ⟨(hx x hm).1, asciiStr_cons.mpr ⟨cap_ascii hc, (hx x hm).2⟩⟩
  have a2 : AsciiStr (x.1 ++ c :: c :: x.2) := asciiStr_append.mpr ⟨(hx x hm).1,
    asciiStr_cons.mpr ⟨cap_ascii hc, asciiStr_cons.mpr ⟨cap_ascii hc, (hx x hm).2⟩⟩⟩
  rw [← hfg _ a1, ← hfg _ a2]
  exact h x.1 x.2 (hb x hm).1 (hb x hm).2

theorem ascii_doubled {u v : Str} {c : Char} (hc : c ∈ allLetters) (hu : AsciiStr u) (hv : AsciiStr v) :
    AsciiStr (u ++ c :: c :: v) ∧ AsciiStr (u ++ c :: v) :=
  ⟨asciiStr_append.mpr ⟨hu, asciiStr_cons.mpr ⟨cap_ascii hc, asciiStr_cons.mpr ⟨cap_ascii hc, hv⟩⟩⟩,
    asciiStr_append.mpr ⟨hu, asciiStr_cons.mpr ⟨cap_ascii hc, hv⟩⟩⟩

theorem cap_toUpper (U : Unicode) {c : Char} (hc : c ∈ allLetters) : U.toUpper c = [c] := by
  have : ∀ c ∈ allLetters, asciiUpper c = c := by decide
  rw [U.toUpper_ascii c (cap_ascii hc), this c hc]

theorem cap_self {c : Char} (hc : c ∈ allLetters) : asciiUpper c = c := by
  have : ∀ c ∈ allLetters, asciiUpper c = c := by decide
  exact this c hc

theorem letters_caps (U : Unicode) (u v : Str) {c : Char} (hc : c ∈ allLetters) :
    letters U (u ++ c :: c :: v) = letters U u ++ c :: c :: letters U v := by
  have := letters_cap U [] v hc
  have e : letters U [] = [] := rfl
  rw [e, List.nil_append, List.nil_append] at this
  rw [letters_cap U u (c :: v) hc, this]

end DoubledProofs

open InterchangeProofs DoubledProofs

/-- C101: in an ASCII text every letter may be doubled for Soundex and for Refined Soundex. -/
theorem soundex_doublable (U : Unicode) (c : Char) (hc : c ∈ allLetters) :
    Doublable (Soundex.default.encode U) AsciiStr AsciiStr c ∧
    Doublable (RefinedSoundex.default.encode U) AsciiStr AsciiStr c :=
  ⟨fun u v hu hv => (soundex_doubled_letter U u v c c (ascii_doubled hc hu hv).1 rfl).1 _,
    fun u v hu hv => (soundex_doubled_letter U u v c c (ascii_doubled hc hu hv).1 rfl).2 _⟩

/-- C101: for Cologne phonetics every letter may be doubled but C, D, P, T and X, which may not even after another letter. -/
theorem cologne_doublable (U : Unicode) (c : Char) (hc : c ∈ allLetters) :
    (Doublable (Cologne.encode U) anyText anyText c ↔ c ∈ c!"ABEFGHIJKLMNOQRSUVWYZ") ∧
    (Doublable (Cologne.encode U) hasLetter anyText c ↔ c ∈ c!"ABEFGHIJKLMNOQRSUVWYZ") := by
  have neg : ∀ before, before c!"COU" → before c!"SC" → Doublable (Cologne.encode U) before anyText c →
      c ∈ c!"ABEFGHIJKLMNOQRSUVWYZ" := fun before h1 h2 h =>
    in_contexts hc h [(c!"COU", c!"H"), (c!"SC", c!"CH")] (by simp [h1, h2, anyText]) (by decide)
      (fun s hs => (ascii_tables U .latin1 s hs).2.2.1) (by decide +kernel)
  have pos : ∀ before, c ∈ c!"ABEFGHIJKLMNOQRSUVWYZ" → Doublable (Cologne.encode U) before anyText c := by
    intro before h u v _ _
    have : ∀ c ∈ c!"ABEFGHIJKLMNOQRSUVWYZ", c!"CDPTX".contains c = false := by decide
    exact cologne_doubled_letter U u v c c c (cap_toUpper U hc) (cap_toUpper U hc) (this c h)
  exact ⟨⟨neg _ trivial trivial, pos _⟩, ⟨neg _ (by decide) (by decide), pos _⟩⟩

/-- C101: the letters that may be doubled for Caverphone 1, anywhere and after another letter. -/
theorem caverphone1_doublable (U : Unicode) (c : Char) (hc : c ∈ allLetters) :
    (Doublable (Caverphone1.encode U) withoutSigma withoutSigma c ↔ c ∈ c!"FJKLMQSVWXYZ") ∧
    (Doublable (Caverphone1.encode U) letterWithoutSigma withoutSigma c ↔ c ∈ c!"FJKLMQRSVWXYZ") := by
  refine ⟨⟨fun h => ?_, fun h u v hu hv => (cav_doubled U u v hu hv hc).1 (.inl h)⟩,
    ⟨fun h => ?_, fun h u v hu hv => (cav_doubled U u v hu.1 hv hc).1 ?_⟩⟩
  · exact in_contexts hc h [(c!"CAGH", c!"GHA"), ([], c!"OUGH"), (c!"COU", c!"H"), (c!"E", c!"OUGH"), (c!"M", []), (c!"W", c!"A")]
      (by decide) (by decide) (fun s hs => (ascii_tables U .latin1 s hs).2.2.2.1) (by decide +kernel)
  · exact in_contexts hc h [(c!"CAGH", c!"GHA"), (c!"T", c!"H"), (c!"W", c!"IA"), (c!"E", c!"OUGH"), (c!"M", [])]
      (by decide) (by decide) (fun s hs => (ascii_tables U .latin1 s hs).2.2.2.1) (by decide +kernel)
  · have : ∀ c ∈ c!"FJKLMQRSVWXYZ", c ∈ c!"FJKLMQSVWXYZ" ∨ c = 'R' := by decide
    exact (this c h).imp_right fun e => ⟨hu.2, e⟩

/-- C101: for Caverphone 2 it is F, K, L, M, Q, S, V, X and Z, anywhere and after another letter. -/
theorem caverphone2_doublable (U : Unicode) (c : Char) (hc : c ∈ allLetters) :
    (Doublable (Caverphone2.encode U) withoutSigma withoutSigma c ↔ c ∈ c!"FKLMQSVXZ") ∧
    (Doublable (Caverphone2.encode U) letterWithoutSigma withoutSigma c ↔ c ∈ c!"FKLMQSVXZ") := by
  refine ⟨⟨fun h => ?_, fun h u v hu hv => (cav_doubled U u v hu hv hc).2 h⟩,
    ⟨fun h => ?_, fun h u v hu hv => (cav_doubled U u v hu.1 hv hc).2 h⟩⟩
  · exact in_contexts hc h [([], c!"H"), ([], c!"OUGH"), (c!"CO", c!"GH"), (c!"E", c!"OUGH"), (c!"L", []), (c!"M", []), (c!"W", c!"A")]
      (by decide) (by decide) (fun s hs => (ascii_tables U .latin1 s hs).2.2.2.2.1) (by decide +kernel)
  · exact in_contexts hc h [(c!"CAGH", c!"GHA"), (c!"T", c!"H"), (c!"L", []), (c!"W", c!"IA"), (c!"E", c!"OUGH"), (c!"M", [])]
      (by decide) (by decide) (fun s hs => (ascii_tables U .latin1 s hs).2.2.2.2.1) (by decide +kernel)

/-- C101: the letters that may be doubled for NYSIIS, strict or not, anywhere and after another letter. -/
theorem nysiis_doublable (U : Unicode) (strict : Bool) (c : Char) (hc : c ∈ allLetters) :
    (Doublable ((Nysiis.new strict).encode U) anyText anyText c ↔ c ∈ c!"BFGJLSWXY") ∧
    (Doublable ((Nysiis.new strict).encode U) hasLetter anyText c ↔ c ∈ c!"BFGJLMOQSUWXYZ") := by
  refine ⟨⟨fun h => ?_, fun h u v _ _ => ny_doubled U strict u v hc (.inl h)⟩,
    ⟨fun h => ?_, fun h u v hu _ => ny_doubled U strict u v hc (.inr ⟨hu, h⟩)⟩⟩
  · exact in_contexts hc h [([], c!"D"), (c!"N", []), (c!"S", c!"H"), (c!"AE", c!"N"), (c!"SC", c!"CH"), (c!"M", c!"C")]
      (by decide) (by decide) (fun s hs => (ascii_tables U .latin1 s hs).2.2.2.2.2.1 (Nysiis.new strict))
      (by cases strict <;> decide +kernel)
  · exact in_contexts hc h [(c!"N", []), (c!"AE", c!"D"), (c!"S", c!"H"), (c!"SC", c!"CH"), (c!"A", c!"N"), (c!"M", c!"C"),
      (c!"Y", c!"E")]
      (by decide) (by decide) (fun s hs => (ascii_tables U .latin1 s hs).2.2.2.2.2.1 (Nysiis.new strict))
      (by cases strict <;> decide +kernel)

/-- C101: the letters that may be doubled for Metaphone, without a maximum or with one of at least two, in an ASCII text,
anywhere and after another letter. -/
theorem metaphone_doublable (U : Unicode) (max : Option Nat) (h2 : ∀ n, max = some n → 2 ≤ n) (c : Char)
    (hc : c ∈ allLetters) :
    (Doublable ((Metaphone.new max).encode U) AsciiStr AsciiStr c ↔ c ∈ c!"FJLMNR") ∧
    (Doublable ((Metaphone.new max).encode U) asciiWithLetter AsciiStr c ↔ c ∈ c!"FJKLMNQRVXZ") := by
  have two : ∀ s, AsciiStr s → ((Metaphone.new max).encode U s).map (fun c => c.take 2) =
      .ok ((metaphone (s.map asciiUpper)).take 2) := by
    intro s hs
    have e := metaphone_eq_spec U s hs
    cases hm : max with
    | none => simp only [e.1]; rfl
    | some n =>
      have := h2 n hm
      simp only [e.2 n (.inr (by omega)), Except.map, List.take_take, Nat.min_eq_left this]
  have weaken : ∀ before, Doublable ((Metaphone.new max).encode U) before AsciiStr c →
      Doublable (fun s => ((Metaphone.new max).encode U s).map (fun c => c.take 2)) before AsciiStr c :=
    fun before h u v hu hv => congrArg _ (h u v hu hv)
  have pos : ∀ u v, AsciiStr u → AsciiStr v →
      (u.map asciiUpper = [] ∧ c ∈ c!"FJLMNR") ∨ (u.map asciiUpper ≠ [] ∧ c ∈ c!"FJKLMNQRVXZ") →
      (Metaphone.new max).encode U (u ++ c :: c :: v) = (Metaphone.new max).encode U (u ++ c :: v) := by
    intro u v hu hv h
    have e1 := metaphone_eq_spec U _ (ascii_doubled hc hu hv).1
    have e2 := metaphone_eq_spec U _ (ascii_doubled hc hu hv).2
    have key : metaphone ((u ++ c :: c :: v).map asciiUpper) = metaphone ((u ++ c :: v).map asciiUpper) := by
      simp only [List.map_append, List.map_cons, cap_self hc]
      exact meta_doubled h
    cases hm : max with
    | none => rw [e1.1, e2.1, key]
    | some n =>
      have := h2 n hm
      rw [e1.2 n (.inr (by omega)), e2.2 n (.inr (by omega)), key]
  refine ⟨⟨fun h => ?_, fun h u v hu hv => pos u v hu hv ?_⟩, ⟨fun h => ?_, fun h u v hu hv => pos u v hu.1 hv (.inr ⟨?_, h⟩)⟩⟩
  · exact in_contexts hc (weaken _ h) [([], []), (c!"CH", []), (c!"COU", c!"H"), ([], c!"NOUGH"), (c!"M", [])]
      (by decide) (by decide) two (by decide +kernel)
  · by_cases hn : u.map asciiUpper = []
    · exact .inl ⟨hn, h⟩
    · have : ∀ c ∈ c!"FJLMNR", c ∈ c!"FJKLMNQRVXZ" := by decide
      exact .inr ⟨hn, this c h⟩
  · exact in_contexts hc (weaken _ h) [(c!"A", c!"IA"), (c!"CH", []), (c!"COU", c!"H"), (c!"A", c!"GE"), (c!"M", [])]
      (by decide) (by decide) two (by decide +kernel)
  · obtain ⟨x, hx, _⟩ := hu.2
    intro e
    rw [List.map_eq_nil_iff] at e
    rw [e] at hx
    cases hx

/-- C101: for Phonex, with a maximum of at least two, in an ASCII text: the vowels and Y anywhere, H and W after a letter. -/
theorem phonex_doublable (U : Unicode) (n : Nat) (h2 : 2 ≤ n) (hn : n < 2 ^ 63) (c : Char) (hc : c ∈ allLetters) :
    (Doublable ((Phonex.new n).encode U) AsciiStr AsciiStr c ↔ c ∈ c!"AEIOUY") ∧
    (Doublable ((Phonex.new n).encode U) asciiWithLetter AsciiStr c ↔ c ∈ c!"AEHIOUWY") := by
  have two : ∀ s, AsciiStr s → ((Phonex.new n).encode U s).map (fun c => c.take 2) =
      .ok (exactly 2 (phonex (letters .latin1 s))) := by
    intro s hs
    rw [LocalProofs.phonex_exactly U n h2 hn s hs, letters_ascii U hs, letters_ascii .latin1 hs]
    simp only [Except.map, Except.ok.injEq]
    unfold exactly
    rw [List.take_append, List.take_take, List.length_take, List.take_replicate, Nat.min_eq_left h2]
    congr 2
    omega
  have weaken : ∀ before, Doublable ((Phonex.new n).encode U) before AsciiStr c →
      Doublable (fun s => ((Phonex.new n).encode U s).map (fun c => c.take 2)) before AsciiStr c :=
    fun before h u v hu hv => congrArg _ (h u v hu hv)
  have pos : ∀ u v, AsciiStr u → AsciiStr v →
      (letters U u = [] ∧ c ∈ c!"AEIOUY") ∨ (letters U u ≠ [] ∧ c ∈ c!"AEHIOUWY") →
      (Phonex.new n).encode U (u ++ c :: c :: v) = (Phonex.new n).encode U (u ++ c :: v) := by
    intro u v hu hv h
    rw [LocalProofs.phonex_exactly U n h2 hn _ (ascii_doubled hc hu hv).1,
      LocalProofs.phonex_exactly U n h2 hn _ (ascii_doubled hc hu hv).2, letters_caps U u v hc, letters_cap U u v hc,
      ph_doubled _ _ h]
  refine ⟨⟨fun h => ?_, fun h u v hu hv => pos u v hu hv ?_⟩, ⟨fun h => ?_, fun h u v hu hv => pos u v hu.1 hv (.inr ⟨?_, h⟩)⟩⟩
  · exact in_contexts hc (weaken _ h) [([], c!"RH"), ([], c!"OUGH")] (by decide) (by decide) two (by decide +kernel)
  · by_cases hn : letters U u = []
    · exact .inl ⟨hn, h⟩
    · have : ∀ c ∈ c!"AEIOUY", c ∈ c!"AEHIOUWY" := by decide
      exact .inr ⟨hn, this c h⟩
  · exact in_contexts hc (weaken _ h) [(c!"H", c!"LH"), (c!"TR", c!"UGH")] (by decide) (by decide) two (by decide +kernel)
  · obtain ⟨x, r, hx⟩ := letters_ne U hu.2
    rw [hx]
    simp

/-- C101: for Match Rating no letter may be doubled anywhere, and exactly the vowels after another letter. -/
theorem mra_doublable (U : Unicode) (c : Char) (hc : c ∈ allLetters) :
    ¬ Doublable (MatchRating.encode U) anyText anyText c ∧
    (Doublable (MatchRating.encode U) hasLetter anyText c ↔ c ∈ c!"AEIOU") := by
  refine ⟨fun h => ?_, ⟨fun h => ?_, fun h u v hu _ => mra_doubled U u v hu h⟩⟩
  · have := in_contexts (good := []) hc h [([], [])] (by decide) (by decide)
      (fun s hs => (ascii_tables U .latin1 s hs).2.2.2.2.2.2.1) (by decide +kernel)
    cases this
  · refine in_contexts hc h (allLetters.map fun d => ([d], [])) (by decide) (by decide)
      (fun s hs => (ascii_tables U .latin1 s hs).2.2.2.2.2.2.1) (by decide +kernel)

/-- C101: for Double Metaphone, without a maximum or with one of at least two, no letter may be doubled, not even after
another letter and not for either of its two codes alone. -/
theorem double_metaphone_doublable (U : Unicode) (max : Option Nat) (h2 : ∀ n, max = some n → 2 ≤ n ∧ n < 2 ^ 63)
    (c : Char) (hc : c ∈ allLetters) :
    ¬ Doublable ((DoubleMetaphone.new max).encode U) asciiWithLetter AsciiStr c ∧
    ¬ Doublable ((DoubleMetaphone.new max).encodeAlternate U) asciiWithLetter AsciiStr c := by
  refine ⟨fun h => ?_, fun h => ?_⟩
  · have h' : Doublable (fun s => ((DoubleMetaphone.new max).encode U s).map fun r => r.take 2) asciiWithLetter AsciiStr c :=
      fun u v hu hv => congrArg _ (h u v hu hv)
    have := in_contexts (good := []) hc h' (g := (DoubleMetaphone.new (some 2)).encode .latin1)
      [(c!"C", c!"UGH"), (c!"D", c!"H"), (c!"P", c!"N"), (c!"HW", c!"F"), (c!"H", c!"L"), (c!"H", c!"M"), (c!"H", c!"V"),
        (c!"AU", [])] (by decide) (by decide)
      (fun s hs => by
        obtain ⟨r, hr, h1, _⟩ := double_metaphone_ascii U max s hs (fun n hn => (h2 n hn).2)
        have e := (double_metaphone_truncation U 2 max (fun n hn => (h2 n hn).1) (by decide) s r hr).2.1
        unfold DoubleMetaphone.encode at e ⊢
        rw [← (ascii_tables U .latin1 s hs).2.2.2.2.2.2.2.2.1, e]
        unfold DoubleMetaphone.encode at h1
        simp only [h1, Except.map]) (by decide +kernel)
    cases this
  · have h' : Doublable (fun s => ((DoubleMetaphone.new max).encodeAlternate U s).map fun r => r.take 2) asciiWithLetter
        AsciiStr c :=
      fun u v hu hv => congrArg _ (h u v hu hv)
    have := in_contexts (good := []) hc h' (g := (DoubleMetaphone.new (some 2)).encodeAlternate .latin1)
      [(c!"C", c!"UGH"), (c!"D", c!"H"), (c!"P", c!"N"), (c!"HW", c!"F"), (c!"A", c!"E"), (c!"H", c!"M"), (c!"H", c!"V"),
        (c!"AU", [])] (by decide) (by decide)
      (fun s hs => by
        obtain ⟨r, hr, _, h1⟩ := double_metaphone_ascii U max s hs (fun n hn => (h2 n hn).2)
        have e := (double_metaphone_truncation U 2 max (fun n hn => (h2 n hn).1) (by decide) s r hr).2.2
        unfold DoubleMetaphone.encodeAlternate at e ⊢
        rw [← (ascii_tables U .latin1 s hs).2.2.2.2.2.2.2.2.1, e]
        unfold DoubleMetaphone.encodeAlternate at h1
        simp only [h1, Except.map]) (by decide +kernel)
    cases this

/-! Beside C101: letters that may be doubled and letters that may not. -/

example : (Metaphone.new none).encode .latin1 c!"Filip" = (Metaphone.new none).encode .latin1 c!"FiLLip" ∧
    (Nysiis.new true).encode .latin1 c!"MuLer" = (Nysiis.new true).encode .latin1 c!"MuLLer" ∧
    Caverphone2.encode .latin1 c!"StevenSon" = Caverphone2.encode .latin1 c!"StevenSSon" ∧
    (Phonex.new 4).encode .latin1 c!"PEters" = (Phonex.new 4).encode .latin1 c!"PEEters" ∧
    Cologne.encode .latin1 c!"MaX" ≠ Cologne.encode .latin1 c!"MaXX" ∧
    MatchRating.encode .latin1 c!"AnN" ≠ MatchRating.encode .latin1 c!"AnNN" := by
  decide +kernel

end Verif.Props
