import Verif.Spec.FirstCharacter
import Verif.Props.CodesCaverphone
import Verif.Props.CodesMetaphone
import Verif.Props.CodesDoubleMetaphone
/-!
# C106: what the first character of a code says about the beginning of the name

Caverphone, Metaphone and Double Metaphone.
-/
namespace Verif.Props
open Verif.Spec
set_option linter.unusedSimpArgs false

namespace OnsetProofs

/-! ## Caverphone -/

open Spec.Caverphone in
/-- The first sound of a word is heard, or the second one is. -/
theorem caverphone_first (v : Version) (c : Char) (r : Str) (hc : caverphoneOnset (asciiUpper c) ≠ []) (hl : c ∈ CodeProofs.smalls) :
    ∃ x ∈ caverphoneOnset (asciiUpper c), sound v [] r c = .letter x ∨
      (sound v [] r c = .silent ∧ ∃ d t, r = d :: t ∧ sound v [c] t d = .letter x) := by
  simp only [CodeProofs.smalls, List.mem_cons, List.not_mem_nil, or_false] at hl
  rcases hl with rfl | rfl | rfl | rfl | rfl | rfl | rfl | rfl | rfl | rfl | rfl | rfl | rfl | rfl | rfl | rfl | rfl |
    rfl | rfl | rfl | rfl | rfl | rfl | rfl | rfl | rfl <;> first | exact absurd (by decide) hc | skip
  all_goals
    simp (decide := true) only [sound, if_true, if_false, List.getLast?_nil, reduceCtorEq, and_false]
  any_goals exact ⟨_, by decide, .inl rfl⟩
  · by_cases hq : starts r [c!"q"] = true
    · refine ⟨'K', by decide, .inr ⟨by rw [if_pos hq], ?_⟩⟩
      have hq : c!"q" <+: r := by simpa [starts] using hq
      obtain ⟨t, rfl⟩ := hq
      exact ⟨_, _, rfl, rfl⟩
    · rw [if_neg hq]
      split
      · exact ⟨'S', by decide, .inl rfl⟩
      · exact ⟨'K', by decide, .inl rfl⟩
  · split
    · exact ⟨'F', by decide, .inl rfl⟩
    · exact ⟨'P', by decide, .inl rfl⟩
  · by_cases hq : starts r [c!"ch"] = true
    · refine ⟨'K', by decide, .inr ⟨by rw [if_pos hq], ?_⟩⟩
      have hq : c!"ch" <+: r := by simpa [starts] using hq
      obtain ⟨t, rfl⟩ := hq
      exact ⟨_, _, rfl, rfl⟩
    · rw [if_neg hq]
      split
      · exact ⟨'S', by decide, .inl rfl⟩
      · exact ⟨'T', by decide, .inl rfl⟩

open Spec.Caverphone in
theorem once_head (x : Char) (l : List Sound) : ∃ t, once (.letter x :: l) = .letter x :: t := by
  induction l with
  | nil => exact ⟨[], rfl⟩
  | cons b l ih =>
    rw [once]
    split
    · rename_i h
      rw [← h.1]
      exact ih
    · exact ⟨_, rfl⟩

open Spec.Caverphone in
theorem once_silent (l : List Sound) : once (.silent :: l) = .silent :: once l := by
  cases l with
  | nil => rfl
  | cons b l =>
    rw [once, if_neg]
    rintro ⟨_, h⟩
    revert h; decide

open Spec.Caverphone in
theorem caverphone_once (v : Version) (c : Char) (r : Str) (hc : caverphoneOnset (asciiUpper c) ≠ []) (hl : c ∈ CodeProofs.smalls) :
    ∃ x ∈ caverphoneOnset (asciiUpper c), ∃ t, once (soundsFrom v [] (c :: r)) = .letter x :: t ∨
      once (soundsFrom v [] (c :: r)) = .silent :: .letter x :: t := by
  obtain ⟨x, hx, h⟩ := caverphone_first v c r hc hl
  refine ⟨x, hx, ?_⟩
  rw [soundsFrom]
  rcases h with h | ⟨h, d, t, rfl, h'⟩
  · rw [h]
    obtain ⟨t, ht⟩ := once_head x (soundsFrom v ([] ++ [c]) r)
    exact ⟨t, .inl ht⟩
  · rw [h, once_silent, soundsFrom, List.nil_append, h']
    obtain ⟨t, ht⟩ := once_head x (soundsFrom v ([c] ++ [d]) t)
    exact ⟨t, .inr (by rw [ht])⟩

open Spec.Caverphone in
theorem code_onset_cav (v : Version) (c : Char) (r : Str) (hc : caverphoneOnset (asciiUpper c) ≠ []) (hl : c ∈ CodeProofs.smalls)
    (he : v = .v1 ∨ ¬ (c = 'e' ∧ r = [])) : ∃ x ∈ caverphoneOnset (asciiUpper c), ∃ t, code v (c :: r) = x :: t := by
  cases v with
  | v1 =>
    obtain ⟨x, hx, t, h⟩ := caverphone_once .v1 c r hc hl
    refine ⟨x, hx, t.flatMap written, ?_⟩
    rw [code]
    rcases h with h | h <;> rw [h] <;> simp [written]
  | v2 =>
    obtain ⟨r', hr⟩ : ∃ r', (if (c :: r).getLast? = some 'e' then (c :: r).dropLast else c :: r) = c :: r' := by
      split
      · rename_i h
        cases r with
        | nil =>
          simp only [List.getLast?_singleton, Option.some.injEq] at h
          rcases he with he | he
          · cases he
          · exact absurd ⟨h, rfl⟩ he
        | cons d r => exact ⟨(d :: r).dropLast, rfl⟩
      · exact ⟨r, rfl⟩
    obtain ⟨x, hx, t, h⟩ := caverphone_once .v2 c r' hc hl
    refine ⟨x, hx, ?_⟩
    rw [code, hr]
    rcases h with h | h <;> rw [h] <;> simp [written]

end OnsetProofs

/-- C106. Caverphone: the first character of the code is one of those of the first letter, if this letter is never silent.
The second version ignores E at the end, so it must not be the only letter. -/
theorem caverphone_onset (U : Unicode) (s : Str) (hs : AsciiStr s) (c : Char) (r : Str) (h : asciiLetters s = c :: r)
    (hc : caverphoneOnset c ≠ []) :
    (∃ code x, Caverphone1.encode U s = .ok code ∧ x ∈ caverphoneOnset c ∧ code.head? = some x) ∧
    (asciiLetters s ≠ c!"E" → ∃ code x, Caverphone2.encode U s = .ok code ∧ x ∈ caverphoneOnset c ∧ code.head? = some x) := by
  obtain ⟨e1, e2⟩ := caverphone_spec_ascii U s hs
  have hu : isAsciiUpper c = true := asciiLetters_upper c (by rw [h]; simp)
  have f : ∀ c, isAscii c = true → isAsciiUpper c = true → asciiUpper (asciiLower c) = c ∧
      asciiLower c ∈ CodeProofs.smalls ∧ (asciiLower c = 'e' → c = 'E') := by apply forall_ascii; decide +kernel
  obtain ⟨f1, f2, f3⟩ := f c (isAscii_of_upper hu) hu
  have key := fun v => OnsetProofs.code_onset_cav v (asciiLower c) (r.map asciiLower) (by rw [f1]; exact hc) f2
  rw [f1] at key
  constructor
  · obtain ⟨x, hx, t, ht⟩ := key .v1 (.inl rfl)
    refine ⟨_, x, e1, hx, ?_⟩
    rw [h, List.map_cons, ht]
    rfl
  · intro hE
    obtain ⟨x, hx, t, ht⟩ := key .v2 (.inr (by
      rintro ⟨h1, h2⟩
      rw [List.map_eq_nil_iff] at h2
      exact hE (by rw [h, h2, f3 h1])))
    refine ⟨_, x, e2, hx, ?_⟩
    rw [h, List.map_cons, ht]
    rfl

example : Caverphone1.encode .latin1 c!"Tchad" = .ok c!"KT1111" ∧ asciiLetters c!"Tchad" = 'T' :: c!"CHAD" ∧
    caverphoneOnset 'T' = c!"TSK" := by decide +kernel

/-- C106. Caverphone 1.0: the code starts with A exactly if the first letter is A, E, I, O, U or H. -/
theorem caverphone1_vowel (U : Unicode) (s : Str) (hs : AsciiStr s) :
    ∃ code, Caverphone1.encode U s = .ok code ∧
      (code.head? = some 'A' ↔ ∃ c r, asciiLetters s = c :: r ∧ c ∈ c!"AEIOUH") := by
  obtain ⟨e1, _⟩ := caverphone_spec_ascii U s hs
  refine ⟨_, e1, ?_⟩
  constructor
  · intro hA
    cases h : asciiLetters s with
    | nil => rw [h] at hA; exact absurd hA (by decide)
    | cons c r =>
      refine ⟨c, r, rfl, ?_⟩
      have low : ∀ c ∈ asciiLetters s, asciiLower c ∈ CodeProofs.smalls := by
        intro c hc
        have hu := asciiLetters_upper c hc
        have f : ∀ c, isAscii c = true → isAsciiUpper c = true → asciiLower c ∈ CodeProofs.smalls := by
          apply forall_ascii; decide +kernel
        exact f c (isAscii_of_upper hu) hu
      rw [h] at low hA
      have hi := CodeProofs.sounds_inner .v1 (r.map asciiLower) [asciiLower c] (by simp) (by
        intro x hx
        obtain ⟨y, hy, rfl⟩ := List.mem_map.mp hx
        exact low y (by simp [hy]))
      have hcl := low c (by simp)
      have hu : isAsciiUpper c = true := asciiLetters_upper c (by rw [h]; simp)
      have hin : (∀ x, Caverphone.sound .v1 [] (r.map asciiLower) (asciiLower c) = .letter x → x ∈ CodeProofs.heard .v1) →
          False := by
        intro h0
        have hmem : 'A' ∈ Caverphone.code .v1 ((c :: r).map asciiLower) := by
          unfold cutOrFill at hA
          cases hcode : Caverphone.code .v1 ((c :: r).map asciiLower) with
          | nil => rw [hcode] at hA; revert hA; decide
          | cons y ys => rw [hcode] at hA; simp at hA; simp [hA]
        rw [Caverphone.code, List.map_cons, Caverphone.soundsFrom, List.nil_append] at hmem
        have sub : ∀ l : List Caverphone.Sound, ∀ z ∈ Caverphone.once l, z ∈ l := by
          intro l
          induction l with
          | nil => intro z hz; exact hz
          | cons a l ih =>
            intro z hz
            rcases CodeProofs.once_cons a l with h | ⟨h, _⟩ <;> rw [h] at hz
            · rcases List.mem_cons.mp hz with rfl | hz
              · simp
              · exact List.mem_cons_of_mem _ (ih z hz)
            · exact List.mem_cons_of_mem _ (ih z hz)
        have := CodeProofs.written_inner (v := .v1) (l := Caverphone.once _) (by
          intro z hz
          have hz := sub _ z hz
          rcases List.mem_cons.mp hz with rfl | hz
          · exact h0
          · exact hi z hz) 'A' hmem
        revert this; decide
      have f : ∀ c, isAscii c = true → isAsciiUpper c = true → asciiLower c ∈ c!"aeiouh" → c ∈ c!"AEIOUH" := by
        apply forall_ascii; decide +kernel
      refine f c (isAscii_of_upper hu) hu ?_
      generalize asciiLower c = d at *
      generalize r.map asciiLower = t at *
      simp only [CodeProofs.smalls, List.mem_cons, List.not_mem_nil, or_false] at hcl
      rcases hcl with rfl | rfl | rfl | rfl | rfl | rfl | rfl | rfl | rfl | rfl | rfl | rfl | rfl | rfl | rfl | rfl | rfl |
        rfl | rfl | rfl | rfl | rfl | rfl | rfl | rfl | rfl <;> first | decide | skip
      all_goals
        exfalso
        refine hin ?_
        simp (decide := true) only [Caverphone.sound, Caverphone.soundGH, Caverphone.soundW, Caverphone.soundR,
          Caverphone.soundL, Caverphone.soundY, if_true, if_false, List.getLast?_nil, reduceCtorEq, and_false, false_and]
        repeat' first
          | exact fun x hx => by first | (cases hx; done) | (cases hx; decide)
          | refine ite_ind (fun s => ∀ x, s = Caverphone.Sound.letter x → x ∈ CodeProofs.heard .v1) (fun _ => ?_) (fun _ => ?_)
  · rintro ⟨c, r, h, hc⟩
    have : ∀ c ∈ c!"AEIOUH", caverphoneOnset c = c!"A" := by decide
    obtain ⟨code, x, h1, h2, h3⟩ := (caverphone_onset U s hs c r h (by rw [this c hc]; decide)).1
    rw [this c hc] at h2
    rw [Except.ok.inj (e1.symm.trans h1), h3]
    simp at h2; rw [h2]

example : Caverphone1.encode .latin1 c!"Hill" = .ok c!"A11111" ∧ Caverphone1.encode .latin1 c!"Yorke" = .ok c!"YK1111" := by
  decide +kernel

namespace OnsetProofs

/-! ## Metaphone -/

/-- Inside a word, no vowel is written. -/
theorem metaCodes_inside (w : Str) : ∀ b, b ≠ [] → ∀ x ∈ metaCodes b w, x ∉ c!"AEIOU" := by
  induction w with
  | nil => intro b _ x hx; simp [metaCodes] at hx
  | cons c w ih =>
    intro b hb x hx
    rw [metaCodes] at hx
    rcases List.mem_append.mp hx with hx | hx
    · split at hx
      · cases hx
      · exact metaLetter_inside b c w hb x hx
    · exact ih (c :: b) (by simp) x hx
where
  metaLetter_inside (b : Str) (c : Char) (w : Str) (hb : b ≠ []) : ∀ x ∈ metaLetter b c w, x ∉ c!"AEIOU" := by
    unfold metaLetter
    simp only [hb, if_false, false_and]
    repeat' first
      | (intro x hx; cases hx; done)
      | (intro x hx; simp only [List.mem_cons, List.not_mem_nil, or_false] at hx; subst hx; decide)
      | (intro x hx; simp only [List.mem_cons, List.not_mem_nil, or_false] at hx; rcases hx with rfl | rfl <;> decide)
      | refine ite_ind (fun s => ∀ x ∈ s, x ∉ c!"AEIOU") (fun _ => ?_) (fun _ => ?_)
    · rename_i h
      have : ∀ y ∈ c!"FJLMNR", y ∉ c!"AEIOU" := by decide
      have hm : c ∈ c!"FJLMNR" := by simpa using h
      intro x hx
      simp only [List.mem_cons, List.not_mem_nil, or_false] at hx
      subst hx
      exact this x hm
    · rename_i h _
      intro x hx
      simp only [List.mem_cons, List.not_mem_nil, or_false] at hx
      subst hx
      rcases h with rfl | rfl <;> decide

/-- The first letter, after the rules for the beginning. -/
theorem metaCodes_onset (c : Char) (r : Str) (hc : c ∈ c!"ABCDEFIJKLMNOPQRSTUVZ") :
    ∃ x t, metaCodes [] (c :: r) = x :: t ∧
      x ∈ (if c = 'A' then c!"A" else if c = 'K' then c!"K" else if c = 'P' then c!"PF" else metaphoneOnset c) := by
  have ha : metaAbsorbed [] c r = false := by simp [metaAbsorbed, plainD]
  rw [metaCodes, if_neg (by rw [ha]; simp)]
  by_cases hT : c = 'T' ∧ c!"CH" <+: r
  · obtain ⟨rfl, t, rfl⟩ := hT
    simp only [List.cons_append, List.nil_append]
    rw [metaCodes]
    refine ⟨'X', metaCodes ['C', 'T'] ('H' :: t), ?_, by decide⟩
    simp [metaAbsorbed, metaLetter, startsIn, plainD]
  · simp only [List.mem_cons, List.not_mem_nil, or_false] at hc
    rcases hc with rfl | rfl | rfl | rfl | rfl | rfl | rfl | rfl | rfl | rfl | rfl | rfl | rfl | rfl | rfl | rfl | rfl | rfl |
      rfl | rfl | rfl <;>
      simp (decide := true) only [metaLetter, if_true, if_false, false_and, and_false] <;>
      (try simp only [true_and] at hT) <;>
      (try simp only [hT, if_false]) <;>
      (repeat' split) <;> exact ⟨_, _, rfl, by decide⟩

end OnsetProofs

/-- C106. Metaphone: the first character of the code is one of those of the first letter, if this letter is never silent.
(The code of a single character is the character.) -/
theorem metaphone_onset (U : Unicode) (s : Str) (hs : AsciiStr s) (h1 : s.length ≠ 1) (c : Char) (r : Str) (h : s = c :: r)
    (hc : metaphoneOnset (asciiUpper c) ≠ []) (max : Option Nat) (hmax : max ≠ some 0) :
    ∃ code x, (Metaphone.new max).encode U s = .ok code ∧ x ∈ metaphoneOnset (asciiUpper c) ∧ code.head? = some x := by
  have key : ∃ x t, metaphone (s.map asciiUpper) = x :: t ∧ x ∈ metaphoneOnset (asciiUpper c) := by
    subst h
    unfold metaphone
    rw [List.length_map, if_neg h1, List.map_cons]
    generalize asciiUpper c = d at *
    generalize r.map asciiUpper = t
    have hm : d ∈ c!"ABCDEFIJKLMNOPQRSTUVXZ" := by
      apply Decidable.byContradiction
      intro hn
      apply hc
      simp only [List.mem_cons, List.not_mem_nil, or_false, not_or] at hn
      simp [metaphoneOnset, hn]
    have spec : ∀ d t, d ∈ c!"ABCDEFIJKLMNOPQRSTUVZ" → ∃ x u, metaCodes [] (d :: t) = x :: u ∧ x ∈ metaphoneOnset d := by
      intro d t hd
      obtain ⟨x, u, h1, h2⟩ := OnsetProofs.metaCodes_onset d t hd
      refine ⟨x, u, h1, ?_⟩
      revert h2
      refine ite_ind (fun l => x ∈ l → _) (fun h => ?_) fun _ => ite_ind (fun l => x ∈ l → _) (fun h => ?_) fun _ =>
        ite_ind (fun l => x ∈ l → _) (fun h => ?_) fun _ h => h
      all_goals
        subst h
        simp only [List.mem_cons, List.not_mem_nil, or_false]
        intro h
      · subst h; decide
      · subst h; decide
      · rcases h with h | h <;> subst h <;> decide
    unfold metaInitial
    split
    · rename_i hp
      rcases hp with ⟨q, hq⟩ | ⟨q, hq⟩ | ⟨q, hq⟩ | ⟨q, hq⟩ | ⟨q, hq⟩ <;> injection hq with g1 g2 <;> subst g1 <;> subst g2
      · obtain ⟨x, u, g1, g2⟩ := spec 'N' q (by decide)
        exact ⟨x, u, g1, by revert g2; simp (decide := true) [metaphoneOnset]; intro g; simp [g]⟩
      · exact absurd (by decide) hc
      · obtain ⟨x, u, g1, g2⟩ := spec 'N' q (by decide)
        exact ⟨x, u, g1, by revert g2; simp (decide := true) [metaphoneOnset]; intro g; simp [g]⟩
      · obtain ⟨x, u, g1, g2⟩ := spec 'E' q (by decide)
        exact ⟨x, u, g1, by revert g2; simp (decide := true) [metaphoneOnset]; intro g; simp [g]⟩
      · exact absurd (by decide) hc
    · split
      · rename_i hp
        obtain ⟨q, hq⟩ := hp
        injection hq with g1 g2; subst g1
        exact absurd (by decide) hc
      · split
        · rename_i hp
          obtain ⟨q, hq⟩ := hp
          injection hq with g1 g2; subst g1; subst g2
          exact spec 'S' q (by decide)
        · rename_i hX
          refine spec d t ?_
          have : d ≠ 'X' := by
            rintro rfl
            exact hX ⟨t, rfl⟩
          simp only [List.mem_cons, List.not_mem_nil, or_false] at hm ⊢
          simp_all
  obtain ⟨x, t, hx, hm⟩ := key
  cases max with
  | none => exact ⟨_, x, (metaphone_eq_spec U s hs).1, hm, by rw [hx]; rfl⟩
  | some n =>
    refine ⟨_, x, (metaphone_eq_spec U s hs).2 n (.inl h1), hm, ?_⟩
    rw [hx, List.head?_take, if_neg (by rintro rfl; exact hmax rfl)]
    rfl

example : Metaphone.default.encode .latin1 c!"Knight" = .ok c!"NT" ∧ metaphoneOnset 'K' = c!"KN" := by decide +kernel

/-- C106. Metaphone: the code starts with a vowel exactly if the name starts with it; but a name with AE counts as one
with E. -/
theorem metaphone_vowel (U : Unicode) (s : Str) (hs : AsciiStr s) (h1 : s.length ≠ 1) (v : Char) (hv : v ∈ c!"AEIOU") :
    ∃ code, (Metaphone.new none).encode U s = .ok code ∧
      (code.head? = some v ↔
        ((∃ r, s.map asciiUpper = v :: r) ∧ ¬ c!"AE" <+: s.map asciiUpper) ∨ (v = 'E' ∧ c!"AE" <+: s.map asciiUpper)) := by
  refine ⟨_, (metaphone_eq_spec U s hs).1, ?_⟩
  unfold metaphone
  rw [List.length_map, if_neg h1]
  generalize s.map asciiUpper = w
  have spec : ∀ d t, (metaCodes [] (d :: t)).head? = some v ↔ d = v := by
    intro d t
    constructor
    · intro h
      rw [metaCodes] at h
      have hin : v ∉ metaCodes [d] t := fun hm => OnsetProofs.metaCodes_inside t [d] (by simp) v hm hv
      generalize metaCodes [d] t = rest at *
      have tail : ([] ++ rest).head? = some v → False := by
        intro h
        rw [List.nil_append] at h
        exact hin (List.mem_of_mem_head? h)
      have other : ∀ x y, x ∉ c!"AEIOU" → (x :: y ++ rest).head? = some v → False := by
        intro x y hx h
        injection h with h
        exact hx (h ▸ hv)
      revert h
      refine ite_ind (fun l => (l ++ rest).head? = some v → d = v) (fun _ h => (tail h).elim) (fun _ => ?_)
      unfold metaLetter
      simp only [ne_eq, not_true_eq_false, false_and, if_true]
      refine ite_ind (fun l => (l ++ rest).head? = some v → d = v) (fun _ h => ?_) (fun hd => ?_)
      · injection h
      · repeat' first
          | exact fun h => (tail h).elim
          | exact fun h => (other _ _ (by decide) h).elim
          | refine ite_ind (fun l => (l ++ rest).head? = some v → d = v) (fun _ => ?_) (fun _ => ?_)
        all_goals
          intro h
          injection h with h
    · rintro rfl
      rw [metaCodes, if_neg (by simp [metaAbsorbed, plainD])]
      have : c!"AEIOU".contains d = true := by simpa using hv
      unfold metaLetter
      rw [if_pos this, if_pos rfl]
      rfl
  have vs : v ≠ 'K' ∧ v ≠ 'G' ∧ v ≠ 'P' ∧ v ≠ 'W' ∧ v ≠ 'X' ∧ v ≠ 'N' ∧ v ≠ 'R' ∧ v ≠ 'S' := by
    have : ∀ v ∈ c!"AEIOU", v ≠ 'K' ∧ v ≠ 'G' ∧ v ≠ 'P' ∧ v ≠ 'W' ∧ v ≠ 'X' ∧ v ≠ 'N' ∧ v ≠ 'R' ∧ v ≠ 'S' := by decide
    exact this v hv
  unfold metaInitial
  by_cases hA : c!"AE" <+: w
  · obtain ⟨t, rfl⟩ := hA
    simp only [List.cons_append, List.nil_append, List.cons_prefix_cons, List.nil_prefix, and_true, true_or, or_true, if_true,
      List.drop_succ_cons, List.drop_zero, not_true_eq_false, and_false, false_or]
    rw [spec]
    exact eq_comm
  · simp only [hA, not_false_eq_true, and_true, and_false, or_false, false_or]
    split
    · rename_i hp
      rcases hp with ⟨q, rfl⟩ | ⟨q, rfl⟩ | ⟨q, rfl⟩ | ⟨q, rfl⟩ <;>
        simp only [List.cons_append, List.nil_append, List.drop_succ_cons, List.drop_zero, spec, List.cons.injEq, exists_and_left] <;>
        grind
    · split
      · rename_i hp
        obtain ⟨q, rfl⟩ := hp
        simp only [List.cons_append, List.nil_append, List.drop_succ_cons, List.drop_zero, spec, List.cons.injEq, exists_and_left]
        grind
      · split
        · rename_i hp
          obtain ⟨q, rfl⟩ := hp
          simp only [List.cons_append, List.nil_append, List.drop_succ_cons, List.drop_zero, spec, List.cons.injEq, exists_and_left]
          grind
        · cases w with
          | nil => simp [metaCodes]
          | cons d t =>
            rw [spec]
            simp

example : Metaphone.default.encode .latin1 c!"Aesop" = .ok c!"ESP" ∧ Metaphone.default.encode .latin1 c!"Aaron" = .ok c!"ARN" := by
  decide +kernel

/-- C106. All the characters of the tables occur. -/
theorem english_onset_sharp :
    (∀ c ∈ c!"ABCDEFGHIJKLMNOPQRSTUVWXYZ", ∀ d ∈ caverphoneOnset c, ∃ t ∈ [c!"", c!"a", c!"e", c!"h", c!"io", c!"ch"],
      ((Caverphone1.encode .latin1 (c :: t)).map fun code => code.head? == some d) = .ok true) ∧
    (∀ c ∈ c!"ABCDEFGHIJKLMNOPQRSTUVWXYZ", ∀ d ∈ caverphoneOnset c, ∃ t ∈ [c!"", c!"a", c!"e", c!"h", c!"io", c!"ch"],
      ((Caverphone2.encode .latin1 (c :: t)).map fun code => code.head? == some d) = .ok true) ∧
    ∀ c ∈ c!"ABCDEFGHIJKLMNOPQRSTUVWXYZ", ∀ d ∈ metaphoneOnset c, ∃ t ∈ [c!"a", c!"e", c!"h", c!"io", c!"ia", c!"n", c!"ge"],
      ((Metaphone.default.encode .latin1 (c :: t)).map fun code => code.head? == some d) = .ok true := by
  decide +kernel

end Verif.Props
