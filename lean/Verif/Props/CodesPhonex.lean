import Verif.Props.CodesSoundex
import Verif.Props.Phonex
/-!
# C93: which strings are codes (Phonex)
-/

set_option linter.unusedSimpArgs false

namespace Verif.Props
open Spec

namespace CodeProofs
open PhonexProofs

theorem phonex_head (w : Str) (hw : ∀ c ∈ w, isAsciiUpper c = true) (c : Char) (r : Str)
    (h : phonexPrepare w = c :: r) : c ∈ c!"ABCDFGHLMNRSTWX" := by
  have img : ∀ x ∈ capitals, phonexFirst x ∈ c!"ABCDFGHLMNRSTWX" := by decide +kernel
  unfold phonexPrepare at h
  simp only at h
  have hfin : ∀ x ∈ dropFinalS w, isAsciiUpper x = true := by
    intro x hx
    unfold dropFinalS at hx
    rw [List.mem_reverse] at hx
    exact hw x (List.mem_reverse.mp ((List.dropWhile_sublist _).subset hx))
  generalize dropFinalS w = w at *
  have hw2 : ∀ x ∈ (if c!"KN" <+: w then 'N' :: w.drop 1
      else if c!"PH" <+: w then 'F' :: w.drop 1
      else if c!"WR" <+: w then 'R' :: w.drop 1
      else w), isAsciiUpper x = true := by
    have hcons : ∀ a : Char, isAsciiUpper a = true → ∀ x ∈ a :: w.drop 1, isAsciiUpper x = true := by
      intro a ha x hx
      rcases List.mem_cons.mp hx with rfl | hx
      · exact ha
      · exact hfin x (List.mem_of_mem_drop hx)
    split
    · exact hcons _ rfl
    split
    · exact hcons _ rfl
    split
    · exact hcons _ rfl
    · exact hfin
  generalize (if c!"KN" <+: w then 'N' :: w.drop 1
      else if c!"PH" <+: w then 'F' :: w.drop 1
      else if c!"WR" <+: w then 'R' :: w.drop 1
      else w) = v at *
  have hv : ∀ x ∈ (if c!"H" <+: v then v.drop 1 else v), isAsciiUpper x = true := by
    split
    · exact fun x hx => hw2 x (List.mem_of_mem_drop hx)
    · exact hw2
  generalize (if c!"H" <+: v then v.drop 1 else v) = u at *
  cases u with
  | nil => simp at h
  | cons a t =>
    simp only [List.cons.injEq] at h
    rw [← h.1]
    exact img a (upper_caps (hv a (by simp)))

theorem noDup_take {w : Str} (h : NoAdjacentDup w) (n : Nat) : NoAdjacentDup (w.take n) := by
  induction w generalizing n with
  | nil => simpa using h
  | cons a r ih =>
    match n, r with
    | 0, _ => trivial
    | 1, _ => trivial
    | n + 2, [] => trivial
    | n + 2, b :: r => exact ⟨h.1, ih h.2 (n + 1)⟩

/-- Letters with the Phonex digits. -/
def phonexLetter (d : Char) : Char :=
  if d = '1' then 'B' else if d = '2' then 'K' else if d = '3' then 'T' else if d = '4' then 'L'
  else if d = '5' then 'M' else 'R'

theorem phonexLetter_caps : ∀ d ∈ c!"123456", isAsciiUpper (phonexLetter d) = true ∧ d ≠ '0' ∧ d ≠ '-' := by
  decide +kernel

theorem phonexLetter_digits (d : Char) (hd : d ∈ c!"123456") (prev : Char) (rest : Str) :
    phonexDigits prev (phonexLetter d :: 'A' :: rest) = d :: '0' :: phonexDigits '0' rest := by
  simp only [List.mem_cons, List.not_mem_nil, or_false] at hd
  rcases hd with rfl | rfl | rfl | rfl | rfl | rfl <;> simp [phonexDigits, phonexDigit, phonexLetter]

theorem nasal_a (x : Char) (rest : Str) : dropAfterNasal (x :: 'A' :: rest) = x :: 'A' :: dropAfterNasal rest := by
  have h2 : dropAfterNasal ('A' :: rest) = 'A' :: dropAfterNasal rest := by
    cases rest with
    | nil => rfl
    | cons b r => rw [dropAfterNasal, if_neg (by simp [nasalGroup])]
  rw [dropAfterNasal, if_neg (by simp [nasalGroup]), h2]

theorem phonex_syllables (ds : Str) (hd : ∀ d ∈ ds, d ∈ c!"123456") : ∀ prev,
    dropAfterNasal (ds.flatMap fun d => [phonexLetter d, 'A']) = ds.flatMap (fun d => [phonexLetter d, 'A']) ∧
    phonexDigits prev (ds.flatMap fun d => [phonexLetter d, 'A']) = ds.flatMap fun d => [d, '0'] := by
  induction ds with
  | nil => intro prev; exact ⟨rfl, rfl⟩
  | cons d r ih =>
    intro prev
    have ih := ih fun x hx => hd x (by simp [hx])
    simp only [List.flatMap_cons, List.cons_append, List.nil_append]
    exact ⟨by rw [nasal_a, (ih '0').1], by rw [phonexLetter_digits d (hd d (by simp)), (ih '0').2]⟩

theorem firstDigit (f : Char) (hf : f ∈ c!"ABCDFGHLMNRSTWX") (rest : Str) :
    ∃ d, phonexDigits '0' (f :: 'A' :: rest) = d :: '0' :: phonexDigits '0' rest := by
  simp only [List.mem_cons, List.not_mem_nil, or_false] at hf
  rcases hf with rfl | rfl | rfl | rfl | rfl | rfl | rfl | rfl | rfl | rfl | rfl | rfl | rfl | rfl | rfl <;>
    simp [phonexDigits, phonexDigit]

/-- A word with the code. -/
def phonexWord (f : Char) (ds : Str) : Str :=
  (if f = 'H' then c!"HH" else [f]) ++ 'A' :: ds.flatMap fun d => [phonexLetter d, 'A']

theorem phonex_word (f : Char) (ds : Str) (hf : f ∈ c!"ABCDFGHLMNRSTWX") (hd : ∀ d ∈ ds, d ∈ c!"123456")
    (hdup : NoAdjacentDup ds) :
    phonexPrepare (phonexWord f ds) = f :: 'A' :: ds.flatMap (fun d => [phonexLetter d, 'A']) ∧
    phonex (phonexWord f ds) = f :: ds := by
  have hlast : dropFinalS (phonexWord f ds) = phonexWord f ds := by
    have : ∃ v, phonexWord f ds = v ++ ['A'] := by
      unfold phonexWord
      rcases List.eq_nil_or_concat ds with rfl | ⟨t, d, rfl⟩
      · exact ⟨_, rfl⟩
      · refine ⟨(if f = 'H' then c!"HH" else [f]) ++ 'A' :: (t.flatMap (fun d => [phonexLetter d, 'A']) ++ [phonexLetter d]), ?_⟩
        simp
    obtain ⟨v, hv⟩ := this
    rw [hv, dropFinalS]
    simp
  have hp : phonexPrepare (phonexWord f ds) = f :: 'A' :: ds.flatMap (fun d => [phonexLetter d, 'A']) := by
    unfold phonexPrepare
    simp only [hlast]
    unfold phonexWord
    simp only [List.mem_cons, List.not_mem_nil, or_false] at hf
    rcases hf with rfl | rfl | rfl | rfl | rfl | rfl | rfl | rfl | rfl | rfl | rfl | rfl | rfl | rfl | rfl <;>
      simp [phonexFirst]
  refine ⟨hp, ?_⟩
  unfold phonex
  rw [hp]
  simp only
  congr 1
  obtain ⟨e, he⟩ := firstDigit f hf (ds.flatMap fun d => [phonexLetter d, 'A'])
  obtain ⟨s1, s2⟩ := phonex_syllables ds hd '0'
  obtain ⟨_, _, n3⟩ := alternate_noDup' ds fun x hx => (phonexLetter_caps x (hd x hx)).2
  have ht : (phonexTail (f :: 'A' :: ds.flatMap fun d => [phonexLetter d, 'A'])).filter (· ≠ '0') = ds := by
    unfold phonexTail
    rw [nasal_a, s1, he, s2]
    simp only
    rw [if_neg (by simp [nasalGroup])]
    split
    · exact n3
    · rw [List.filter_cons_of_neg (by decide)]; exact n3
  rw [ht, collapse_noDup hdup]

end CodeProofs

open CodeProofs

/-- C93. The Phonex codes of ASCII words with a maximum of `n ≥ 2` characters are exactly the strings of the shape
`PhonexCode n`. -/
theorem phonex_codes (U : Unicode) (n : Nat) (h2 : 2 ≤ n) (hn : n < 2 ^ 63) (code : Str) :
    (∃ s, AsciiStr s ∧ (Phonex.new n).encode U s = .ok code) ↔ PhonexCode n code := by
  have hnum : ∀ c ∈ c!"ABCDFGHLMNRSTWX", c!"0123456".contains c = false ∧ c.utf8Size = 1 ∧ isAsciiUpper c = true := by
    decide +kernel
  have spec : ∀ s, AsciiStr s → (Phonex.new n).encode U s = .ok (phonexLimited n (asciiLetters s)) := by
    intro s hs
    have := phonex_eq_spec U n s hn
    rw [letters_ascii U hs] at this
    apply this
    intro c hc
    cases hp : phonexPrepare (asciiLetters s) with
    | nil => rw [hp] at hc; simp at hc
    | cons a r =>
      rw [hp] at hc
      simp only [List.head?_cons, Option.some.injEq] at hc
      subst hc
      exact (hnum a (phonex_head _ asciiLetters_upper a r hp)).1
  constructor
  · rintro ⟨s, hs, h⟩
    rw [spec s hs] at h
    have h := Except.ok.inj h
    subst h
    unfold phonexLimited phonex
    cases hp : phonexPrepare (asciiLetters s) with
    | nil => exact Or.inl rfl
    | cons c r =>
      have hc := phonex_head _ asciiLetters_upper c r hp
      simp only
      rw [if_neg (by omega), if_neg (by rw [(hnum c hc).2.1]; omega), (hnum c hc).2.1]
      right
      refine ⟨c, (collapse ((phonexTail (c :: r)).filter (· ≠ '0'))).take (n - 1),
        n - 1 - (collapse ((phonexTail (c :: r)).filter (· ≠ '0'))).length, hc, ?_,
        noDup_take (noAdjacentDup_collapse _) _, ?_, rfl⟩
      · intro d hd
        have hd := (List.take_sublist _ _).subset hd
        rw [mem_collapse, List.mem_filter] at hd
        have := PhonexProofs.tail_digits _ d hd.1
        have hm : ∀ d ∈ c!"0123456", d ≠ '0' → d ∈ c!"123456" := by decide
        exact hm d (List.contains_iff_mem.mp this) (by simpa using hd.2)
      · rw [List.length_take]; omega
  · rintro (rfl | ⟨f, ds, k, hf, hd, hdup, hk, rfl⟩)
    · refine ⟨[], by simp [AsciiStr], ?_⟩
      rw [spec _ (by simp [AsciiStr])]
      rfl
    · have hw : ∀ c ∈ phonexWord f ds, isAsciiUpper c = true := by
        intro c hc
        unfold phonexWord at hc
        rcases List.mem_append.mp hc with hc | hc
        · split at hc
          · simp only [List.mem_cons, List.not_mem_nil, or_false, or_self] at hc
            subst hc; decide
          · simp only [List.mem_cons, List.not_mem_nil, or_false] at hc
            subst hc; exact (hnum _ hf).2.2
        · rcases List.mem_cons.mp hc with rfl | hc
          · decide
          · obtain ⟨d, hx, hc⟩ := List.mem_flatMap.mp hc
            simp only [List.mem_cons, List.not_mem_nil, or_false] at hc
            rcases hc with rfl | rfl
            · exact (phonexLetter_caps d (hd d hx)).1
            · decide
      refine ⟨_, upper_ascii hw, ?_⟩
      rw [spec _ (upper_ascii hw), asciiLetters_caps hw]
      obtain ⟨hp, he⟩ := phonex_word f ds hf hd hdup
      unfold phonexLimited
      rw [he]
      simp only
      rw [if_neg (by omega), if_neg (by rw [(hnum f hf).2.1]; omega), (hnum f hf).2.1, exactly,
        List.take_of_length_le (by omega), show n - 1 - ds.length = k by omega]
      rfl

example : PhonexCode 4 c!"H120" :=
  Or.inr ⟨'H', c!"12", 1, by decide, by decide, by decide, rfl, rfl⟩

end Verif.Props
