import Verif.Proofs.Common
import Verif.Proofs.Replace
import Verif.Spec.Nysiis
import Verif.Model.Nysiis
/-!
# Properties of NYSIIS (C17–C19, C48)
-/

set_option linter.unusedSimpArgs false

namespace Verif.Props
open Spec

namespace NysiisProofs
open Nysiis

theorem vowel_eq (c : Char) : isVowel (some (asciiLower c)) false = nysiisVowel c := by
  by_cases h : isAscii c = true
  · revert c; apply forall_ascii; decide +kernel
  · have hu : isAsciiUpper c = false := by
      cases hu : isAsciiUpper c with
      | false => rfl
      | true => exact absurd (isAscii_of_upper hu) h
    have f : ∀ d, isAscii d = true → (c == d) = false := fun d hd =>
      beq_eq_false_iff_ne.mpr fun e => h (e ▸ hd)
    simp only [asciiLower, hu, Bool.false_eq_true, if_false, isVowel, nysiisVowel,
      List.contains_cons, List.contains_nil, Bool.or_false, Bool.false_and]
    simp only [f 'a' rfl, f 'e' rfl, f 'i' rfl, f 'o' rfl, f 'u' rfl, f 'A' rfl, f 'E' rfl,
      f 'I' rfl, f 'O' rfl, f 'U' rfl, Bool.or_false]

theorem writeAll_eq (ds : Str) : ∀ (pre rest : Str), ds.length ≤ rest.length →
    writeAll (pre ++ rest) pre.length ds = .ok (pre ++ (ds ++ rest.drop ds.length)) := by
  induction ds with
  | nil => intro pre rest _; simp [writeAll]
  | cons d ds ih =>
    intro pre rest h
    cases rest with
    | nil => simp at h
    | cons r rest =>
      simp only [List.length_cons, Nat.add_le_add_iff_right] at h
      simp only [writeAll, vset, List.length_append, List.length_cons]
      rw [if_pos (by omega)]
      simp only [bind, Except.bind]
      have e : (pre ++ r :: rest).set pre.length d = (pre ++ [d]) ++ rest := by
        rw [List.set_append]; simp
      rw [e, show pre.length + 1 = (pre ++ [d]).length by simp, ih (pre ++ [d]) rest h]
      simp

theorem head_prefix (r : Str) (a : Char) : r.head? = some a ↔ [a] <+: r := by
  cases r with
  | nil => simp
  | cons b r => simp [List.cons_prefix_cons, eq_comm]

theorem head2_prefix (r : Str) (a b : Char) : (r.head? = some a ∧ r[1]? = some b) ↔ [a, b] <+: r := by
  cases r with
  | nil => simp
  | cons x r =>
    cases r with
    | nil => simp [List.cons_prefix_cons]
    | cons y r => simp [List.cons_prefix_cons, eq_comm]

theorem next_vowel (r : Str) :
    isVowel (r.head?.map asciiLower) false = (r.take 1).any nysiisVowel := by
  cases r with
  | nil => rfl
  | cons x r => simp only [List.head?_cons, Option.map_some, vowel_eq]; simp

/-- `transcode` followed by the write-back is the declarative rewriting. -/
theorem transcode_spec (prev c : Char) (rest : Str) :
    ∃ d ds, transcode prev c rest.head? rest[1]? = d :: ds ∧ ds.length ≤ rest.length ∧
      nysiisLetter prev c rest = (d, ds ++ rest.drop ds.length) := by
  unfold transcode nysiisLetter
  simp only [head2_prefix]
  simp only [vowel_eq, next_vowel, head_prefix]
  have l1 : ∀ a, [a] <+: rest → 1 ≤ rest.length := fun a h => by simpa using h.length_le
  have l2 : ∀ a b, [a, b] <+: rest → 2 ≤ rest.length := fun a b h => by simpa using h.length_le
  by_cases h1 : c = 'E' ∧ c!"V" <+: rest
  · rw [if_pos h1, if_pos h1]; exact ⟨_, _, rfl, l1 _ h1.2, rfl⟩
  rw [if_neg h1, if_neg h1]
  by_cases h2 : nysiisVowel c = true
  · rw [if_pos h2, if_pos h2]; exact ⟨_, _, rfl, by simp, by simp⟩
  rw [if_neg h2, if_neg h2]
  by_cases h3 : c = 'Q'
  · rw [if_pos h3, if_pos h3]; exact ⟨_, _, rfl, by simp, by simp⟩
  rw [if_neg h3, if_neg h3]
  by_cases h4 : c = 'Z'
  · rw [if_pos h4, if_pos h4]; exact ⟨_, _, rfl, by simp, by simp⟩
  rw [if_neg h4, if_neg h4]
  by_cases h5 : c = 'M'
  · rw [if_pos h5, if_pos h5]; exact ⟨_, _, rfl, by simp, by simp⟩
  rw [if_neg h5, if_neg h5]
  by_cases h6 : c = 'K' ∧ c!"N" <+: rest
  · rw [if_pos h6, if_pos h6]
    obtain ⟨t, ht⟩ := h6.2
    subst ht
    exact ⟨_, _, rfl, by simp, by simp⟩
  rw [if_neg h6, if_neg h6]
  by_cases h7 : c = 'K'
  · rw [if_pos h7, if_pos h7]; exact ⟨_, _, rfl, by simp, by simp⟩
  rw [if_neg h7, if_neg h7]
  by_cases h8 : c = 'S' ∧ c!"CH" <+: rest
  · rw [if_pos h8, if_pos h8]; exact ⟨_, _, rfl, l2 _ _ h8.2, rfl⟩
  rw [if_neg h8, if_neg h8]
  by_cases h9 : c = 'P' ∧ c!"H" <+: rest
  · rw [if_pos h9, if_pos h9]; exact ⟨_, _, rfl, l1 _ h9.2, rfl⟩
  rw [if_neg h9, if_neg h9]
  by_cases hH : c = 'H'
  · subst hH
    by_cases hv : nysiisVowel prev = true ∧ (rest.take 1).any nysiisVowel = true
    · simp only [hv.1, hv.2, not_true_eq_false, or_self, and_false, and_true, false_or, if_true, if_false,
        show ¬ 'H' = 'W' by decide, false_and]
      exact ⟨_, _, rfl, by simp, by simp⟩
    · have : ¬ nysiisVowel prev = true ∨ ¬ (rest.take 1).any nysiisVowel = true := by
        by_cases hp : nysiisVowel prev = true
        · exact Or.inr fun h => hv ⟨hp, h⟩
        · exact Or.inl hp
      rw [if_pos (Or.inl ⟨rfl, this⟩), if_pos rfl, if_neg hv]
      exact ⟨_, _, rfl, by simp, by simp⟩
  · rw [if_neg hH]
    by_cases hW : c = 'W' ∧ nysiisVowel prev = true
    · rw [if_pos (Or.inr hW), if_pos hW]; exact ⟨_, _, rfl, by simp, by simp⟩
    · rw [if_neg (fun h => h.elim (fun h => hH h.1) hW), if_neg hW]
      exact ⟨_, _, rfl, by simp, by simp⟩

/-- The loop computes the rewritten letters and collapses runs. -/
theorem loop_eq (n : Nat) : ∀ (pre rest key : Str) (p : Char), rest.length = n →
    loop n (pre.length + 1) (pre ++ p :: rest) key =
      .ok (key ++ (collapse (p :: nysiisLetters n p rest)).drop 1) := by
  induction n with
  | zero =>
    intro pre rest key p h
    simp [loop, nysiisLetters, collapse]
  | succ n ih =>
    intro pre rest key p h
    cases rest with
    | nil => simp at h
    | cons c rest =>
      simp only [List.length_cons, Nat.add_right_cancel_iff] at h
      obtain ⟨d, ds, ht, hlen, hspec⟩ := transcode_spec p c rest
      have e1 : usub (pre.length + 1) 1 = .ok pre.length := by simp [usub]
      have g1 : (pre ++ p :: c :: rest)[pre.length]? = some p := by simp
      have g2 : (pre ++ p :: c :: rest)[pre.length + 1]? = some c := by
        rw [List.getElem?_append_right (by omega)]; simp
      have g3 : (pre ++ p :: c :: rest)[pre.length + 1 + 1]? = rest.head? := by
        rw [List.getElem?_append_right (by omega)]
        rw [show pre.length + 1 + 1 - pre.length = 2 by omega]; cases rest <;> simp
      have g4 : (pre ++ p :: c :: rest)[pre.length + 1 + 2]? = rest[1]? := by
        rw [List.getElem?_append_right (by omega)]
        rw [show pre.length + 1 + 2 - pre.length = 3 by omega]; simp
      have hw : writeAll (pre ++ p :: c :: rest) (pre.length + 1) (d :: ds) =
          .ok (pre ++ p :: d :: (ds ++ rest.drop ds.length)) := by
        have := writeAll_eq (d :: ds) (pre ++ [p]) (c :: rest) (by simp; omega)
        simpa using this
      have k1 : (pre ++ p :: d :: (ds ++ rest.drop ds.length))[pre.length]? = some p := by simp
      have k2 : (pre ++ p :: d :: (ds ++ rest.drop ds.length))[pre.length + 1]? = some d := by
        rw [List.getElem?_append_right (by omega)]; simp
      have hl : (ds ++ rest.drop ds.length).length = n := by simp; omega
      simp only [loop, e1, vget, g1, g2, g3, g4, ht, hw, k1, k2, bind, Except.bind]
      have := ih (pre ++ [p]) (ds ++ rest.drop ds.length) (if p ≠ d then key ++ [d] else key) d hl
      simp only [List.length_append, List.length_cons, List.length_nil, List.append_assoc,
        List.cons_append, List.nil_append] at this
      rw [Nat.zero_add] at this
      rw [this]
      simp only [nysiisLetters, hspec]
      rw [collapse_cons_cons]
      by_cases hpd : p = d
      · simp [hpd]
      · simp only [hpd, ne_eq, not_false_eq_true, if_true, if_false, List.append_assoc,
          List.cons_append, List.nil_append]
        rw [List.drop_succ_cons, List.drop_zero]
        rw [← collapse_cons_drop]

theorem buildKey_eq (c : Char) (rest : Str) :
    buildKey (c :: rest) = .ok (collapse (c :: nysiisLetters rest.length c rest)) := by
  unfold buildKey
  simp only [vget, List.getElem?_cons_zero, bind, Except.bind, List.length_cons, Nat.add_sub_cancel]
  have := loop_eq rest.length [] rest [c] c rfl
  simp only [List.length_nil, Nat.zero_add, List.nil_append] at this
  rw [this]
  rw [← List.singleton_append, collapse_cons_drop]
  simp

theorem drop2_len (w : Str) : w.dropLast.dropLast = w.take (w.length - 2) := by
  simp only [List.dropLast_eq_take, List.take_take, List.length_take]
  congr 1; omega

theorem startsWith_iff (w p : Str) : startsWith w p = true ↔ p <+: w := List.isPrefixOf_iff_prefix
theorem endsWith_iff (w p : Str) : endsWith w p = true ↔ p <:+ w := List.isSuffixOf_iff_suffix

theorem startRules_eq (w : Str) : startRules w = nysiisStart w := by
  unfold startRules nysiisStart
  simp only [Bool.or_eq_true, startsWith_iff, replaceStart, List.isPrefixOf_iff_prefix]
  by_cases h1 : c!"MAC" <+: w
  · obtain ⟨t, rfl⟩ := h1
    simp [List.cons_prefix_cons]
  rw [if_neg h1, if_neg h1]
  by_cases h2 : c!"KN" <+: w
  · obtain ⟨t, rfl⟩ := h2
    simp [List.cons_prefix_cons]
  rw [if_neg h2, if_neg h2]
  by_cases h3 : c!"K" <+: w
  · obtain ⟨t, rfl⟩ := h3
    simp [List.cons_prefix_cons]
  rw [if_neg h3, if_neg h3]
  by_cases h4 : c!"PH" <+: w ∨ c!"PF" <+: w
  · rw [if_pos h4, if_pos h4]
    simp [List.cons_prefix_cons]
  rw [if_neg h4, if_neg h4]
  rfl

theorem endRules_eq (w : Str) : endRules w = nysiisEnd w := by
  unfold endRules nysiisEnd
  simp only [Bool.or_eq_true, endsWith_iff, or_assoc]
  by_cases h1 : c!"EE" <:+ w ∨ c!"IE" <:+ w
  · rw [if_pos h1, if_pos h1, drop2_len]
    have : ∀ (t : Str) (a b : Char), ([a, b] <:+ t ++ ['Y']) → b = 'Y' := by
      rintro t a b ⟨u, hu⟩
      have := congrArg List.getLast? hu
      simpa using this
    rw [if_neg]
    rintro (h | h | h | h | h) <;> exact absurd (this _ _ _ h) (by decide)
  · rw [if_neg h1, if_neg h1, drop2_len]

theorem finish_eq (key : Str) : finish key = nysiisFinish key := by
  unfold finish nysiisFinish
  by_cases h : byteLen key > 1
  · have h' : ¬ byteLen key ≤ 1 := by omega
    simp only [h, h', if_true, if_false]
    simp only [endsWith_iff, Bool.and_eq_true, decide_eq_true_eq]
    have key2 : ∀ k : Str, (byteLen k > 2 ∧ c!"AY" <:+ k) ↔ (c!"AY" <:+ k ∧ k ≠ c!"AY") := by
      intro k
      constructor
      · rintro ⟨h1, h2⟩
        refine ⟨h2, ?_⟩
        rintro rfl
        exact absurd h1 (by decide)
      · rintro ⟨⟨t, rfl⟩, h2⟩
        refine ⟨?_, List.suffix_append _ _⟩
        rw [byteLen_append, show byteLen c!"AY" = 2 by decide]
        cases t with
        | nil => exact absurd rfl h2
        | cons a t => have := utf8Size_pos a; simp only [byteLen]; omega
    simp only [key2]
  · rw [if_neg h, if_pos (by omega)]

theorem nysiisStart_ne_nil {w : Str} (h : w ≠ []) : nysiisStart w ≠ [] := by
  unfold nysiisStart; (repeat' split) <;> simp [h]

theorem nysiisEnd_ne_nil {w : Str} (h : w ≠ []) : nysiisEnd w ≠ [] := by
  unfold nysiisEnd; (repeat' split) <;> simp [h]

/-- All characters are capital letters A–Z. -/
def Caps (w : Str) : Prop := ∀ c ∈ w, isAsciiUpper c = true

theorem Caps.subset {w v : Str} (h : Caps w) (hs : v ⊆ w) : Caps v := fun c hc => h c (hs hc)

theorem Caps.append {w v : Str} (h : Caps w) (h' : Caps v) : Caps (w ++ v) := by
  intro c hc; rcases List.mem_append.mp hc with hc | hc
  · exact h c hc
  · exact h' c hc

theorem Caps.ascii {w : Str} (h : Caps w) : AsciiStr w := fun c hc => isAscii_of_upper (h c hc)

theorem Caps.drop {w : Str} (h : Caps w) (n : Nat) : Caps (w.drop n) := h.subset (List.drop_subset n w)
theorem Caps.dropLast {w : Str} (h : Caps w) : Caps w.dropLast := h.subset (List.dropLast_subset w)

theorem caps_start {w : Str} (h : Caps w) : Caps (nysiisStart w) := by
  unfold nysiisStart
  (repeat' split) <;> first | exact h | exact Caps.append (by unfold Caps; decide) (h.drop _)

theorem caps_end {w : Str} (h : Caps w) : Caps (nysiisEnd w) := by
  unfold nysiisEnd
  (repeat' split) <;>
    first | exact h | exact Caps.append h.dropLast.dropLast (by unfold Caps; decide)

/-- Letters excluded after the first position. -/
abbrev rare : Str := c!"EIOUQZMK"

theorem ite_ind {α : Type} {P : α → Prop} {c : Prop} [Decidable c] {a b : α} (ha : c → P a)
    (hb : ¬ c → P b) : P (if c then a else b) := by
  by_cases h : c
  · rw [if_pos h]; exact ha h
  · rw [if_neg h]; exact hb h

theorem letter_caps {prev c : Char} {rest : Str} (hp : isAsciiUpper prev = true)
    (hc : isAsciiUpper c = true) (hr : Caps rest) :
    isAsciiUpper (nysiisLetter prev c rest).1 = true ∧ Caps (nysiisLetter prev c rest).2 := by
  let P : Char × Str → Prop := fun r => isAsciiUpper r.1 = true ∧ Caps r.2
  have q : ∀ (d : Char) (k : Nat) (t : Str), isAsciiUpper d = true → Caps t →
      P (d, t ++ rest.drop k) := fun d k t h1 h2 => ⟨h1, h2.append (hr.drop k)⟩
  have q0 : ∀ (d : Char), isAsciiUpper d = true → P (d, rest) := fun d h1 => ⟨h1, hr⟩
  show P (nysiisLetter prev c rest)
  unfold nysiisLetter
  refine ite_ind (fun _ => q _ _ _ (by decide) (by unfold Caps; decide)) fun _ => ?_
  refine ite_ind (fun _ => q0 _ (by decide)) fun _ => ?_
  refine ite_ind (fun _ => q0 _ (by decide)) fun _ => ?_
  refine ite_ind (fun _ => q0 _ (by decide)) fun _ => ?_
  refine ite_ind (fun _ => q0 _ (by decide)) fun _ => ?_
  refine ite_ind (fun _ => q0 _ (by decide)) fun _ => ?_
  refine ite_ind (fun _ => q0 _ (by decide)) fun _ => ?_
  refine ite_ind (fun _ => q _ _ _ (by decide) (by unfold Caps; decide)) fun _ => ?_
  refine ite_ind (fun _ => q _ _ _ (by decide) (by unfold Caps; decide)) fun _ => ?_
  refine ite_ind (fun _ => ite_ind (fun _ => q0 _ (by decide)) fun _ => q0 _ hp) fun _ => ?_
  exact ite_ind (fun _ => q0 _ hp) fun _ => q0 _ hc

theorem letter_rare {prev c : Char} {rest : Str} (hc : isAsciiUpper c = true) :
    (nysiisLetter prev c rest).1 = prev ∨ (nysiisLetter prev c rest).1 ∉ rare := by
  have key : ∀ c, isAscii c = true → (isAsciiUpper c && !nysiisVowel c && !(c == 'Q') &&
      !(c == 'Z') && !(c == 'M') && !(c == 'K')) = true → c ∉ rare := by
    apply forall_ascii; decide +kernel
  let P : Char × Str → Prop := fun r => r.1 = prev ∨ r.1 ∉ rare
  have q : ∀ (d : Char) (t : Str), d ∉ rare → P (d, t) := fun d t h => Or.inr h
  show P (nysiisLetter prev c rest)
  unfold nysiisLetter
  refine ite_ind (fun _ => q _ _ (by decide)) fun _ => ?_
  refine ite_ind (fun _ => q _ _ (by decide)) fun h1 => ?_
  refine ite_ind (fun _ => q _ _ (by decide)) fun h2 => ?_
  refine ite_ind (fun _ => q _ _ (by decide)) fun h3 => ?_
  refine ite_ind (fun _ => q _ _ (by decide)) fun h4 => ?_
  refine ite_ind (fun _ => q _ _ (by decide)) fun _ => ?_
  refine ite_ind (fun _ => q _ _ (by decide)) fun h5 => ?_
  refine ite_ind (fun _ => q _ _ (by decide)) fun _ => ?_
  refine ite_ind (fun _ => q _ _ (by decide)) fun _ => ?_
  refine ite_ind (fun _ => ite_ind (fun _ => q _ _ (by decide)) fun _ => Or.inl rfl) fun _ => ?_
  exact ite_ind (fun _ => Or.inl rfl) fun _ =>
    q _ _ (key c (isAscii_of_upper hc) (by simp [hc, h1, h2, h3, h4, h5]))

theorem letters_caps (n : Nat) : ∀ {prev : Char} {rest : Str}, isAsciiUpper prev = true → Caps rest →
    Caps (nysiisLetters n prev rest) ∧
    ∀ x ∈ (collapse (prev :: nysiisLetters n prev rest)).drop 1, x ∉ rare := by
  induction n with
  | zero => intro prev rest _ _; simp [nysiisLetters, Caps, collapse]
  | succ n ih =>
    intro prev rest hp hr
    cases rest with
    | nil => simp [nysiisLetters, Caps, collapse]
    | cons c rest =>
      have hc := hr c (by simp)
      have hr' : Caps rest := hr.drop 1
      obtain ⟨h1, h2⟩ := letter_caps hp hc hr'
      obtain ⟨h3, h4⟩ := ih h1 h2
      simp only [nysiisLetters]
      refine ⟨?_, ?_⟩
      · intro x hx
        rcases List.mem_cons.mp hx with rfl | hx
        · exact h1
        · exact h3 x hx
      · rw [collapse_cons_cons]
        rcases letter_rare (prev := prev) (rest := rest) hc with he | hn
        · rw [if_pos he.symm]
          exact h4
        · split
          · exact h4
          · rw [List.drop_succ_cons, List.drop_zero, collapse_cons_drop]
            intro x hx
            rcases List.mem_cons.mp hx with rfl | hx
            · exact hn
            · exact h4 x hx

/-- `nysiisFinish` keeps the first character (or nothing) and only uses characters of the key and
'Y'. -/
theorem finish_mem (key : Str) : (∀ x ∈ nysiisFinish key, x ∈ key ∨ x = 'Y') ∧
    (∀ x ∈ (nysiisFinish key).drop 1, x ∈ key.drop 1 ∨ x = 'Y') := by
  have dl : ∀ k : Str, (∀ x ∈ k.dropLast, x ∈ k) ∧ (∀ x ∈ k.dropLast.drop 1, x ∈ k.drop 1) := by
    intro k
    refine ⟨fun x hx => List.dropLast_subset k hx, fun x hx => ?_⟩
    cases k with
    | nil => simp at hx
    | cons a k =>
      cases k with
      | nil => simp at hx
      | cons b k =>
        rw [List.dropLast_cons_cons, List.drop_succ_cons, List.drop_zero] at hx
        exact List.dropLast_subset _ hx
  unfold nysiisFinish
  split
  · exact ⟨fun x hx => Or.inl hx, fun x hx => Or.inl hx⟩
  · have good : ∀ k : Str, ((∀ x ∈ k, x ∈ key ∨ x = 'Y') ∧ (∀ x ∈ k.drop 1, x ∈ key.drop 1 ∨ x = 'Y')) →
        ((∀ x ∈ k.dropLast, x ∈ key ∨ x = 'Y') ∧
          (∀ x ∈ k.dropLast.drop 1, x ∈ key.drop 1 ∨ x = 'Y')) := fun k h =>
      ⟨fun x hx => h.1 x ((dl k).1 x hx), fun x hx => h.2 x ((dl k).2 x hx)⟩
    have goodY : ∀ k : Str, ((∀ x ∈ k, x ∈ key ∨ x = 'Y') ∧ (∀ x ∈ k.drop 1, x ∈ key.drop 1 ∨ x = 'Y')) →
        ((∀ x ∈ k ++ c!"Y", x ∈ key ∨ x = 'Y') ∧
          (∀ x ∈ (k ++ c!"Y").drop 1, x ∈ key.drop 1 ∨ x = 'Y')) := by
      intro k h
      refine ⟨fun x hx => ?_, fun x hx => ?_⟩
      · rcases List.mem_append.mp hx with hx | hx
        · exact h.1 x hx
        · exact Or.inr (by simpa using hx)
      · cases k with
        | nil => simp at hx
        | cons a k =>
          simp only [List.cons_append, List.drop_succ_cons, List.drop_zero] at hx
          rcases List.mem_append.mp hx with hx | hx
          · exact h.2 x (by simpa using hx)
          · exact Or.inr (by simpa using hx)
    have g0 : (∀ x ∈ key, x ∈ key ∨ x = 'Y') ∧ (∀ x ∈ key.drop 1, x ∈ key.drop 1 ∨ x = 'Y') :=
      ⟨fun x hx => Or.inl hx, fun x hx => Or.inl hx⟩
    dsimp only
    (repeat' split) <;>
      first
        | exact g0 | exact good _ g0 | exact good _ (good _ g0) | exact goodY _ (good _ (good _ g0))
        | exact goodY _ (good _ (good _ (good _ g0)))
        | exact good _ (goodY _ (good _ (good _ g0)))
        | exact good _ (goodY _ (good _ (good _ (good _ g0))))

theorem nysiis_caps (U : Unicode) {s : Str} (h : AsciiStr s) :
    Caps (nysiis U s) ∧ ∀ x ∈ (nysiis U s).drop 1, x ∉ rare := by
  have hl : Caps (letters U s) := by
    rw [letters_ascii U h]; exact asciiLetters_upper
  have hw := caps_end (caps_start hl)
  unfold nysiis
  split
  · exact ⟨by simp [Caps], by simp⟩
  · rename_i c rest heq
    rw [heq] at hw
    have hc := hw c (by simp)
    obtain ⟨h1, h2⟩ := letters_caps rest.length hc (hw.drop 1 : Caps rest)
    obtain ⟨f1, f2⟩ := finish_mem (collapse (c :: nysiisLetters rest.length c rest))
    refine ⟨fun x hx => ?_, fun x hx => ?_⟩
    · rcases f1 x hx with hx | rfl
      · rw [mem_collapse] at hx
        rcases List.mem_cons.mp hx with rfl | hx
        · exact hc
        · exact h1 x hx
      · decide
    · rcases f2 x hx with hx | rfl
      · exact h2 x hx
      · decide

end NysiisProofs

open NysiisProofs

/-- C48. The non-strict NYSIIS code is the declarative one, for every string; the strict code is its
prefix of (at most) six bytes, and the only possible panic is that byte 6 is inside a character. -/
theorem nysiis_eq_spec (U : Unicode) (s : Str) :
    (Nysiis.new false).encode U s = .ok (nysiis U s) ∧
    (Nysiis.new true).encode U s = sliceTo (nysiis U s) (min (byteLen (nysiis U s)) 6) := by
  unfold Nysiis.encode nysiis
  rw [soundexClean_eq_letters]
  by_cases h : letters U s = []
  · simp [h, Nysiis.new, nysiisStart, nysiisEnd, byteLen, sliceTo, splitAtByte]
  · have hne := nysiisEnd_ne_nil (nysiisStart_ne_nil h)
    have : (letters U s).isEmpty = false := by cases hl : letters U s <;> simp_all
    simp only [this, Bool.false_eq_true, if_false, startRules_eq, endRules_eq]
    cases hw : nysiisEnd (nysiisStart (letters U s)) with
    | nil => exact absurd hw hne
    | cons c rest =>
      simp only [buildKey_eq, bind, Except.bind, pure, Except.pure, finish_eq, Nysiis.new]
      simp

/-- The default encoder is the strict one. -/
theorem nysiis_default : Nysiis.default = Nysiis.new true := rfl

example : nysiis .latin1 c!"Westerlund" = c!"WASTARLAD" ∧ nysiis .latin1 c!"Schmitt" = c!"SNAT" ∧
    nysiis .latin1 c!"Knuth" = c!"NAT" := by decide +kernel

/-- C17. For ASCII input neither mode panics, and the strict code is exactly the first six characters
of the full code. -/
theorem nysiis_strict_prefix (U : Unicode) (s : Str) (h : AsciiStr s) :
    ∃ full, (Nysiis.new false).encode U s = .ok full ∧
      (Nysiis.new true).encode U s = .ok (full.take 6) := by
  refine ⟨nysiis U s, (nysiis_eq_spec U s).1, ?_⟩
  have ha := (nysiis_caps U h).1.ascii
  rw [(nysiis_eq_spec U s).2, byteLen_ascii ha, sliceTo_ascii ha (by omega)]
  congr 1
  rw [List.take_eq_take_iff]; omega

/-- C17. Outside ASCII the strict cut can fall inside a character: then `encode` panics, while the
non-strict encoder returns. -/
theorem nysiis_strict_panics : (Nysiis.new true).encode .latin1 c!"bcédéx" = .error .slice ∧
    (Nysiis.new false).encode .latin1 c!"bcédéx" = .ok c!"BCÉDÉX" := by decide +kernel

/-- C18. For ASCII input the code (of either mode) consists of capital letters, and after the first
one none of E, I, O, U, Q, Z, M, K occurs. -/
theorem nysiis_alphabet (U : Unicode) (n : Nysiis) (s code : Str) (h : AsciiStr s)
    (he : n.encode U s = .ok code) :
    (∀ c ∈ code, isAsciiUpper c = true) ∧ (∀ c ∈ code.drop 1, c ∉ c!"EIOUQZMK") := by
  obtain ⟨full, h1, h2⟩ := nysiis_strict_prefix U s h
  have hc := nysiis_caps U h
  have hf : full = nysiis U s := by
    have := (nysiis_eq_spec U s).1; rw [h1] at this; injection this
  rw [← hf] at hc
  obtain ⟨strict⟩ := n
  cases strict with
  | false =>
    change (Nysiis.new false).encode U s = .ok code at he
    rw [h1] at he; injection he with he; subst he; exact hc
  | true =>
    change (Nysiis.new true).encode U s = .ok code at he
    rw [h2] at he; injection he with he; subst he
    refine ⟨fun c hx => hc.1 c (List.mem_of_mem_take hx), fun c hx => hc.2 c ?_⟩
    rw [List.drop_take] at hx
    exact List.mem_of_mem_take hx

/-- C18. A text without letters has the empty code. -/
theorem nysiis_no_letters (U : Unicode) (n : Nysiis) (s : Str) (h : ∀ c ∈ s, U.isAlphabetic c = false) :
    n.encode U s = .ok [] := by
  unfold Nysiis.encode
  rw [soundexClean_eq_letters, letters_eq_nil.mpr h]; rfl

/-- C18. The empty code is also given to some names with letters, e.g. "As". -/
theorem nysiis_empty_name : (Nysiis.new true).encode .latin1 c!"As" = .ok [] := by decide +kernel

example : AsciiStr c!"O'Daniel" ∧ (Nysiis.new true).encode .latin1 c!"O'Daniel" = .ok c!"ODANAL" := by
  decide +kernel

/-- C19. Two ASCII strings with the same letters up to case have the same code in both modes. -/
theorem nysiis_case_insensitive (U : Unicode) (n : Nysiis) (s t : Str) (hs : AsciiStr s)
    (ht : AsciiStr t) (h : asciiLetters s = asciiLetters t) : n.encode U s = n.encode U t := by
  unfold Nysiis.encode
  rw [soundexClean_eq_letters, soundexClean_eq_letters, letters_ascii U hs, letters_ascii U ht, h]

/-- C19. Inserting characters that are not alphabetic never changes the code (any Unicode text). -/
theorem nysiis_ignores_nonletters (U : Unicode) (n : Nysiis) (a junk b : Str)
    (h : ∀ c ∈ junk, U.isAlphabetic c = false) :
    n.encode U (a ++ junk ++ b) = n.encode U (a ++ b) := by
  unfold Nysiis.encode
  rw [soundexClean_eq_letters, soundexClean_eq_letters, letters_append, letters_append,
    letters_append, letters_eq_nil.mpr h]; simp

example : asciiLetters c!"Mac Donald" = asciiLetters c!"MACDONALD" := by decide

end Verif.Props
