import Verif.Proofs.Common
import Verif.Proofs.Res
import Verif.Spec.Metaphone
import Verif.Model.Metaphone
/-!
# Properties of Metaphone (C23–C25, C49)
-/

set_option linter.unusedSimpArgs false

namespace Verif.Props
open Spec

namespace MetaphoneProofs
open Metaphone

/-! ### Reading the word around a position -/

section Context
variable (before : Str) (c : Char) (after : Str)

theorem get_next (k : Nat) :
    (before.reverse ++ c :: after)[before.length + (k + 1)]? = after[k]? := by
  rw [List.getElem?_append_right (by simp), List.length_reverse,
    show before.length + (k + 1) - before.length = k + 1 by omega]
  rfl

theorem get_prev : (before.reverse ++ c :: after)[before.length - 1]? =
    if before = [] then some c else before.head? := by
  cases before with
  | nil => rfl
  | cons b bs =>
    simp only [List.reverse_cons, List.append_assoc, List.length_cons, Nat.add_sub_cancel]
    rw [List.getElem?_append_right (by simp)]
    simp

theorem prev_eq (x : Char) :
    isPreviousChar (before.reverse ++ c :: after) before.length x = [x].isPrefixOf before := by
  unfold isPreviousChar
  rw [get_prev]
  cases before with
  | nil => rfl
  | cons b bs => simp [List.isPrefixOf, eq_comm, BEq.comm]

theorem next_eq (x : Char) :
    isNextChar (before.reverse ++ c :: after) before.length x = [x].isPrefixOf after := by
  unfold isNextChar
  rw [get_next before c after 0]
  cases after with
  | nil => rfl
  | cons b bs => simp [List.isPrefixOf, BEq.comm]

theorem vowel_spec (x : Char) : isVowel (some (asciiLower x)) false = c!"AEIOUaeiou".contains x := by
  by_cases h : isAscii x = true
  · revert x; apply forall_ascii; decide +kernel
  · have hu : isAsciiUpper x = false := by
      cases hu : isAsciiUpper x with
      | false => rfl
      | true => exact absurd (isAscii_of_upper hu) h
    have f : ∀ d, isAscii d = true → (x == d) = false := fun d hd =>
      beq_eq_false_iff_ne.mpr fun e => h (e ▸ hd)
    simp only [asciiLower, hu, Bool.false_eq_true, if_false, isVowel,
      List.contains_cons, List.contains_nil, Bool.or_false, Bool.false_and]
    simp only [f 'a' rfl, f 'e' rfl, f 'i' rfl, f 'o' rfl, f 'u' rfl, f 'A' rfl, f 'E' rfl,
      f 'I' rfl, f 'O' rfl, f 'U' rfl, Bool.or_false]

theorem vowelAt_eq (k : Nat) :
    isVowelAt (before.reverse ++ c :: after) (before.length + (k + 1)) = startsVowel (after.drop k) := by
  unfold isVowelAt
  rw [get_next]
  cases h : after[k]? with
  | none =>
    rw [List.getElem?_eq_none_iff] at h
    rw [List.drop_eq_nil_of_le h]; rfl
  | some x =>
    obtain ⟨hk, rfl⟩ := List.getElem?_eq_some_iff.mp h
    rw [List.drop_eq_getElem_cons hk]
    exact vowel_spec _

theorem front_eq (k : Nat) :
    isFrontV (before.reverse ++ c :: after)[before.length + (k + 1)]? =
      startsIn (after.drop k) c!"EIY" := by
  rw [get_next]
  cases h : after[k]? with
  | none =>
    rw [List.getElem?_eq_none_iff] at h
    rw [List.drop_eq_nil_of_le h]; rfl
  | some x =>
    obtain ⟨hk, rfl⟩ := List.getElem?_eq_some_iff.mp h
    rw [List.drop_eq_getElem_cons hk]; rfl

theorem varson_eq :
    (decide (before.length > 0) && isVarson (before.reverse ++ c :: after)[before.length - 1]?) =
      startsIn before c!"CSPTG" := by
  rw [get_prev]
  cases before with
  | nil => rfl
  | cons b bs => simp [isVarson, startsIn]

theorem last_eq (k n : Nat) (hn : n = (before.reverse ++ c :: after).length) :
    isLastChar n (before.length + k) = (after.length == k) := by
  subst hn
  unfold isLastChar
  simp only [List.length_append, List.length_reverse, List.length_cons]
  rw [Bool.eq_iff_iff, beq_iff_eq, beq_iff_eq]; omega

theorem region_eq (h : AsciiStr (before.reverse ++ c :: after)) (test : Str) (ht : AsciiStr test)
    (hne : test ≠ []) :
    regionMatch (before.reverse ++ c :: after) before.length test = .ok (test.isPrefixOf (c :: after)) := by
  unfold regionMatch
  have hpos : 0 < test.length := List.length_pos_iff.mpr hne
  rw [byteLen_ascii h, byteLen_ascii ht]
  by_cases hl : before.length + test.length - 1 < (before.reverse ++ c :: after).length
  · rw [if_pos hl, sliceFrom_ascii h (by simp)]
    simp only [bind, Except.bind, pure, Except.pure, startsWith]
    have e : (before.reverse ++ c :: after).drop before.length = c :: after := by
      have := List.drop_left (l₁ := before.reverse) (l₂ := c :: after)
      rwa [List.length_reverse] at this
    rw [e]
  · rw [if_neg hl]
    simp only [pure, Except.pure, Except.ok.injEq]
    symm
    rw [Bool.eq_false_iff]
    intro hp
    have := (List.isPrefixOf_iff_prefix.mp hp).length_le
    simp only [List.length_append, List.length_reverse, List.length_cons] at hl this
    omega

end Context

/-- `skip` after having processed the letters `before`. -/
def skipAt (before after : Str) : Nat :=
  if plainD before && c!"G".isPrefixOf after && startsIn (after.drop 1) c!"EIY" then 2
  else if c!"GD".isPrefixOf before && plainD (before.drop 1) && startsIn after c!"EIY" then 1
  else 0

theorem prefix1 (x : Char) (w : Str) : ([x] <+: w) ↔ [x].isPrefixOf w = true :=
  List.isPrefixOf_iff_prefix.symm

/-- `startsIn` implies that there is a letter. -/
theorem startsIn_length {w l : Str} (h : startsIn w l = true) : 1 ≤ w.length := by
  cases w with
  | nil => simp [startsIn] at h
  | cons a w => simp

theorem caseC_eq (before after : Str) (h : AsciiStr (before.reverse ++ 'C' :: after)) :
    caseC (before.reverse ++ 'C' :: after) (before.reverse ++ 'C' :: after).length before.length =
      .ok (metaLetter before 'C' after) := by
  unfold caseC
  have f := front_eq before 'C' after 0
  rw [List.drop_zero] at f
  have l0 := last_eq before 'C' after 0 _ rfl
  rw [Nat.add_zero] at l0
  have v : before = [] → isVowelAt (before.reverse ++ 'C' :: after) 2 = startsVowel (after.drop 1) := by
    intro hb
    have := vowelAt_eq before 'C' after 1
    rw [hb] at this ⊢
    exact this
  rw [region_eq before 'C' after h c!"CIA" (by decide) (by decide)]
  simp only [prev_eq, next_eq, f, l0, bind, Except.bind, pure, Except.pure]
  have hl : ∀ b, startsIn after c!"EIY" = true → (after.length == 0) = b → b = false := by
    intro b h1 h2
    have := startsIn_length h1
    rw [← h2, beq_eq_false_iff_ne]; omega
  have hcia : List.isPrefixOf c!"CIA" ('C' :: after) = List.isPrefixOf c!"IA" after := rfl
  rw [hcia]
  show _ = Except.ok (if c!"S" <+: before ∧ startsIn after c!"EIY" then []
     else if c!"IA" <+: after then ['X']
     else if startsIn after c!"EIY" then ['S']
     else if c!"H" <+: after then
       (if c!"S" <+: before then ['K']
        else if before = [] ∧ 3 ≤ after.length ∧ startsVowel (after.drop 1) then ['K']
        else ['X'])
     else ['K'])
  simp only [← List.isPrefixOf_iff_prefix]
  cases hf : startsIn after c!"EIY" with
  | true =>
    rw [hl _ hf rfl]
    cases List.isPrefixOf c!"S" before <;> cases List.isPrefixOf c!"IA" after <;> rfl
  | false =>
    simp only [Bool.and_false, Bool.false_eq_true, and_false, if_false]
    cases List.isPrefixOf c!"IA" after with
    | true => rfl
    | false =>
      simp only [Bool.false_eq_true, if_false]
      cases hS : List.isPrefixOf c!"S" before with
      | true => cases List.isPrefixOf c!"H" after <;> rfl
      | false =>
        simp only [Bool.false_and, Bool.false_eq_true, if_false]
        cases List.isPrefixOf c!"H" after with
        | false => rfl
        | true =>
          simp only [if_true]
          by_cases hb : before = []
          · rw [v hb]
            subst hb
            simp only [List.reverse_nil, List.nil_append, List.length_cons, List.length_nil, beq_self_eq_true,
              Bool.true_and, true_and, Bool.and_eq_true, decide_eq_true_eq]
            by_cases h3 : 3 ≤ after.length
            · have h4 : after.length + 1 > 3 := by omega
              simp only [h3, h4, true_and]
              cases startsVowel (after.drop 1) <;> simp
            · have h4 : ¬ after.length + 1 > 3 := by omega
              simp [h3, h4]
          · have : (before.length == 0) = false := by
              rw [beq_eq_false_iff_ne]; exact fun e => hb (List.length_eq_zero_iff.mp e)
            simp [this, hb]

theorem caseD_eq (before after : Str) :
    caseD (before.reverse ++ 'D' :: after) (before.reverse ++ 'D' :: after).length before.length =
      (metaLetter before 'D' after,
        if c!"G" <+: after ∧ startsIn (after.drop 1) c!"EIY" then 2 else 0) := by
  unfold caseD
  have f := front_eq before 'D' after 1
  have l1 := last_eq before 'D' after 1 _ rfl
  have e : metaLetter before 'D' after =
    if c!"G" <+: after ∧ startsIn (after.drop 1) c!"EIY" then ['J'] else ['T'] := rfl
  rw [e]
  simp only [next_eq, f, l1, prefix1]
  cases hf : startsIn (after.drop 1) c!"EIY" with
  | false => simp
  | true =>
    have := startsIn_length hf
    rw [List.length_drop] at this
    have : (after.length == 1) = false := by rw [beq_eq_false_iff_ne]; omega
    rw [this]
    cases List.isPrefixOf c!"G" after <;> rfl

theorem caseG_eq (before after : Str) (h : AsciiStr (before.reverse ++ 'G' :: after))
    (hp : ¬ [('G' : Char)] <+: before) :
    caseG (before.reverse ++ 'G' :: after) (before.reverse ++ 'G' :: after).length before.length =
      .ok (metaLetter before 'G' after) := by
  unfold caseG
  have f := front_eq before 'G' after 0
  rw [List.drop_zero] at f
  have v := vowelAt_eq before 'G' after 1
  have l0 := last_eq before 'G' after 0 _ rfl
  rw [Nat.add_zero] at l0
  have l1 := last_eq before 'G' after 1 _ rfl
  have hp' : List.isPrefixOf c!"G" before = false := by
    rw [Bool.eq_false_iff, ne_eq, List.isPrefixOf_iff_prefix]; exact hp
  rw [region_eq before 'G' after h c!"GN" (by decide) (by decide),
    region_eq before 'G' after h c!"GNED" (by decide) (by decide)]
  simp only [prev_eq, next_eq, f, v, l0, l1, hp', bind, Except.bind, pure, Except.pure]
  have e : metaLetter before 'G' after =
    (if c!"H" <+: after ∧ ¬ startsVowel (after.drop 1) then []
     else if before ≠ [] ∧ c!"N" <+: after then []
     else if startsIn after c!"EIY" then ['J']
     else ['K']) := rfl
  rw [e]
  simp only [prefix1]
  have hN : List.isPrefixOf c!"GN" ('G' :: after) = List.isPrefixOf c!"N" after := rfl
  have hNED : List.isPrefixOf c!"GNED" ('G' :: after) = true → List.isPrefixOf c!"N" after = true := by
    intro h
    cases after with
    | nil => simp at h
    | cons a r => simp at h ⊢; exact h.1
  rw [hN]
  have hH : (((after.length == 1) && List.isPrefixOf c!"H" after) ||
      (!(after.length == 1) && List.isPrefixOf c!"H" after && !startsVowel (after.drop 1))) =
      (List.isPrefixOf c!"H" after && !startsVowel (after.drop 1)) := by
    cases h1 : (after.length == 1) with
    | false => simp
    | true =>
      have : after.length = 1 := by simpa using h1
      have hd : after.drop 1 = [] := List.drop_eq_nil_of_le (by omega)
      rw [hd]
      simp [startsVowel, startsIn]
  rw [hH]
  have hfl : startsIn after c!"EIY" = true → (after.length == 0) = false := by
    intro h; have := startsIn_length h; rw [beq_eq_false_iff_ne]; omega
  cases hh : (List.isPrefixOf c!"H" after && !startsVowel (after.drop 1)) with
  | true =>
    have : List.isPrefixOf c!"H" after = true ∧ ¬ startsVowel (after.drop 1) = true := by
      simpa using hh
    rw [if_pos this]; rfl
  | false =>
    have : ¬ (List.isPrefixOf c!"H" after = true ∧ ¬ startsVowel (after.drop 1) = true) := by
      rintro ⟨h1, h2⟩
      rw [h1] at hh
      simp at hh
      exact h2 (by simpa using hh)
    rw [if_neg this]
    simp only [Bool.false_eq_true, if_false]
    by_cases hb : before = []
    · subst hb
      simp only [List.length_nil, gt_iff_lt, Nat.lt_irrefl, if_false, ne_eq, not_true_eq_false,
        false_and, Bool.not_false, Bool.true_and]
      cases hf : startsIn after c!"EIY" with
      | false => simp
      | true => rw [hfl hf]; rfl
    · have hpos : before.length > 0 := List.length_pos_iff.mpr hb
      simp only [hpos, if_true, ne_eq, hb, not_false_eq_true, true_and]
      cases hn : List.isPrefixOf c!"N" after with
      | true => rfl
      | false =>
        have : List.isPrefixOf c!"GNED" ('G' :: after) = false := by
          rw [Bool.eq_false_iff]; intro h; rw [hNED h] at hn; cases hn
        rw [this]
        simp only [Bool.false_eq_true, if_false, Bool.not_false, Bool.true_and]
        cases hf : startsIn after c!"EIY" with
        | false => simp
        | true => rw [hfl hf]; rfl

theorem caseH_eq (before after : Str) :
    caseH (before.reverse ++ 'H' :: after) (before.reverse ++ 'H' :: after).length before.length =
      metaLetter before 'H' after := by
  unfold caseH
  have v := vowelAt_eq before 'H' after 0
  rw [List.drop_zero] at v
  have l0 := last_eq before 'H' after 0 _ rfl
  rw [Nat.add_zero] at l0
  rw [varson_eq, v, l0]
  have e : metaLetter before 'H' after =
    (if startsVowel after ∧ ¬ startsIn before c!"CSPTG" then ['H'] else []) := rfl
  rw [e]
  cases hv : startsVowel after with
  | false => simp
  | true =>
    have : (after.length == 0) = false := by
      have := startsIn_length hv; rw [beq_eq_false_iff_ne]; omega
    rw [this]
    cases startsIn before c!"CSPTG" <;> rfl

theorem caseS_eq (before after : Str) (h : AsciiStr (before.reverse ++ 'S' :: after)) :
    caseS (before.reverse ++ 'S' :: after) before.length = .ok (metaLetter before 'S' after) := by
  unfold caseS
  rw [region_eq before 'S' after h c!"SH" (by decide) (by decide),
    region_eq before 'S' after h c!"SIO" (by decide) (by decide),
    region_eq before 'S' after h c!"SIA" (by decide) (by decide)]
  have e : metaLetter before 'S' after =
    (if c!"H" <+: after ∨ c!"IO" <+: after ∨ c!"IA" <+: after then ['X'] else ['S']) := rfl
  rw [e]
  simp only [← List.isPrefixOf_iff_prefix, bind, Except.bind, pure, Except.pure]
  have h1 : List.isPrefixOf c!"SH" ('S' :: after) = List.isPrefixOf c!"H" after := rfl
  have h2 : List.isPrefixOf c!"SIO" ('S' :: after) = List.isPrefixOf c!"IO" after := rfl
  have h3 : List.isPrefixOf c!"SIA" ('S' :: after) = List.isPrefixOf c!"IA" after := rfl
  rw [h1, h2, h3]
  cases List.isPrefixOf c!"H" after <;> cases List.isPrefixOf c!"IO" after <;>
    cases List.isPrefixOf c!"IA" after <;> rfl

theorem caseT_eq (before after : Str) (h : AsciiStr (before.reverse ++ 'T' :: after)) :
    caseT (before.reverse ++ 'T' :: after) before.length = .ok (metaLetter before 'T' after) := by
  unfold caseT
  rw [region_eq before 'T' after h c!"TIA" (by decide) (by decide),
    region_eq before 'T' after h c!"TIO" (by decide) (by decide),
    region_eq before 'T' after h c!"TCH" (by decide) (by decide),
    region_eq before 'T' after h c!"TH" (by decide) (by decide)]
  have e : metaLetter before 'T' after =
    (if c!"IA" <+: after ∨ c!"IO" <+: after then ['X']
     else if c!"CH" <+: after then []
     else if c!"H" <+: after then ['0']
     else ['T']) := rfl
  rw [e]
  simp only [← List.isPrefixOf_iff_prefix, bind, Except.bind, pure, Except.pure]
  have h1 : List.isPrefixOf c!"TIA" ('T' :: after) = List.isPrefixOf c!"IA" after := rfl
  have h2 : List.isPrefixOf c!"TIO" ('T' :: after) = List.isPrefixOf c!"IO" after := rfl
  have h3 : List.isPrefixOf c!"TCH" ('T' :: after) = List.isPrefixOf c!"CH" after := rfl
  have h4 : List.isPrefixOf c!"TH" ('T' :: after) = List.isPrefixOf c!"H" after := rfl
  rw [h1, h2, h3, h4]
  cases List.isPrefixOf c!"IA" after <;> cases List.isPrefixOf c!"IO" after <;>
    cases List.isPrefixOf c!"CH" after <;> cases List.isPrefixOf c!"H" after <;> rfl


/-! ### One step of the loop -/

/-- The skip set by the letter `c`. -/
def newSkip (c : Char) (after : Str) : Nat :=
  if c = 'D' ∧ c!"G" <+: after ∧ startsIn (after.drop 1) c!"EIY" then 2 else 0

theorem symbol_eq (before : Str) (c : Char) (after : Str)
    (h : AsciiStr (before.reverse ++ c :: after)) (hp : c = 'C' ∨ ¬ [c] <+: before) :
    symbol (before.reverse ++ c :: after) (before.reverse ++ c :: after).length before.length c =
      .ok (metaLetter before c after, newSkip c after) := by
  have nd : c ≠ 'D' → newSkip c after = 0 := fun hc => by unfold newSkip; rw [if_neg (by simp [hc])]
  unfold symbol
  by_cases hv : c!"AEIOU".contains c = true
  · rw [if_pos hv, nd (by rintro rfl; revert hv; decide)]
    unfold metaLetter
    rw [if_pos hv]
    cases before <;> simp
  rw [if_neg hv]
  by_cases hB : c = 'B'
  · subst hB
    rw [if_pos rfl, nd (by decide)]
    have l0 := last_eq before 'B' after 0 _ rfl
    rw [Nat.add_zero] at l0
    have e : metaLetter before 'B' after = if c!"M" <+: before ∧ after = [] then [] else ['B'] := rfl
    rw [e, prev_eq, l0]
    simp only [prefix1]
    cases List.isPrefixOf c!"M" before <;> cases after <;> simp
  rw [if_neg hB]
  by_cases hC : c = 'C'
  · subst hC
    rw [if_pos rfl, nd (by decide), caseC_eq before after h]; rfl
  rw [if_neg hC]
  by_cases hD : c = 'D'
  · subst hD
    rw [if_pos rfl, caseD_eq before after]
    unfold newSkip
    simp
  rw [if_neg hD, nd hD]
  by_cases hG : c = 'G'
  · subst hG
    rw [if_pos rfl, caseG_eq before after h (hp.resolve_left (by decide))]; rfl
  rw [if_neg hG]
  by_cases hH : c = 'H'
  · subst hH
    rw [if_pos rfl, caseH_eq before after]
  rw [if_neg hH]
  by_cases hF : c!"FJLMNR".contains c = true
  · rw [if_pos hF]
    unfold metaLetter
    rw [if_neg hv, if_neg hB, if_neg hC, if_neg hD, if_neg hG, if_neg hH, if_pos hF]
  rw [if_neg hF]
  by_cases hK : c = 'K'
  · subst hK
    rw [if_pos rfl]
    have e : metaLetter before 'K' after = if c!"C" <+: before then [] else ['K'] := rfl
    rw [e, prev_eq]
    simp only [prefix1]
    cases before with
    | nil => simp
    | cons b bs => cases List.isPrefixOf c!"C" (b :: bs) <;> simp
  rw [if_neg hK]
  by_cases hP : c = 'P'
  · subst hP
    rw [if_pos rfl]
    have e : metaLetter before 'P' after = if c!"H" <+: after then ['F'] else ['P'] := rfl
    rw [e, next_eq]
    simp only [prefix1]
  rw [if_neg hP]
  by_cases hQ : c = 'Q'
  · subst hQ; rfl
  rw [if_neg hQ]
  by_cases hS : c = 'S'
  · subst hS
    rw [if_pos rfl, caseS_eq before after h]; rfl
  rw [if_neg hS]
  by_cases hT : c = 'T'
  · subst hT
    rw [if_pos rfl, caseT_eq before after h]; rfl
  rw [if_neg hT]
  by_cases hV : c = 'V'
  · subst hV; rfl
  rw [if_neg hV]
  by_cases hW : c = 'W' ∨ c = 'Y'
  · rw [if_pos hW]
    have l0 := last_eq before c after 0 _ rfl
    rw [Nat.add_zero] at l0
    have v := vowelAt_eq before c after 0
    rw [List.drop_zero] at v
    rw [l0, v]
    have e : metaLetter before c after = if startsVowel after then [c] else [] := by
      unfold metaLetter
      rw [if_neg hv, if_neg hB, if_neg hC, if_neg hD, if_neg hG, if_neg hH, if_neg hF, if_neg hK,
        if_neg hP, if_neg hQ, if_neg hS, if_neg hT, if_neg hV, if_pos hW]
    rw [e]
    cases hs : startsVowel after with
    | false => simp
    | true =>
      have : (after.length == 0) = false := by
        have := startsIn_length hs; rw [beq_eq_false_iff_ne]; omega
      rw [this]; rfl
  rw [if_neg hW]
  unfold metaLetter
  rw [if_neg hv, if_neg hB, if_neg hC, if_neg hD, if_neg hG, if_neg hH, if_neg hF, if_neg hK,
        if_neg hP, if_neg hQ, if_neg hS, if_neg hT, if_neg hV, if_neg hW]
  split
  · rfl
  · split <;> rfl

theorem plainD_cons (c : Char) (before : Str) :
    plainD (c :: before) = (c == 'D' && !(c!"D".isPrefixOf before)) := by
  unfold plainD
  by_cases hc : c = 'D'
  · subst hc; rfl
  · have : (c == 'D') = false := beq_eq_false_iff_ne.mpr hc
    have h2 : ('D' == c) = false := beq_eq_false_iff_ne.mpr (Ne.symm hc)
    simp [List.isPrefixOf, this, h2]

theorem absorbed_iff (before : Str) (c : Char) (after : Str) :
    metaAbsorbed before c after = decide (skipAt before (c :: after) ≠ 0) := by
  unfold metaAbsorbed skipAt
  have e1 : List.isPrefixOf c!"G" (c :: after) = (c == 'G') := by
    simp [List.isPrefixOf, BEq.comm]
  have e2 : startsIn (c :: after) c!"EIY" = c!"EIY".contains c := rfl
  rw [e1, e2, show List.drop 1 (c :: after) = after from rfl]
  have : c = 'G' → c!"EIY".contains c = false := by rintro rfl; decide
  cases h1 : plainD before <;> cases h2 : (c == 'G') <;> cases h3 : startsIn after c!"EIY" <;>
    cases h4 : c!"EIY".contains c <;> cases h5 : c!"GD".isPrefixOf before <;>
    cases h6 : plainD (before.drop 1) <;> rfl

theorem step_eq (before : Str) (c : Char) (after : Str)
    (h : AsciiStr (before.reverse ++ c :: after)) (hs : skipAt before (c :: after) = 0) :
    Metaphone.step (before.reverse ++ c :: after) (before.reverse ++ c :: after).length before.length c =
      .ok (if metaAbsorbed before c after ∨ (c ≠ 'C' ∧ [c] <+: before) then []
           else metaLetter before c after, skipAt (c :: before) after) := by
  have ha : metaAbsorbed before c after = false := by rw [absorbed_iff, hs]; rfl
  unfold Metaphone.step
  rw [prev_eq, ha]
  have second : (c!"GD".isPrefixOf (c :: before) && plainD before && startsIn after c!"EIY") = false := by
    rw [Bool.eq_false_iff]
    intro hx
    simp only [Bool.and_eq_true] at hx
    obtain ⟨⟨h1, h2⟩, h3⟩ := hx
    have hc : c = 'G' := by
      have := List.isPrefixOf_iff_prefix.mp h1
      rw [List.cons_prefix_cons] at this
      exact this.1.symm
    subst hc
    unfold skipAt at hs
    rw [if_pos (by simp [h2, h3, List.isPrefixOf])] at hs
    cases hs
  have hnew : skipAt (c :: before) after =
      if plainD (c :: before) && c!"G".isPrefixOf after && startsIn (after.drop 1) c!"EIY" then 2 else 0 := by
    unfold skipAt
    rw [show List.drop 1 (c :: before) = before from rfl, second]
    rfl
  rw [hnew, plainD_cons]
  by_cases hp : c = 'C' ∨ ¬ [c] <+: before
  · rw [if_pos (by rw [← prefix1]; exact hp), symbol_eq before c after h hp]
    rw [if_neg (by rintro (h | ⟨h1, h2⟩); cases h; exact hp.elim h1 (fun h => h h2))]
    congr 2
    unfold newSkip
    simp only [prefix1]
    by_cases hD : c = 'D'
    · subst hD
      have : List.isPrefixOf c!"D" before = false := by
        rw [Bool.eq_false_iff, ne_eq, List.isPrefixOf_iff_prefix]
        exact hp.resolve_left (by decide)
      rw [this]
      simp
    · have : (c == 'D') = false := beq_eq_false_iff_ne.mpr hD
      simp [hD, this]
  · rw [if_neg (by rw [← prefix1]; exact hp)]
    simp only [not_or, Classical.not_not] at hp
    rw [if_pos (Or.inr hp)]
    congr 2
    by_cases hD : c = 'D'
    · subst hD
      rw [(prefix1 _ _).mp hp.2]; rfl
    · have : (c == 'D') = false := beq_eq_false_iff_ne.mpr hD
      rw [this]; rfl

theorem skip_step (before : Str) (c : Char) (after : Str) (hs : skipAt before (c :: after) ≠ 0) :
    skipAt (c :: before) after = skipAt before (c :: after) - 1 := by
  unfold skipAt at hs ⊢
  rw [show List.drop 1 (c :: after) = after from rfl, show List.drop 1 (c :: before) = before from rfl] at *
  by_cases h1 : (plainD before && c!"G".isPrefixOf (c :: after) && startsIn after c!"EIY") = true
  · rw [if_pos h1]
    simp only [Bool.and_eq_true] at h1
    obtain ⟨⟨a1, a2⟩, a3⟩ := h1
    have hc : c = 'G' := by
      have := List.isPrefixOf_iff_prefix.mp a2
      rw [List.cons_prefix_cons] at this
      exact this.1.symm
    subst hc
    rw [plainD_cons, if_neg (by simp)]
    have : c!"GD".isPrefixOf ('G' :: before) = true := by
      unfold plainD at a1
      simp only [Bool.and_eq_true] at a1
      exact a1.1
    rw [this, a1, a3]; rfl
  · rw [if_neg h1] at hs ⊢
    by_cases h2 : (c!"GD".isPrefixOf before && plainD (before.drop 1) && startsIn (c :: after) c!"EIY") = true
    · rw [if_pos h2]
      simp only [Bool.and_eq_true] at h2
      have hc : c!"EIY".contains c = true := h2.2
      have n1 : (c == 'D') = false := by
        rw [beq_eq_false_iff_ne]; rintro rfl; revert hc; decide
      have n2 : ('G' == c) = false := by
        rw [beq_eq_false_iff_ne]; rintro rfl; revert hc; decide
      rw [plainD_cons, n1]
      simp [List.isPrefixOf, n2]
    · rw [if_neg h2] at hs
      exact absurd rfl hs

/-! ### The unlimited loop -/

theorem loop_unlimited (after before code : Str) (h : AsciiStr (before.reverse ++ after)) :
    loop none (before.reverse ++ after) (before.reverse ++ after).length after before.length
      (skipAt before after) code = .ok (code ++ metaCodes before after) := by
  induction after generalizing before code with
  | nil => simp [loop, metaCodes]
  | cons c after ih =>
    have e : before.reverse ++ c :: after = (c :: before).reverse ++ after := by simp
    unfold loop
    by_cases hs : skipAt before (c :: after) = 0
    · rw [if_pos hs, if_neg (by simp)]
      have := step_eq before c after h hs
      rw [this]
      simp only [bind, Except.bind, truncate]
      rw [e, show before.length + 1 = (c :: before).length from rfl, ih (c :: before) _ (e ▸ h)]
      simp only [metaCodes, List.append_assoc]
    · rw [if_neg hs, ← skip_step before c after hs, e,
        show before.length + 1 = (c :: before).length from rfl, ih (c :: before) _ (e ▸ h)]
      rw [metaCodes, absorbed_iff]
      rw [if_pos (Or.inl (by simpa using hs))]
      rfl

theorem initial_eq (w : Str) : initial w = metaInitial w := by
  unfold initial metaInitial
  cases w with
  | nil => decide
  | cons c rest =>
    have hx : ∀ (x y : Char), ([x, y] <+: c :: rest) ↔ x = c ∧ rest.head? = some y := by
      intro x y
      rw [List.cons_prefix_cons]
      cases rest <;> simp [eq_comm]
    have hx1 : ∀ x : Char, ([x] <+: c :: rest) ↔ x = c := by
      intro x; rw [List.cons_prefix_cons]; simp
    simp only [hx, hx1]
    by_cases h1 : c = 'K' ∨ c = 'G' ∨ c = 'P'
    · rw [if_pos h1]
      rcases h1 with rfl | rfl | rfl <;> simp
    · rw [if_neg h1]
      simp only [not_or] at h1
      by_cases h2 : c = 'A'
      · subst h2; simp
      · rw [if_neg h2]
        by_cases h3 : c = 'W'
        · subst h3
          by_cases hr : rest.head? = some 'R'
          · simp [hr]
          · by_cases hh : rest.head? = some 'H'
            · simp [hh]
            · simp [hr, hh]
        · rw [if_neg h3]
          by_cases h4 : c = 'X'
          · subst h4; simp
          · rw [if_neg h4, if_neg, if_neg, if_neg]
            · exact fun e => h4 e.symm
            · exact fun e => h3 e.1.symm
            · rintro (h | h | h | h | h)
              · exact h1.1 h.1.symm
              · exact h1.2.1 h.1.symm
              · exact h1.2.2 h.1.symm
              · exact h2 h.1.symm
              · exact h3 h.1.symm

/-! ### What a letter pushes -/

/-- The characters of a Metaphone code. -/
def metaAlphabet : Str := c!"BXSKJTFHLMNPR0WY"

theorem metaLetter_alphabet (before : Str) (c : Char) (after : Str) :
    (∀ x ∈ metaLetter before c after, metaAlphabet.contains x = true) ∨
      (before = [] ∧ c!"AEIOU".contains c = true ∧ metaLetter before c after = [c]) := by
  let M : Str → Prop := fun w => ∀ x ∈ w, metaAlphabet.contains x = true
  have one : ∀ (l : Str), l.all (metaAlphabet.contains ·) = true → M l :=
    fun l hl x hx => List.all_eq_true.mp hl x hx
  have hF : ∀ c, c!"FJLMNR".contains c = true → M [c] := by
    intro c hc
    have : ∀ c ∈ c!"FJLMNR", [c].all (metaAlphabet.contains ·) = true := by decide
    exact one _ (this c (List.contains_iff_mem.mp hc))
  have hW : ∀ c, c = 'W' ∨ c = 'Y' → M [c] := by
    rintro c (rfl | rfl) <;> exact one _ rfl
  by_cases hv : c!"AEIOU".contains c = true
  · unfold metaLetter
    rw [if_pos hv]
    by_cases hb : before = []
    · rw [if_pos hb]; exact .inr ⟨hb, hv, rfl⟩
    · rw [if_neg hb]; exact .inl (one _ rfl)
  · left
    show M (metaLetter before c after)
    unfold metaLetter
    rw [if_neg hv]
    repeat' first
      | exact one _ rfl
      | exact hF _ (by assumption)
      | exact hW _ (by assumption)
      | refine ite_ind M (fun _ => ?_) (fun _ => ?_)

/-- The characters pushed are always ASCII, for every text. -/
theorem step_ascii (l : Str) (wdsz index : Nat) (c : Char) :
    Returns (fun r : Str × Nat => AsciiStr r.1) (Metaphone.step l wdsz index c) := by
  have one : ∀ (w : Str), w.all isAscii = true → Returns AsciiStr (.ok w) :=
    fun l hl => returns_ok fun x hx => List.all_eq_true.mp hl x hx
  have hC : Returns AsciiStr (caseC l wdsz index) := by
    unfold caseC
    repeat' first
      | exact one _ rfl
      | refine returns_bind fun _ => ?_
      | refine ite_ind (Returns AsciiStr) (fun _ => ?_) (fun _ => ?_)
  have hG : Returns AsciiStr (caseG l wdsz index) := by
    unfold caseG
    repeat' first
      | exact one _ rfl
      | refine returns_bind fun _ => ?_
      | refine ite_ind (Returns AsciiStr) (fun _ => ?_) (fun _ => ?_)
  have hS : Returns AsciiStr (caseS l index) := by
    unfold caseS
    repeat' first
      | exact one _ rfl
      | refine returns_bind fun _ => ?_
      | refine ite_ind (Returns AsciiStr) (fun _ => ?_) (fun _ => ?_)
  have hT : Returns AsciiStr (caseT l index) := by
    unfold caseT
    repeat' first
      | exact one _ rfl
      | refine returns_bind fun _ => ?_
      | refine ite_ind (Returns AsciiStr) (fun _ => ?_) (fun _ => ?_)
  have all : ∀ w : Str, w.all isAscii = true → AsciiStr w :=
    fun w hw x hx => List.all_eq_true.mp hw x hx
  have hH : AsciiStr (caseH l wdsz index) := by
    unfold caseH
    repeat' first
      | exact all _ rfl
      | refine ite_ind AsciiStr (fun _ => ?_) (fun _ => ?_)
  have hD : AsciiStr (caseD l wdsz index).1 := by
    unfold caseD
    refine ite_ind (fun r : Str × Nat => AsciiStr r.1) (fun _ => ?_) (fun _ => ?_) <;> exact all _ rfl
  have hF : ∀ {w : Str}, w.all isAscii = true → w.contains c = true → AsciiStr [c] := by
    intro w hw hc x hx
    rw [List.mem_singleton] at hx
    subst hx
    exact all _ hw _ (List.contains_iff_mem.mp hc)
  have hE : ∀ {d : Char}, isAscii d = true → c = d → AsciiStr [c] := by
    rintro d hd rfl x hx
    rw [List.mem_singleton] at hx
    exact hx ▸ hd
  let M := Returns (fun r : Str × Nat => AsciiStr r.1)
  unfold Metaphone.step symbol
  refine ite_ind M (fun _ => ?_) (fun _ => returns_ok (all _ rfl))
  refine ite_ind M (fun h => returns_ok (ite_ind AsciiStr (fun _ => hF rfl h) (fun _ => all _ rfl))) (fun _ => ?_)
  refine ite_ind M (fun h => returns_ok (ite_ind AsciiStr (fun _ => hE rfl h) (fun _ => all _ rfl))) (fun _ => ?_)
  refine ite_ind M (fun _ => returns_bind' hC fun a h => returns_ok h) (fun _ => ?_)
  refine ite_ind M (fun _ => returns_ok hD) (fun _ => ?_)
  refine ite_ind M (fun _ => returns_bind' hG fun a h => returns_ok h) (fun _ => ?_)
  refine ite_ind M (fun _ => returns_ok hH) (fun _ => ?_)
  refine ite_ind M (fun h => returns_ok (hF rfl h)) (fun _ => ?_)
  refine ite_ind M (fun h => returns_ok (ite_ind AsciiStr (fun _ => hE rfl h) (fun _ => all _ rfl))) (fun _ => ?_)
  refine ite_ind M (fun h => returns_ok (ite_ind AsciiStr (fun _ => all _ rfl) (fun _ => hE rfl h))) (fun _ => ?_)
  refine ite_ind M (fun _ => returns_ok (all _ rfl)) (fun _ => ?_)
  refine ite_ind M (fun _ => returns_bind' hS fun a h => returns_ok h) (fun _ => ?_)
  refine ite_ind M (fun _ => returns_bind' hT fun a h => returns_ok h) (fun _ => ?_)
  refine ite_ind M (fun _ => returns_ok (all _ rfl)) (fun _ => ?_)
  refine ite_ind M (fun h => returns_ok (ite_ind AsciiStr (fun _ => h.elim (hE rfl) (hE rfl)) (fun _ => all _ rfl)))
    (fun _ => ?_)
  refine ite_ind M (fun _ => returns_ok (all _ rfl)) (fun _ => ?_)
  exact ite_ind M (fun _ => returns_ok (all _ rfl)) (fun _ => returns_ok (all _ rfl))

/-! ### Limits -/

/-- `n` is not above the limit `max`. -/
def AtMost (n : Nat) (max : Option Nat) : Prop := ∀ m, max = some m → n ≤ m

theorem truncate_some {code : Str} (h : AsciiStr code) (n : Nat) :
    truncate (some n) code = .ok (code.take n) := by
  unfold truncate
  simp only
  rw [byteLen_ascii h]
  split
  · rw [sliceTo_ascii h (by omega)]
  · rw [List.take_of_length_le (by omega)]

/-- A limited run starting from the truncated code returns the truncation of what a run with a higher
limit returns. -/
theorem loop_limit (n : Nat) (max : Option Nat) (hm : AtMost n max) (l : Str) (wdsz : Nat)
    (rest : Str) (index skip : Nat) (code c : Str) (ha : AsciiStr code) (hc : AtMost code.length max)
    (h : loop max l wdsz rest index skip code = .ok c) :
    loop (some n) l wdsz rest index skip (code.take n) = .ok (c.take n) ∧ code <+: c ∧ AsciiStr c ∧
      AtMost c.length max := by
  induction rest generalizing index skip code with
  | nil =>
    unfold loop at h ⊢
    cases h
    exact ⟨rfl, List.prefix_refl _, ha, hc⟩
  | cons symb rest ih =>
    unfold loop at h ⊢
    by_cases hs : skip = 0
    · rw [if_pos hs] at h ⊢
      have ht : AsciiStr (code.take n) := ha.sublist (List.take_sublist _ _)
      rw [byteLen_ascii ht, List.length_take]
      by_cases hstop : max = some (byteLen code)
      · rw [if_pos hstop] at h
        cases h
        have := hm _ hstop
        rw [byteLen_ascii ha] at this
        rw [if_pos (by rw [Nat.min_eq_left this])]
        exact ⟨rfl, List.prefix_refl _, ha, hc⟩
      · rw [if_neg hstop] at h
        cases hst : Metaphone.step l wdsz index symb with
        | error e => rw [hst] at h; cases h
        | ok r =>
          obtain ⟨p, k⟩ := r
          have hp : AsciiStr p := step_ascii l wdsz index symb _ hst
          rw [hst] at h
          simp only [bind, Except.bind] at h ⊢
          have hcp : AsciiStr (code ++ p) := asciiStr_append.mpr ⟨ha, hp⟩
          -- the code after the step of the larger run
          obtain ⟨code', hcode', e1, e2, e3⟩ : ∃ code', truncate max (code ++ p) = .ok code' ∧
              code'.take n = (code ++ p).take n ∧ code <+: code' ∧
              (AsciiStr code' ∧ AtMost code'.length max) := by
            cases hmax : max with
            | none => exact ⟨code ++ p, rfl, rfl, List.prefix_append _ _, hcp, fun m h => by cases h⟩
            | some m =>
              refine ⟨_, truncate_some hcp m, ?_, ?_, hcp.sublist (List.take_sublist _ _), ?_⟩
              · rw [List.take_take, Nat.min_eq_left (hm m hmax)]
              · rw [List.prefix_take_iff]
                exact ⟨List.prefix_append _ _, hc m hmax⟩
              · intro m' hm'
                cases hm'
                rw [List.length_take]
                omega
          rw [hcode'] at h
          simp only at h
          obtain ⟨r1, r2, r3, r4⟩ := ih (index + 1) k code' e3.1 e3.2 h
          refine ⟨?_, e2.trans r2, r3, r4⟩
          by_cases hn : n ≤ code.length
          · rw [if_pos (by rw [Nat.min_eq_left hn])]
            have := (e2.trans r2)
            obtain ⟨t, rfl⟩ := this
            rw [List.take_append_of_le_length hn]
          · rw [if_neg (by simp only [Option.some.injEq]; omega)]
            rw [List.take_of_length_le (Nat.le_of_lt (Nat.lt_of_not_le hn)), truncate_some hcp n]
            simp only
            rw [← e1]
            exact r1
    · rw [if_neg hs] at h ⊢
      exact ih (index + 1) (skip - 1) code ha hc h

theorem loop_bound (n : Nat) (l : Str) (wdsz : Nat) (rest : Str) (c : Str)
    (h : loop (some n) l wdsz rest 0 0 [] = .ok c) : AsciiStr c ∧ c.length ≤ n := by
  have := loop_limit n (some n) (fun m h => by cases h; exact Nat.le_refl _) l wdsz rest 0 0 [] c
    AsciiStr.nil (fun m h => by simp) h
  exact ⟨this.2.2.1, this.2.2.2 n rfl⟩

end MetaphoneProofs

open MetaphoneProofs

/-- C24. The code with limit `n` is the first `n` characters of the code with any higher limit or with
no limit, for every text on which the latter returns (Unicode texts included). Only a text whose upper
case is a single byte is exempt from every limit. -/
theorem metaphone_truncation (U : Unicode) (s : Str) (n : Nat) (max : Option Nat)
    (hm : ∀ m, max = some m → n ≤ m) (c : Str) (h1 : byteLen (U.strUpper s) ≠ 1)
    (h : (Metaphone.new max).encode U s = .ok c) :
    (Metaphone.new (some n)).encode U s = .ok (c.take n) := by
  unfold Metaphone.encode Metaphone.new at h ⊢
  simp only [h1, if_false] at h ⊢
  have := (loop_limit n max hm _ _ _ 0 0 [] c AsciiStr.nil (fun m _ => by simp) h).1
  rwa [List.take_nil] at this

/-- C23. With a limit of `n` the code has at most `n` characters, all of them ASCII. -/
theorem metaphone_limit (U : Unicode) (s : Str) (n : Nat) (c : Str) (h1 : byteLen (U.strUpper s) ≠ 1)
    (h : (Metaphone.new (some n)).encode U s = .ok c) : c.length ≤ n ∧ byteLen c ≤ n := by
  unfold Metaphone.encode Metaphone.new at h
  simp only [h1, if_false] at h
  obtain ⟨ha, hl⟩ := loop_bound n _ _ _ c h
  exact ⟨hl, by rw [byteLen_ascii ha]; exact hl⟩

/-- C23. A text whose upper case is one byte is its own code whatever the limit; with a limit of 0
that is the only way to exceed the limit. -/
theorem metaphone_one_letter (U : Unicode) (max : Option Nat) (s : Str)
    (h1 : byteLen (U.strUpper s) = 1) : (Metaphone.new max).encode U s = .ok (U.strUpper s) := by
  unfold Metaphone.encode
  simp [h1]

/-- C23. The exception is real: the code of "a" with limit 0 has one character. -/
theorem metaphone_limit_zero_exceeded :
    (Metaphone.new (some 0)).encode .latin1 c!"a" = .ok c!"A" := by decide +kernel

example : (Metaphone.new (some 4)).encode .latin1 c!"Thumb" = .ok c!"0M" ∧
    (Metaphone.new (some 4)).encode .latin1 c!"testingü" = .ok c!"TSTN" ∧
    (Metaphone.new none).encode .latin1 c!"testingü" = .ok c!"TSTNK" := by decide +kernel

/-- C49. On ASCII words the code is given by the position-wise table, cut to the limit (except that a single character
is not cut by the limit 0: `metaphone_one_letter`). -/
theorem metaphone_eq_spec (U : Unicode) (s : Str) (h : AsciiStr s) :
    (Metaphone.new none).encode U s = .ok (metaphone (s.map asciiUpper)) ∧
    ∀ n, s.length ≠ 1 ∨ n ≠ 0 →
      (Metaphone.new (some n)).encode U s = .ok ((metaphone (s.map asciiUpper)).take n) := by
  have hu := strUpper_ascii U h
  have hb : byteLen (U.strUpper s) = s.length := by
    rw [byteLen_ascii (asciiStr_strUpper U h), hu, List.length_map]
  have first : (Metaphone.new none).encode U s = .ok (metaphone (s.map asciiUpper)) := by
    unfold Metaphone.encode metaphone
    simp only
    rw [hb, List.length_map, hu, initial_eq]
    split
    · rfl
    · have ha : AsciiStr (metaInitial (s.map asciiUpper)) := by
        have h0 : AsciiStr (s.map asciiUpper) := hu ▸ asciiStr_strUpper U h
        unfold metaInitial
        refine ite_ind AsciiStr (fun _ => h0.sublist (List.drop_sublist _ _)) fun _ => ?_
        refine ite_ind AsciiStr (fun _ => asciiStr_append.mpr ⟨by decide, h0.sublist (List.drop_sublist _ _)⟩)
          fun _ => ?_
        exact ite_ind AsciiStr (fun _ => asciiStr_append.mpr ⟨by decide, h0.sublist (List.drop_sublist _ _)⟩)
          fun _ => h0
      have := loop_unlimited (metaInitial (s.map asciiUpper)) [] [] ha
      rw [byteLen_ascii ha]
      have hz : ∀ w, skipAt [] w = 0 := fun w => by simp [skipAt, plainD]
      rw [hz] at this
      simpa [Metaphone.new] using this
  refine ⟨first, fun n h1 => ?_⟩
  by_cases hl : s.length = 1
  · have h1' : byteLen (U.strUpper s) = 1 := by rw [hb]; exact hl
    have hx := metaphone_one_letter U none s h1'
    have he : U.strUpper s = metaphone (s.map asciiUpper) := Except.ok.inj (hx.symm.trans first)
    rw [metaphone_one_letter U (some n) s h1', ← he, hu, List.take_of_length_le]
    rw [List.length_map]
    have : n ≠ 0 := h1.resolve_left (fun h => h hl)
    omega
  · exact metaphone_truncation U s n none (fun m h => by cases h) _ (by rw [hb]; exact hl) first

example : AsciiStr c!"Knowledge" ∧ metaphone (c!"Knowledge".map asciiUpper) = c!"NLJ" ∧
    metaphone c!"SCHEDULE" = c!"SKTL" ∧ metaphone c!"XAVIER" = c!"SFR" ∧
    metaphone c!"ACCIDENT" = c!"AKSTNT" := by decide +kernel

/-- C25. On ASCII words `encode` always returns; unless the word is a single character, its code uses
only the letters `BXSKJTFHLMNPR0WY`, apart from a vowel in first position. -/
theorem metaphone_ascii (U : Unicode) (max : Option Nat) (s : Str) (h : AsciiStr s) :
    ∃ c, (Metaphone.new max).encode U s = .ok c ∧
      (s.length ≠ 1 → ∀ i x, c[i]? = some x →
        c!"BXSKJTFHLMNPR0WY".contains x = true ∨ (i = 0 ∧ c!"AEIOU".contains x = true)) := by
  have key : ∀ before after : Str, ∀ i x, (metaCodes before after)[i]? = some x →
      metaAlphabet.contains x = true ∨ (i = 0 ∧ before = [] ∧ c!"AEIOU".contains x = true) := by
    intro before after
    induction after generalizing before with
    | nil => intro i x hx; simp [metaCodes] at hx
    | cons c after ih =>
      intro i x hx
      rw [metaCodes] at hx
      have hl : ∀ j y, (if metaAbsorbed before c after ∨ (c ≠ 'C' ∧ [c] <+: before) then []
          else metaLetter before c after)[j]? = some y → metaAlphabet.contains y = true ∨
            (j = 0 ∧ before = [] ∧ c!"AEIOU".contains y = true) := by
        refine ite_ind (fun w : Str => ∀ j y, w[j]? = some y → metaAlphabet.contains y = true ∨
            (j = 0 ∧ before = [] ∧ c!"AEIOU".contains y = true)) (fun _ j y hy => by simp at hy)
          (fun _ j y hy => ?_)
        rcases metaLetter_alphabet before c after with h | ⟨hb, hv, he⟩
        · exact .inl (h y (List.mem_of_getElem? hy))
        · rw [he] at hy
          cases j with
          | zero => simp at hy; exact .inr ⟨rfl, hb, hy ▸ hv⟩
          | succ j => simp at hy
      generalize (if metaAbsorbed before c after ∨ (c ≠ 'C' ∧ [c] <+: before) then []
          else metaLetter before c after) = w at hx hl
      rw [List.getElem?_append] at hx
      split at hx
      · exact hl i x hx
      · rcases ih (c :: before) _ _ hx with h | h
        · exact .inl h
        · exact absurd h.2.1 (by simp)
  have full : ∀ w : Str, w.length ≠ 1 → ∀ i x, (metaphone w)[i]? = some x →
      metaAlphabet.contains x = true ∨ (i = 0 ∧ c!"AEIOU".contains x = true) := by
    intro w hw i x hx
    unfold metaphone at hx
    rw [if_neg hw] at hx
    rcases key [] _ i x hx with h | h
    · exact .inl h
    · exact .inr ⟨h.1, h.2.2⟩
  cases max with
  | none =>
    refine ⟨_, (metaphone_eq_spec U s h).1, fun h1 => full _ (by simpa using h1)⟩
  | some n =>
    by_cases h1 : s.length = 1
    · refine ⟨_, metaphone_one_letter U (some n) s ?_, fun h => absurd h1 h⟩
      rw [byteLen_ascii (asciiStr_strUpper U h), strUpper_ascii U h, List.length_map, h1]
    · refine ⟨_, (metaphone_eq_spec U s h).2 n (.inl h1), fun _ i x hx => ?_⟩
      rw [List.getElem?_take] at hx
      split at hx
      · exact full _ (by simpa using h1) i x hx
      · cases hx

/-- C25. Outside ASCII, `encode` can panic (a character index is used as a byte offset). -/
theorem metaphone_panics : Metaphone.default.encode .latin1 c!"és" = .error .slice := by decide +kernel

/-- C25. The code of an ASCII word does not depend on case. -/
theorem metaphone_case_insensitive (U : Unicode) (max : Option Nat) (s t : Str) (hs : AsciiStr s)
    (ht : AsciiStr t) (h : s.map asciiUpper = t.map asciiUpper) :
    (Metaphone.new max).encode U s = (Metaphone.new max).encode U t := by
  unfold Metaphone.encode
  rw [strUpper_ascii U hs, strUpper_ascii U ht, h]

end Verif.Props
