import Verif.Props.Metaphone
/-!
# Metaphone on every text (C76)
-/

set_option linter.unusedSimpArgs false

namespace Verif.Props
open Spec

namespace MetaphoneProofs
open Metaphone

/-- A panic is a slice inside a character. -/
def orPanic {α : Type} : Option α → Res α
  | some a => .ok a
  | none => .error .slice

theorem ascii_of_byteLen {w : Str} (h : byteLen w = w.length) : AsciiStr w := byteLen_eq_length_iff.mp h

section Context
variable (before : Str) (c : Char) (after : Str)

theorem len_word : (before.reverse ++ c :: after).length = before.length + after.length + 1 := by
  simp; omega

theorem lastU_zero : isLastChar (byteLen (before.reverse ++ c :: after)) before.length =
    decide (after = [] ∧ AsciiStr (before.reverse ++ c :: after)) := by
  have h1 := length_le_byteLen (before.reverse ++ c :: after)
  rw [len_word] at h1
  unfold isLastChar
  rw [Bool.eq_iff_iff, beq_iff_eq, decide_eq_true_eq]
  constructor
  · intro h
    have h0 : after.length = 0 := by omega
    refine ⟨List.length_eq_zero_iff.mp h0, ascii_of_byteLen ?_⟩
    rw [len_word]; omega
  · rintro ⟨h0, ha⟩
    rw [byteLen_ascii ha, len_word, h0]
    rfl

theorem lastU_front (h : after ≠ []) : isLastChar (byteLen (before.reverse ++ c :: after)) before.length = false := by
  rw [lastU_zero]; simp [h]

theorem lastU_one (h : isLastChar (byteLen (before.reverse ++ c :: after)) (before.length + 1) = true) :
    after.length ≤ 1 := by
  have h1 := length_le_byteLen (before.reverse ++ c :: after)
  rw [len_word] at h1
  unfold isLastChar at h
  rw [beq_iff_eq] at h
  omega

theorem regionU (w : Str) (i : Nat) (test : Str) (ht : AsciiStr test) (hne : test ≠ []) :
    regionMatch w i test = if byteLen w < i + test.length then .ok false
      else orPanic ((fromByte w i).map fun part => test.isPrefixOf part) := by
  have hpos : 0 < test.length := List.length_pos_iff.mpr hne
  unfold regionMatch fromByte
  rw [byteLen_ascii ht]
  by_cases h : byteLen w < i + test.length
  · rw [if_pos h, if_neg (by omega)]; rfl
  · rw [if_neg h, if_pos (by omega)]
    unfold sliceFrom
    cases splitAtByte i w with
    | none => rfl
    | some p => rfl

/-- The same without looking at the length, if there is something to read. -/
theorem regionU_some (w part : Str) (i : Nat) (hp : fromByte w i = some part) (test : Str) (ht : AsciiStr test)
    (hne : test ≠ []) : regionMatch w i test = .ok (test.isPrefixOf part) := by
  rw [regionU w i test ht hne, hp]
  by_cases h : byteLen w < i + test.length
  · rw [if_pos h]
    congr 1
    symm
    rw [Bool.eq_false_iff]
    intro hx
    unfold fromByte at hp
    cases hs : splitAtByte i w with
    | none => rw [hs] at hp; cases hp
    | some q =>
      obtain ⟨a, b⟩ := q
      rw [hs] at hp
      obtain ⟨rfl, h2⟩ := splitAtByte_some hs
      simp only [Option.map_some, Option.some.injEq] at hp
      subst hp
      have := (List.isPrefixOf_iff_prefix.mp hx).length_le
      have := length_le_byteLen b
      rw [byteLen_append] at h
      omega
  · rw [if_neg h]; rfl

end Context

theorem fromByte_none_long {before after : Str} {c : Char}
    (hp : fromByte (before.reverse ++ c :: after) before.length = none) :
    before.length + 2 ≤ byteLen (before.reverse ++ c :: after) := by
  have h1 := length_le_byteLen (before.reverse ++ c :: after)
  rw [len_word] at h1
  refine Classical.byContradiction fun h => ?_
  have h2 : byteLen (before.reverse ++ c :: after) = (before.reverse ++ c :: after).length := by
    rw [len_word]; omega
  have ha := ascii_of_byteLen h2
  unfold fromByte at hp
  rw [splitAtByte_ascii ha (by rw [len_word]; omega)] at hp
  cases hp

theorem caseS_any (before after : Str) :
    caseS (before.reverse ++ 'S' :: after) before.length =
      orPanic (metaLetterAt (before.reverse ++ 'S' :: after) before 'S' after) := by
  have e : metaLetterAt (before.reverse ++ 'S' :: after) before 'S' after =
      (fromByte (before.reverse ++ 'S' :: after) before.length).map fun part =>
        if c!"SH" <+: part ∨ c!"SIO" <+: part ∨ c!"SIA" <+: part then ['X'] else ['S'] := rfl
  rw [e]
  unfold caseS
  cases hp : fromByte (before.reverse ++ 'S' :: after) before.length with
  | none =>
    have hl := fromByte_none_long hp
    rw [regionU _ _ c!"SH" (by decide) (by decide), if_neg (by simp only [List.length_cons, List.length_nil]; omega), hp]
    rfl
  | some part =>
    rw [regionU_some _ part _ hp c!"SH" (by decide) (by decide), regionU_some _ part _ hp c!"SIO" (by decide) (by decide),
      regionU_some _ part _ hp c!"SIA" (by decide) (by decide)]
    simp only [← List.isPrefixOf_iff_prefix, bind, Except.bind, pure, Except.pure, Option.map_some, orPanic]
    cases List.isPrefixOf c!"SH" part <;> cases List.isPrefixOf c!"SIO" part <;>
      cases List.isPrefixOf c!"SIA" part <;> rfl

theorem caseT_any (before after : Str) :
    caseT (before.reverse ++ 'T' :: after) before.length =
      orPanic (metaLetterAt (before.reverse ++ 'T' :: after) before 'T' after) := by
  have e : metaLetterAt (before.reverse ++ 'T' :: after) before 'T' after =
      (fromByte (before.reverse ++ 'T' :: after) before.length).map fun part =>
        if c!"TIA" <+: part ∨ c!"TIO" <+: part then ['X']
        else if c!"TCH" <+: part then []
        else if c!"TH" <+: part then ['0']
        else ['T'] := rfl
  rw [e]
  unfold caseT
  cases hp : fromByte (before.reverse ++ 'T' :: after) before.length with
  | none =>
    have hl := fromByte_none_long hp
    rw [regionU _ _ c!"TIA" (by decide) (by decide), regionU _ _ c!"TIO" (by decide) (by decide),
      regionU _ _ c!"TCH" (by decide) (by decide), regionU _ _ c!"TH" (by decide) (by decide), hp]
    simp only [List.length_cons, List.length_nil, Nat.reduceAdd, Option.map_none]
    rw [if_neg (show ¬ byteLen (before.reverse ++ 'T' :: after) < before.length + 2 by omega)]
    by_cases h3 : byteLen (before.reverse ++ 'T' :: after) < before.length + 3
    · simp only [h3, if_true, bind, Except.bind, Bool.false_eq_true, if_false]; rfl
    · simp only [h3, if_false, bind, Except.bind]; rfl
  | some part =>
    rw [regionU_some _ part _ hp c!"TIA" (by decide) (by decide), regionU_some _ part _ hp c!"TIO" (by decide) (by decide),
      regionU_some _ part _ hp c!"TCH" (by decide) (by decide), regionU_some _ part _ hp c!"TH" (by decide) (by decide)]
    simp only [← List.isPrefixOf_iff_prefix, bind, Except.bind, pure, Except.pure, Option.map_some, orPanic]
    cases List.isPrefixOf c!"TIA" part <;> cases List.isPrefixOf c!"TIO" part <;>
      cases List.isPrefixOf c!"TCH" part <;> cases List.isPrefixOf c!"TH" part <;> rfl

theorem caseC_any (before after : Str) :
    caseC (before.reverse ++ 'C' :: after) (byteLen (before.reverse ++ 'C' :: after)) before.length =
      orPanic (metaLetterAt (before.reverse ++ 'C' :: after) before 'C' after) := by
  have f := front_eq before 'C' after 0
  rw [List.drop_zero] at f
  have v : before = [] → isVowelAt (before.reverse ++ 'C' :: after) 2 = startsVowel (after.drop 1) := by
    intro hb
    have := vowelAt_eq before 'C' after 1
    rw [hb] at this ⊢
    exact this
  have hfl : startsIn after c!"EIY" = true →
      isLastChar (byteLen (before.reverse ++ 'C' :: after)) before.length = false := by
    intro h
    apply lastU_front
    rintro rfl
    cases h
  -- the tests after that of CIA
  have other : (if (!isLastChar (byteLen (before.reverse ++ 'C' :: after)) before.length &&
        isFrontV (before.reverse ++ 'C' :: after)[before.length + 1]?) = true then (Except.ok ['S'] : Res Str)
      else if (isPreviousChar (before.reverse ++ 'C' :: after) before.length 'S' &&
        isNextChar (before.reverse ++ 'C' :: after) before.length 'H') = true then .ok ['K']
      else if isNextChar (before.reverse ++ 'C' :: after) before.length 'H' = true then
        if (before.length == 0 && decide (byteLen (before.reverse ++ 'C' :: after) > 3) &&
            isVowelAt (before.reverse ++ 'C' :: after) 2) = true then .ok ['K'] else .ok ['X']
      else .ok ['K']) =
      .ok (if startsIn after c!"EIY" then ['S']
        else if c!"H" <+: after then
          (if c!"S" <+: before then ['K']
           else if before = [] ∧ 3 ≤ after.length ∧ startsVowel (after.drop 1) then ['K']
           else ['X'])
        else ['K']) := by
    simp only [prev_eq, next_eq, f, prefix1]
    cases hf : startsIn after c!"EIY" with
    | true => rw [hfl hf]; rfl
    | false =>
      simp only [Bool.and_false, Bool.false_eq_true, if_false]
      cases hH : List.isPrefixOf c!"H" after with
      | false => simp
      | true =>
        cases hS : List.isPrefixOf c!"S" before with
        | true => rfl
        | false =>
          simp only [Bool.false_and, Bool.false_eq_true, if_false, if_true]
          by_cases hb : before = []
          · rw [v hb]
            subst hb
            cases hv : startsVowel (after.drop 1) with
            | false => simp
            | true =>
              have key : decide (byteLen (([] : Str).reverse ++ 'C' :: after) > 3) = decide (3 ≤ after.length) := by
                rw [decide_eq_decide]
                obtain ⟨t, rfl⟩ := List.isPrefixOf_iff_prefix.mp hH
                simp only [List.cons_append, List.nil_append, List.drop_succ_cons, List.drop_zero] at hv
                cases t with
                | nil => cases hv
                | cons x t =>
                  have hx : c!"AEIOUaeiou".contains x = true := hv
                  have hxa : x.utf8Size = 1 := by
                    apply utf8Size_ascii
                    have : ∀ x ∈ c!"AEIOUaeiou", isAscii x = true := by decide
                    exact this x (List.contains_iff_mem.mp hx)
                  simp only [List.reverse_nil, List.cons_append, List.nil_append, byteLen, hxa, List.length_cons,
                    show Char.utf8Size 'C' = 1 from rfl, show Char.utf8Size 'H' = 1 from rfl]
                  have hl := length_le_byteLen t
                  have h0 : t.length = 0 → byteLen t = 0 := fun h => by
                    rw [List.length_eq_zero_iff.mp h]; rfl
                  omega
              rw [key]
              by_cases h3 : 3 ≤ after.length <;> simp [h3]
          · have : (before.length == 0) = false := by
              rw [beq_eq_false_iff_ne]; exact fun e => hb (List.length_eq_zero_iff.mp e)
            simp [this, hb]
  have e : metaLetterAt (before.reverse ++ 'C' :: after) before 'C' after =
      (if c!"S" <+: before ∧ startsIn after c!"EIY" then some []
     else
       let other :=
        if startsIn after c!"EIY" then ['S']
        else if c!"H" <+: after then
          (if c!"S" <+: before then ['K']
           else if before = [] ∧ 3 ≤ after.length ∧ startsVowel (after.drop 1) then ['K']
           else ['X'])
        else ['K']
       if byteLen (before.reverse ++ 'C' :: after) < before.length + 3 then some other
       else (fromByte (before.reverse ++ 'C' :: after) before.length).map fun part =>
        if c!"CIA" <+: part then ['X'] else other) := rfl
  rw [e]
  unfold caseC
  dsimp only
  simp only [pure, Except.pure]
  rw [other]
  simp only [prev_eq, f]
  by_cases h1 : c!"S" <+: before ∧ startsIn after c!"EIY"
  · rw [if_pos h1, hfl h1.2, (prefix1 _ _).mp h1.1, h1.2]
    rfl
  · rw [if_neg h1]
    have h1' : (List.isPrefixOf c!"S" before &&
        !isLastChar (byteLen (before.reverse ++ 'C' :: after)) before.length && startsIn after c!"EIY") = false := by
      rw [Bool.eq_false_iff]
      intro h
      simp only [Bool.and_eq_true] at h
      exact h1 ⟨(prefix1 _ _).mpr h.1.1, h.2⟩
    rw [h1']
    simp only [Bool.false_eq_true, if_false]
    rw [regionU _ _ c!"CIA" (by decide) (by decide)]
    simp only [List.length_cons, List.length_nil, Nat.reduceAdd]
    by_cases h3 : byteLen (before.reverse ++ 'C' :: after) < before.length + 3
    · rw [if_pos h3, if_pos h3]; rfl
    · rw [if_neg h3, if_neg h3]
      cases fromByte (before.reverse ++ 'C' :: after) before.length with
      | none => rfl
      | some part =>
        simp only [Option.map_some, orPanic, bind, Except.bind, ← List.isPrefixOf_iff_prefix]
        cases List.isPrefixOf c!"CIA" part <;> rfl

theorem caseG_any (before after : Str) (hp : ¬ [('G' : Char)] <+: before) :
    caseG (before.reverse ++ 'G' :: after) (byteLen (before.reverse ++ 'G' :: after)) before.length =
      orPanic (metaLetterAt (before.reverse ++ 'G' :: after) before 'G' after) := by
  have f := front_eq before 'G' after 0
  rw [List.drop_zero] at f
  have v := vowelAt_eq before 'G' after 1
  have hp' : List.isPrefixOf c!"G" before = false := by
    rw [Bool.eq_false_iff, ne_eq, List.isPrefixOf_iff_prefix]; exact hp
  have hfl : startsIn after c!"EIY" = true →
      isLastChar (byteLen (before.reverse ++ 'G' :: after)) before.length = false := by
    intro h
    apply lastU_front
    rintro rfl
    cases h
  have other : (if (!isPreviousChar (before.reverse ++ 'G' :: after) before.length 'G' &&
        !isLastChar (byteLen (before.reverse ++ 'G' :: after)) before.length &&
        isFrontV (before.reverse ++ 'G' :: after)[before.length + 1]?) = true then (Except.ok ['J'] : Res Str)
      else .ok ['K']) = .ok (if startsIn after c!"EIY" then ['J'] else ['K']) := by
    simp only [prev_eq, f, hp']
    cases hf : startsIn after c!"EIY" with
    | false => simp
    | true => rw [hfl hf]; rfl
  have hH : ((isLastChar (byteLen (before.reverse ++ 'G' :: after)) (before.length + 1) &&
        isNextChar (before.reverse ++ 'G' :: after) before.length 'H') ||
      (!isLastChar (byteLen (before.reverse ++ 'G' :: after)) (before.length + 1) &&
        isNextChar (before.reverse ++ 'G' :: after) before.length 'H' &&
        !isVowelAt (before.reverse ++ 'G' :: after) (before.length + 2))) =
      (List.isPrefixOf c!"H" after && !startsVowel (after.drop 1)) := by
    rw [next_eq, v]
    cases h1 : isLastChar (byteLen (before.reverse ++ 'G' :: after)) (before.length + 1) with
    | false => simp
    | true =>
      have := lastU_one _ _ _ h1
      have hd : after.drop 1 = [] := List.drop_eq_nil_of_le (by omega)
      rw [hd]
      simp [startsVowel, startsIn]
  have e : metaLetterAt (before.reverse ++ 'G' :: after) before 'G' after =
    (if c!"H" <+: after ∧ ¬ startsVowel (after.drop 1) then some []
     else
       let other := if startsIn after c!"EIY" then ['J'] else ['K']
       if before = [] then some other
       else (fromByte (before.reverse ++ 'G' :: after) before.length).map fun part =>
        if c!"GN" <+: part then [] else other) := rfl
  rw [e]
  unfold caseG
  dsimp only
  simp only [pure, Except.pure]
  rw [other, hH]
  cases hh : (List.isPrefixOf c!"H" after && !startsVowel (after.drop 1)) with
  | true =>
    have : c!"H" <+: after ∧ ¬ startsVowel (after.drop 1) = true := by
      rw [prefix1]; simpa using hh
    rw [if_pos this]; rfl
  | false =>
    have : ¬ (c!"H" <+: after ∧ ¬ startsVowel (after.drop 1) = true) := by
      rintro ⟨h1, h2⟩
      rw [prefix1] at h1
      rw [h1] at hh
      simp at hh
      exact h2 (by simpa using hh)
    rw [if_neg this]
    simp only [Bool.false_eq_true, if_false]
    by_cases hb : before = []
    · subst hb; rfl
    · have hpos : before.length > 0 := List.length_pos_iff.mpr hb
      rw [if_pos hpos, if_neg hb]
      cases hq : fromByte (before.reverse ++ 'G' :: after) before.length with
      | none =>
        have hl := fromByte_none_long hq
        rw [regionU _ _ c!"GN" (by decide) (by decide),
          if_neg (by simp only [List.length_cons, List.length_nil]; omega), hq]
        rfl
      | some part =>
        rw [regionU_some _ part _ hq c!"GN" (by decide) (by decide),
          regionU_some _ part _ hq c!"GNED" (by decide) (by decide)]
        simp only [bind, Except.bind, Option.map_some, orPanic, ← List.isPrefixOf_iff_prefix]
        have hNED : List.isPrefixOf c!"GNED" part = true → List.isPrefixOf c!"GN" part = true := by
          intro h
          rw [List.isPrefixOf_iff_prefix] at h ⊢
          exact List.IsPrefix.trans (by exact ⟨c!"ED", rfl⟩) h
        cases hn : List.isPrefixOf c!"GN" part with
        | true => rfl
        | false =>
          have : List.isPrefixOf c!"GNED" part = false := by
            rw [Bool.eq_false_iff]; intro h; rw [hNED h] at hn; cases hn
          rw [this]
          rfl

theorem caseD_any (before after : Str) :
    caseD (before.reverse ++ 'D' :: after) (byteLen (before.reverse ++ 'D' :: after)) before.length =
      (metaLetter before 'D' after,
        if c!"G" <+: after ∧ startsIn (after.drop 1) c!"EIY" then 2 else 0) := by
  unfold caseD
  have f := front_eq before 'D' after 1
  have e : metaLetter before 'D' after =
    if c!"G" <+: after ∧ startsIn (after.drop 1) c!"EIY" then ['J'] else ['T'] := rfl
  rw [e]
  simp only [next_eq, f, prefix1]
  cases hf : startsIn (after.drop 1) c!"EIY" with
  | false => simp
  | true =>
    have := startsIn_length hf
    rw [List.length_drop] at this
    have : isLastChar (byteLen (before.reverse ++ 'D' :: after)) (before.length + 1) = false := by
      rw [Bool.eq_false_iff]
      intro h
      have := lastU_one _ _ _ h
      omega
    rw [this]
    cases List.isPrefixOf c!"G" after <;> rfl

theorem caseH_any (before after : Str) :
    caseH (before.reverse ++ 'H' :: after) (byteLen (before.reverse ++ 'H' :: after)) before.length =
      metaLetter before 'H' after := by
  unfold caseH
  have v := vowelAt_eq before 'H' after 0
  rw [List.drop_zero] at v
  rw [varson_eq, v]
  have e : metaLetter before 'H' after =
    (if startsVowel after ∧ ¬ startsIn before c!"CSPTG" then ['H'] else []) := rfl
  rw [e]
  cases hv : startsVowel after with
  | false => simp
  | true =>
    rw [lastU_front before 'H' after (by rintro rfl; cases hv)]
    cases startsIn before c!"CSPTG" <;> rfl

theorem letterAt_other {w before after : Str} {c : Char} (hB : c ≠ 'B') (hC : c ≠ 'C') (hG : c ≠ 'G')
    (hS : c ≠ 'S') (hT : c ≠ 'T') : metaLetterAt w before c after = some (metaLetter before c after) := by
  unfold metaLetterAt
  rw [if_neg hB, if_neg hC, if_neg hG, if_neg hS, if_neg hT]

theorem symbol_any (before : Str) (c : Char) (after : Str) (hp : c = 'C' ∨ ¬ [c] <+: before) :
    symbol (before.reverse ++ c :: after) (byteLen (before.reverse ++ c :: after)) before.length c =
      orPanic ((metaLetterAt (before.reverse ++ c :: after) before c after).map fun x => (x, newSkip c after)) := by
  have nd : c ≠ 'D' → newSkip c after = 0 := fun hc => by unfold newSkip; rw [if_neg (by simp [hc])]
  have bindPair : ∀ (o : Option Str) (k : Nat),
      (do return (← orPanic o, k) : Res (Str × Nat)) = orPanic (o.map fun x => (x, k)) := by
    intro o k; cases o <;> rfl
  unfold symbol
  by_cases hv : c!"AEIOU".contains c = true
  · rw [if_pos hv]
    have hne : ∀ x, c!"AEIOU".contains x = false → c ≠ x := by
      rintro x hx rfl; rw [hx] at hv; cases hv
    rw [nd (hne _ rfl), letterAt_other (hne _ rfl) (hne _ rfl) (hne _ rfl) (hne _ rfl) (hne _ rfl)]
    unfold metaLetter
    rw [if_pos hv]
    cases before <;> simp [orPanic]
  rw [if_neg hv]
  by_cases hB : c = 'B'
  · subst hB
    rw [if_pos rfl, nd (by decide), prev_eq, lastU_zero]
    have e : metaLetterAt (before.reverse ++ 'B' :: after) before 'B' after =
      some (if c!"M" <+: before ∧ after = [] ∧ AsciiStr (before.reverse ++ 'B' :: after) then [] else ['B']) := rfl
    rw [e]
    simp only [Option.map_some, orPanic, prefix1]
    by_cases h2 : after = [] ∧ AsciiStr (before.reverse ++ 'B' :: after)
    · cases List.isPrefixOf c!"M" before <;> simp [h2]
    · cases List.isPrefixOf c!"M" before <;> simp [h2]
  rw [if_neg hB]
  by_cases hC : c = 'C'
  · subst hC
    rw [if_pos rfl, nd (by decide), caseC_any before after, bindPair]
  rw [if_neg hC]
  by_cases hD : c = 'D'
  · subst hD
    rw [if_pos rfl, caseD_any before after]
    unfold newSkip
    rw [letterAt_other (by decide) (by decide) (by decide) (by decide) (by decide)]
    simp [orPanic]
  rw [if_neg hD, nd hD]
  by_cases hG : c = 'G'
  · subst hG
    rw [if_pos rfl, caseG_any before after (hp.resolve_left (by decide)), bindPair]
  rw [if_neg hG]
  by_cases hS : c = 'S'
  · subst hS
    rw [if_neg (by decide), if_neg (by decide), if_neg (by decide), if_neg (by decide), if_neg (by decide), if_pos rfl,
      caseS_any before after, bindPair]
  by_cases hT : c = 'T'
  · subst hT
    rw [if_neg (by decide), if_neg (by decide), if_neg (by decide), if_neg (by decide), if_neg (by decide),
      if_neg (by decide), if_pos rfl, caseT_any before after, bindPair]
  rw [letterAt_other hB hC hG hS hT]
  simp only [Option.map_some, orPanic]
  by_cases hH : c = 'H'
  · subst hH
    rw [if_pos rfl, caseH_any before after]
  rw [if_neg hH]
  by_cases hF : c!"FJLMNR".contains c = true
  · rw [if_pos hF]
    unfold metaLetter
    rw [if_neg hv, if_neg hB, if_neg hC, if_neg hD, if_neg hG, if_neg hH, if_pos hF]
  rw [if_neg hF]
  by_cases hK : c = 'K'
  · subst hK
    rw [if_pos rfl]
    have e : metaLetter before 'K' after = if c!"C" <+: before then [] else ['K'] := rfl
    rw [e, prev_eq]
    simp only [prefix1]
    cases before with
    | nil => simp
    | cons b bs => cases List.isPrefixOf c!"C" (b :: bs) <;> simp
  rw [if_neg hK]
  by_cases hP : c = 'P'
  · subst hP
    rw [if_pos rfl]
    have e : metaLetter before 'P' after = if c!"H" <+: after then ['F'] else ['P'] := rfl
    rw [e, next_eq]
    simp only [prefix1]
  rw [if_neg hP]
  by_cases hQ : c = 'Q'
  · subst hQ; rfl
  rw [if_neg hQ, if_neg hS, if_neg hT]
  by_cases hV : c = 'V'
  · subst hV; rfl
  rw [if_neg hV]
  by_cases hW : c = 'W' ∨ c = 'Y'
  · rw [if_pos hW]
    have v := vowelAt_eq before c after 0
    rw [List.drop_zero] at v
    rw [v]
    have e : metaLetter before c after = if startsVowel after then [c] else [] := by
      unfold metaLetter
      rw [if_neg hv, if_neg hB, if_neg hC, if_neg hD, if_neg hG, if_neg hH, if_neg hF, if_neg hK,
        if_neg hP, if_neg hQ, if_neg hS, if_neg hT, if_neg hV, if_pos hW]
    rw [e]
    cases hs : startsVowel after with
    | false => simp
    | true =>
      rw [lastU_front before c after (by rintro rfl; cases hs)]; rfl
  rw [if_neg hW]
  unfold metaLetter
  rw [if_neg hv, if_neg hB, if_neg hC, if_neg hD, if_neg hG, if_neg hH, if_neg hF, if_neg hK,
        if_neg hP, if_neg hQ, if_neg hS, if_neg hT, if_neg hV, if_neg hW]
  split
  · rfl
  · split <;> rfl

/-- The piece of a letter. -/
def piece (w before : Str) (c : Char) (after : Str) : Option Str :=
  if metaAbsorbed before c after ∨ (c ≠ 'C' ∧ [c] <+: before) then some [] else metaLetterAt w before c after

theorem step_any (before : Str) (c : Char) (after : Str) (hs : skipAt before (c :: after) = 0) :
    Metaphone.step (before.reverse ++ c :: after) (byteLen (before.reverse ++ c :: after)) before.length c =
      orPanic ((piece (before.reverse ++ c :: after) before c after).map fun x => (x, skipAt (c :: before) after)) := by
  have ha : metaAbsorbed before c after = false := by rw [absorbed_iff, hs]; rfl
  unfold Metaphone.step piece
  rw [prev_eq, ha]
  have second : (c!"GD".isPrefixOf (c :: before) && plainD before && startsIn after c!"EIY") = false := by
    rw [Bool.eq_false_iff]
    intro hx
    simp only [Bool.and_eq_true] at hx
    obtain ⟨⟨h1, h2⟩, h3⟩ := hx
    have hc : c = 'G' := by
      have := List.isPrefixOf_iff_prefix.mp h1
      rw [List.cons_prefix_cons] at this
      exact this.1.symm
    subst hc
    unfold skipAt at hs
    rw [if_pos (by simp [h2, h3, List.isPrefixOf])] at hs
    cases hs
  have hnew : skipAt (c :: before) after =
      if plainD (c :: before) && c!"G".isPrefixOf after && startsIn (after.drop 1) c!"EIY" then 2 else 0 := by
    unfold skipAt
    rw [show List.drop 1 (c :: before) = before from rfl, second]
    rfl
  rw [hnew, plainD_cons]
  by_cases hp : c = 'C' ∨ ¬ [c] <+: before
  · rw [if_pos (by rw [← prefix1]; exact hp), symbol_any before c after hp]
    have hif : (if false = true ∨ c ≠ 'C' ∧ [c] <+: before then some []
        else metaLetterAt (before.reverse ++ c :: after) before c after) =
          metaLetterAt (before.reverse ++ c :: after) before c after :=
      if_neg (by
        intro h
        rcases h with h | ⟨h1, h2⟩
        · exact Bool.false_ne_true h
        · exact hp.elim h1 (fun h => h h2))
    rw [hif]
    have : newSkip c after =
        if (c == 'D' && !List.isPrefixOf c!"D" before) && c!"G".isPrefixOf after && startsIn (after.drop 1) c!"EIY"
        then 2 else 0 := by
      unfold newSkip
      simp only [prefix1]
      by_cases hD : c = 'D'
      · subst hD
        have : List.isPrefixOf c!"D" before = false := by
          rw [Bool.eq_false_iff, ne_eq, List.isPrefixOf_iff_prefix]
          exact hp.resolve_left (by decide)
        rw [this]
        simp
      · have : (c == 'D') = false := beq_eq_false_iff_ne.mpr hD
        simp [hD, this]
    rw [this]
  · rw [if_neg (by rw [← prefix1]; exact hp)]
    simp only [not_or, Classical.not_not] at hp
    have hif : (if false = true ∨ c ≠ 'C' ∧ [c] <+: before then some []
        else metaLetterAt (before.reverse ++ c :: after) before c after) = some [] := if_pos (Or.inr hp)
    rw [hif]
    simp only [Option.map_some, orPanic]
    congr 2
    by_cases hD : c = 'D'
    · subst hD
      rw [(prefix1 _ _).mp hp.2]; rfl
    · have : (c == 'D') = false := beq_eq_false_iff_ne.mpr hD
      rw [this]; rfl

theorem piece_ascii {w before after : Str} {c : Char} {x : Str} (hs : skipAt before (c :: after) = 0)
    (hw : w = before.reverse ++ c :: after) (h : piece w before c after = some x) : AsciiStr x := by
  have h1 := step_ascii (before.reverse ++ c :: after) (byteLen (before.reverse ++ c :: after)) before.length c
  subst hw
  rw [step_any before c after hs, h] at h1
  exact h1 _ rfl

/-- Nothing more is written once the limit is reached. -/
theorem write_full (n : Nat) (code : Str) (hl : n = code.length) (ps : List (Option Str)) :
    writePieces (some n) code ps = some code := by
  cases ps with
  | nil => rfl
  | cons p ps => unfold writePieces; rw [if_pos (by rw [hl])]

theorem loop_any (max : Option Nat) (after before code : Str) (hc : AsciiStr code) (hm : ∀ n, max = some n → code.length ≤ n) :
    loop max (before.reverse ++ after) (byteLen (before.reverse ++ after)) after before.length
      (skipAt before after) code = orPanic (writePieces max code (metaPieces (before.reverse ++ after) before after)) := by
  induction after generalizing before code with
  | nil => simp [loop, metaPieces, writePieces, orPanic]
  | cons c after ih =>
    have e : before.reverse ++ c :: after = (c :: before).reverse ++ after := by simp
    unfold loop
    by_cases hs : skipAt before (c :: after) = 0
    · rw [if_pos hs, byteLen_ascii hc]
      unfold metaPieces writePieces
      by_cases hmax : max = some code.length
      · rw [if_pos hmax, if_pos hmax]; rfl
      · rw [if_neg hmax, if_neg hmax, step_any before c after hs]
        rw [show (if metaAbsorbed before c after = true ∨ c ≠ 'C' ∧ [c] <+: before then some []
          else metaLetterAt (before.reverse ++ c :: after) before c after) =
            piece (before.reverse ++ c :: after) before c after from rfl]
        cases hp : piece (before.reverse ++ c :: after) before c after with
        | none => rfl
        | some x =>
          have hx := piece_ascii hs rfl hp
          have hcx : AsciiStr (code ++ x) := asciiStr_append.mpr ⟨hc, hx⟩
          simp only [Option.map_some, orPanic, bind, Except.bind]
          cases max with
          | none =>
            simp only [truncate]
            rw [e, show before.length + 1 = (c :: before).length from rfl,
              ih (c :: before) (code ++ x) hcx (fun n h => by cases h)]
            rfl
          | some n =>
            rw [truncate_some hcx]
            simp only
            rw [e, show before.length + 1 = (c :: before).length from rfl,
              ih (c :: before) _ (hcx.sublist (List.take_sublist _ _))
                (fun m h => by cases h; rw [List.length_take]; omega)]
            rfl
    · rw [if_neg hs, ← skip_step before c after hs, e,
        show before.length + 1 = (c :: before).length from rfl, ih (c :: before) code hc hm]
      have hab : metaAbsorbed before c after = true := by rw [absorbed_iff]; simpa using hs
      rw [← e]
      conv => rhs; unfold metaPieces
      rw [if_pos (Or.inl hab)]
      conv => rhs; unfold writePieces
      by_cases hmax : max = some code.length
      · rw [if_pos hmax, hmax, write_full _ _ rfl]
      · rw [if_neg hmax]
        cases max with
        | none => simp only [List.append_nil]
        | some n =>
          have := hm n rfl
          simp only [List.append_nil]
          rw [List.take_of_length_le this]

end MetaphoneProofs

open MetaphoneProofs

/-- C76. Metaphone on every text whose upper case is not a single byte, with every limit: it returns the code of
`metaphoneAny`, and panics exactly if there is none. -/
theorem metaphone_any (U : Unicode) (max : Option Nat) (s : Str) (h1 : byteLen (U.strUpper s) ≠ 1) :
    (∀ c, (Metaphone.new max).encode U s = .ok c ↔ metaphoneAny max (U.strUpper s) = some c) ∧
      ((Metaphone.new max).encode U s = .error .slice ↔ metaphoneAny max (U.strUpper s) = none) := by
  have e : (Metaphone.new max).encode U s = orPanic (metaphoneAny max (U.strUpper s)) := by
    unfold Metaphone.encode metaphoneAny
    dsimp only
    rw [if_neg h1, initial_eq]
    have := loop_any max (metaInitial (U.strUpper s)) [] [] AsciiStr.nil (fun n _ => by simp)
    have hz : ∀ w, skipAt [] w = 0 := fun w => by simp [skipAt, plainD]
    rw [hz] at this
    exact this
  rw [e]
  cases metaphoneAny max (U.strUpper s) with
  | none => simp [orPanic]
  | some c => simp [orPanic]

/-- C76. If only ASCII characters come before each C, G, S and T of the upper-case text, `encode` returns. -/
theorem metaphone_returns (U : Unicode) (max : Option Nat) (s : Str)
    (h : ∀ before c after, U.strUpper s = before ++ c :: after → c ∈ c!"CGST" → AsciiStr before) :
    ∃ code, (Metaphone.new max).encode U s = .ok code := by
  by_cases h1 : byteLen (U.strUpper s) = 1
  · exact ⟨_, metaphone_one_letter U max s h1⟩
  cases hc : metaphoneAny max (U.strUpper s) with
  | some c => exact ⟨c, ((metaphone_any U max s h1).1 c).mpr hc⟩
  | none =>
    exfalso
    -- the same holds of the word after the initial transformations
    have hw : ∀ before c after, metaInitial (U.strUpper s) = before ++ c :: after → c ∈ c!"CGST" → AsciiStr before := by
      generalize U.strUpper s = t at h
      have tail : ∀ a r, t = a :: r → ∀ before c after, r = before ++ c :: after → c ∈ c!"CGST" → AsciiStr before := by
        intro a r ht before c after hr hm
        have := h (a :: before) c after (by rw [ht, hr]; rfl) hm
        exact fun x hx => this x (by simp [hx])
      have drop1 : ∀ before c after, t.drop 1 = before ++ c :: after → c ∈ c!"CGST" → AsciiStr before := by
        cases t with
        | nil => intro b c a hh; simp at hh
        | cons a r => exact tail a r rfl
      have consA : ∀ (k : Nat) (y : Char), isAscii y = true → k ≤ t.length →
          ∀ before c after, [y] ++ t.drop k = before ++ c :: after → c ∈ c!"CGST" → AsciiStr before := by
        intro k y hy hk before c after hh hm
        cases before with
        | nil => exact AsciiStr.nil
        | cons b before =>
          rw [List.singleton_append, List.cons_append] at hh
          injection hh with h2 h3
          have : t = (t.take k ++ before) ++ c :: after := by
            rw [List.append_assoc, ← h3, List.take_append_drop]
          have := h _ _ _ this hm
          intro x hx
          rcases List.mem_cons.mp hx with rfl | hx
          · exact h2 ▸ hy
          · exact this x (by simp [hx])
      intro before c after hh hm
      unfold metaInitial at hh
      by_cases c1 : c!"KN" <+: t ∨ c!"GN" <+: t ∨ c!"PN" <+: t ∨ c!"AE" <+: t ∨ c!"WR" <+: t
      · rw [if_pos c1] at hh; exact drop1 _ _ _ hh hm
      rw [if_neg c1] at hh
      by_cases c2 : c!"WH" <+: t
      · rw [if_pos c2] at hh
        exact consA 2 'W' rfl (by simpa using c2.length_le) _ _ _ hh hm
      rw [if_neg c2] at hh
      by_cases c3 : c!"X" <+: t
      · rw [if_pos c3] at hh
        exact consA 1 'S' rfl (by simpa using c3.length_le) _ _ _ hh hm
      rw [if_neg c3] at hh
      exact h _ _ _ hh hm
    -- so no piece is missing
    have pieces : ∀ (after before : Str), metaInitial (U.strUpper s) = before.reverse ++ after →
        none ∉ metaPieces (metaInitial (U.strUpper s)) before after := by
      intro after
      induction after with
      | nil => intro before _; simp [metaPieces]
      | cons c after ih =>
        intro before hb
        unfold metaPieces
        rw [List.mem_cons, not_or]
        refine ⟨?_, ih (c :: before) (by rw [hb]; simp)⟩
        intro hn
        by_cases hab : metaAbsorbed before c after = true ∨ c ≠ 'C' ∧ [c] <+: before
        · rw [if_pos hab] at hn; cases hn
        · rw [if_neg hab] at hn
          have hf : c ∈ c!"CGST" → ∃ part, fromByte (metaInitial (U.strUpper s)) before.length = some part := by
            intro hm
            have hba := hw before.reverse c after hb hm
            unfold fromByte
            rw [hb, show before.length = byteLen before.reverse by rw [byteLen_ascii hba, List.length_reverse],
              splitAtByte_append]
            exact ⟨_, rfl⟩
          unfold metaLetterAt at hn
          by_cases c1 : c = 'B'
          · rw [if_pos c1] at hn; cases hn
          rw [if_neg c1] at hn
          by_cases c2 : c = 'C'
          · obtain ⟨part, hp⟩ := hf (by rw [c2]; decide)
            rw [if_pos c2, hp] at hn
            dsimp only at hn
            split at hn
            · cases hn
            · split at hn <;> cases hn
          rw [if_neg c2] at hn
          by_cases c3 : c = 'G'
          · obtain ⟨part, hp⟩ := hf (by rw [c3]; decide)
            rw [if_pos c3, hp] at hn
            dsimp only at hn
            split at hn
            · cases hn
            · split at hn <;> cases hn
          rw [if_neg c3] at hn
          by_cases c4 : c = 'S'
          · obtain ⟨part, hp⟩ := hf (by rw [c4]; decide)
            rw [if_pos c4, hp] at hn
            cases hn
          rw [if_neg c4] at hn
          by_cases c5 : c = 'T'
          · obtain ⟨part, hp⟩ := hf (by rw [c5]; decide)
            rw [if_pos c5, hp] at hn
            cases hn
          rw [if_neg c5] at hn
          cases hn
    have write : ∀ (ps : List (Option Str)) (code : Str), none ∉ ps → writePieces max code ps ≠ none := by
      intro ps
      induction ps with
      | nil => intro code _ hn; cases hn
      | cons p ps ih =>
        intro code hn
        unfold writePieces
        by_cases hm : max = some code.length
        · rw [if_pos hm]; simp
        · rw [if_neg hm]
          cases p with
          | none => exact absurd (by simp) hn
          | some x => exact ih _ (fun h => hn (by simp [h]))
    exact write _ _ (pieces _ [] rfl) hc

/-- The beginning of a word is changed only where it is ASCII. -/
theorem MetaphoneProofs.initial_split (t : Str) :
    ∃ x p r, AsciiStr x ∧ AsciiStr p ∧ t = p ++ r ∧ metaInitial t = x ++ r := by
  have pre : ∀ {p : Str}, p <+: t → ∃ r, t = p ++ r := fun h => h.imp fun _ e => e.symm
  have two : ∀ (a b : Char), isAscii a = true → [a, b] <+: t →
      ∃ x p r, AsciiStr x ∧ AsciiStr p ∧ t = p ++ r ∧ t.drop 1 = x ++ r := by
    intro a b ha h
    obtain ⟨r, rfl⟩ := h
    exact ⟨[], [a], b :: r, AsciiStr.nil, by intro y hy; rw [List.mem_singleton.mp hy]; exact ha, rfl, rfl⟩
  unfold metaInitial
  by_cases c1 : c!"KN" <+: t ∨ c!"GN" <+: t ∨ c!"PN" <+: t ∨ c!"AE" <+: t ∨ c!"WR" <+: t
  · rw [if_pos c1]
    rcases c1 with h | h | h | h | h
    · exact two _ _ rfl h
    · exact two _ _ rfl h
    · exact two _ _ rfl h
    · exact two _ _ rfl h
    · exact two _ _ rfl h
  rw [if_neg c1]
  by_cases c2 : c!"WH" <+: t
  · rw [if_pos c2]
    obtain ⟨r, rfl⟩ := c2
    exact ⟨c!"W", c!"WH", r, by decide, by decide, rfl, rfl⟩
  rw [if_neg c2]
  by_cases c3 : c!"X" <+: t
  · rw [if_pos c3]
    obtain ⟨r, rfl⟩ := c3
    exact ⟨c!"S", c!"X", r, by decide, by decide, rfl, rfl⟩
  rw [if_neg c3]
  exact ⟨[], [], t, AsciiStr.nil, AsciiStr.nil, rfl, rfl⟩

/-- The pieces of a word are those of its parts. -/
theorem MetaphoneProofs.pieces_last (w before a : Str) :
    ∃ ps, metaPieces w before (a ++ c!"MB") =
      ps ++ [metaLetterAt w ('M' :: (a.reverse ++ before)) 'B' []] := by
  induction a generalizing before with
  | nil =>
    refine ⟨[if metaAbsorbed before 'M' c!"B" ∨ ('M' ≠ 'C' ∧ c!"M" <+: before) then some []
      else metaLetterAt w before 'M' c!"B"], ?_⟩
    have hab : ¬ (metaAbsorbed ('M' :: before) 'B' [] ∨ ('B' ≠ 'C' ∧ c!"B" <+: 'M' :: before)) := by
      rw [not_or]
      constructor
      · rw [absorbed_iff]; simp [skipAt, plainD, List.isPrefixOf]
      · rintro ⟨-, h⟩
        rw [List.cons_prefix_cons] at h
        exact absurd h.1 (by decide)
    simp only [List.nil_append, metaPieces]
    rw [if_neg hab]
    rfl
  | cons b a ih =>
    obtain ⟨ps, hps⟩ := ih (b :: before)
    rw [List.cons_append]
    unfold metaPieces
    rw [hps]
    exact ⟨_ :: ps, by rw [List.reverse_cons, List.append_assoc]; rfl⟩

theorem MetaphoneProofs.write_last (ps : List (Option Str)) (code x r : Str)
    (h : writePieces none code (ps ++ [some x]) = some r) : ∃ y, r = y ++ x := by
  induction ps generalizing code with
  | nil =>
    simp only [List.nil_append, writePieces] at h
    rw [if_neg (by simp)] at h
    exact ⟨code, by injection h with h; exact h.symm⟩
  | cons p ps ih =>
    rw [List.cons_append] at h
    unfold writePieces at h
    rw [if_neg (by simp)] at h
    cases p with
    | none => cases h
    | some q => exact ih _ h

/-- C76. A final B after M is not silent in a text with a letter beyond ASCII: every unlimited code ends with B. -/
theorem metaphone_final_mb (U : Unicode) (s pre code : Str) (hu : U.strUpper s = pre ++ c!"MB")
    (hn : ¬ AsciiStr (U.strUpper s)) (h : (Metaphone.new none).encode U s = .ok code) : ∃ x, code = x ++ ['B'] := by
  have h1 : byteLen (U.strUpper s) ≠ 1 := by
    have := length_le_byteLen (U.strUpper s)
    have hl := congrArg List.length hu
    simp at hl
    omega
  have hc := ((metaphone_any U none s h1).1 code).mp h
  unfold metaphoneAny at hc
  obtain ⟨x, p, r, hx, hp, ht, hi⟩ := initial_split (U.strUpper s)
  -- the changed word still ends with MB and still has a letter beyond ASCII
  have hr : ¬ AsciiStr r := fun hr => hn (ht ▸ asciiStr_append.mpr ⟨hp, hr⟩)
  obtain ⟨r', hr'⟩ : ∃ r', r = r' ++ c!"MB" := by
    rw [ht] at hu
    rcases List.append_eq_append_iff.mp hu with ⟨a, h2, h3⟩ | ⟨a, h2, h3⟩
    · exact ⟨a, h3⟩
    · exfalso
      apply hr
      have : AsciiStr (a ++ r) := h3 ▸ (by decide : AsciiStr c!"MB")
      exact (asciiStr_append.mp this).2
  have hw : metaInitial (U.strUpper s) = (x ++ r') ++ c!"MB" := by rw [hi, hr', List.append_assoc]
  have hna : ¬ AsciiStr (metaInitial (U.strUpper s)) := by
    rw [hi]; exact fun h => hr (asciiStr_append.mp h).2
  generalize metaInitial (U.strUpper s) = w at hc hw hna
  obtain ⟨ps, hps⟩ := pieces_last w [] (x ++ r')
  rw [← hw] at hps
  rw [hps] at hc
  have hB : metaLetterAt w ('M' :: ((x ++ r').reverse ++ [])) 'B' [] = some ['B'] := by
    unfold metaLetterAt
    rw [if_pos rfl, if_neg (fun h => hna h.2.2)]
  rw [hB] at hc
  exact write_last ps _ _ _ hc

/-- Such words, and letters taken from the wrong place ("ÔLASH" has no SH at byte 3, and byte 2 of "LÔSH" is inside
a letter unless the limit is reached before). -/
example :
    metaphoneAny none c!"ÔLAMB" = some c!"LMB" ∧ metaphoneAny none c!"OLAMB" = some c!"OLM" ∧
    metaphoneAny none c!"LÔSH" = none ∧ metaphoneAny none c!"ÔLASH" = some c!"LS" ∧
    metaphoneAny none c!"OLASH" = some c!"OLX" ∧
    metaphoneAny (some 1) c!"LÔSH" = some c!"L" := by decide +kernel

/-- The hypotheses of `metaphone_returns` can be met. -/
example : ∀ before c after, Unicode.latin1.strUpper c!"Stïmpf" = before ++ c :: after → c ∈ c!"CGST" → AsciiStr before := by
  have e : Unicode.latin1.strUpper c!"Stïmpf" = c!"STÏMPF" := by decide +kernel
  rw [e]
  intro before c after h hm
  have : before <+: c!"STÏMPF" := ⟨c :: after, h.symm⟩
  have key : ∀ n ≤ 6, ∀ c after, c!"STÏMPF" = c!"STÏMPF".take n ++ c :: after → c ∈ c!"CGST" → AsciiStr (c!"STÏMPF".take n) := by
    intro n hn c after hh hc
    match n, hn with
    | 0, _ => decide
    | 1, _ => decide
    | 2, _ => decide
    | 3, _ => exfalso; simp at hh; obtain ⟨rfl, -⟩ := hh; revert hc; decide
    | 4, _ => exfalso; simp at hh; obtain ⟨rfl, -⟩ := hh; revert hc; decide
    | 5, _ => exfalso; simp at hh; obtain ⟨rfl, -⟩ := hh; revert hc; decide
    | 6, _ => exfalso; simp at hh
  have hb : before = c!"STÏMPF".take before.length := List.prefix_iff_eq_take.mp this
  rw [hb]
  exact key before.length (by simpa using this.length_le) c after (by rw [← hb]; exact h) hm

end Verif.Props
