import Verif.Proofs.Common
import Verif.Spec.Phonex
import Verif.Model.Phonex
/-!
# Properties of Phonex (C26, C27, C50)
-/

set_option linter.unusedSimpArgs false

namespace Verif.Props
open Spec

namespace PhonexProofs
open Phonex

/-! ### Preprocessing -/

theorem replaceRange1_cons {c : Char} (h : isAscii c = true) (r rep : Str) :
    replaceRange1 (c :: r) rep = .ok (rep ++ r) := by
  unfold replaceRange1
  have := sliceFrom_append [c] r
  rw [show byteLen [c] = 1 by simp [byteLen, utf8Size_ascii h]] at this
  rw [show c :: r = [c] ++ r from rfl, this]
  rfl

theorem take2_eq (w : Str) (a b : Char) : w.take 2 = [a, b] ↔ [a, b] <+: w := by
  match w with
  | [] => simp
  | [x] => simp [List.cons_prefix_cons]
  | x :: y :: r => simp [List.cons_prefix_cons, eq_comm]

theorem replaceRange1_prefix {w p : Str} {c : Char} (h : (c :: p) <+: w) (ha : isAscii c = true) (rep : Str) :
    replaceRange1 w rep = .ok (rep ++ w.drop 1) := by
  obtain ⟨t, rfl⟩ := h
  exact replaceRange1_cons ha _ _

theorem firstTwo_eq (w : Str) : firstTwo w = .ok (if c!"KN" <+: w then 'N' :: w.drop 1
    else if c!"PH" <+: w then 'F' :: w.drop 1
    else if c!"WR" <+: w then 'R' :: w.drop 1
    else w) := by
  unfold firstTwo
  simp only [take2_eq]
  by_cases h1 : c!"KN" <+: w
  · rw [if_pos h1, if_pos h1, replaceRange1_prefix h1 rfl]; rfl
  rw [if_neg h1, if_neg h1]
  by_cases h2 : c!"PH" <+: w
  · rw [if_pos h2, if_pos h2, replaceRange1_prefix h2 rfl]; rfl
  rw [if_neg h2, if_neg h2]
  by_cases h3 : c!"WR" <+: w
  · rw [if_pos h3, if_pos h3, replaceRange1_prefix h3 rfl]; rfl
  rw [if_neg h3, if_neg h3]

theorem dropH_eq (w : Str) : dropH w = .ok (if c!"H" <+: w then w.drop 1 else w) := by
  unfold dropH
  cases w with
  | nil => simp
  | cons c r =>
    by_cases h : c = 'H'
    · subst h; simp [remove0, List.cons_prefix_cons]
    · have : ¬ c!"H" <+: c :: r := by rw [List.cons_prefix_cons]; exact fun e => h e.1.symm
      rw [if_neg (by simpa using h), if_neg this]

theorem replaceFirst_eq (w : Str) : replaceFirst w = .ok (match w with
    | [] => []
    | c :: r => phonexFirst c :: r) := by
  unfold replaceFirst
  cases w with
  | nil => rfl
  | cons c r =>
    simp only [List.head?_cons]
    split <;> rename_i h <;> try (injection h with h; subst h; rw [replaceRange1_cons rfl]; rfl)
    rename_i h1 h2 h3 h4 h5 h6 h7 h8 h9 h10 h11
    simp only [Option.some.injEq] at *
    unfold phonexFirst
    rw [if_neg, if_neg ‹_›, if_neg ‹_›, if_neg, if_neg ‹_›, if_neg ‹_›]
    · exact fun h => h.elim h9 h10
    · simp only [List.contains_cons, List.contains_nil, Bool.or_false, Bool.or_eq_true, beq_iff_eq]
      exact fun h => h.elim h2 fun h => h.elim h3 fun h => h.elim h4 fun h => h.elim h5 h6

theorem preprocess_eq (U : Unicode) (s : Str) : preprocess U s = .ok (phonexPrepare (letters U s)) := by
  unfold preprocess
  simp only [bind, Except.bind]
  rw [firstTwo_eq]
  simp only
  rw [dropH_eq]
  simp only
  rw [replaceFirst_eq]
  rfl

/-! ### Transcoding -/

theorem vowelP_spec (after : Str) :
    isVowelP after.head? = decide (∃ v ∈ c!"AEIOUYaeiouy", [v] <+: after) := by
  cases after with
  | nil => rfl
  | cons c r =>
    have e : (∃ v ∈ c!"AEIOUYaeiouy", [v] <+: c :: r) ↔ c!"AEIOUYaeiouy".contains c = true := by
      rw [List.contains_iff_mem]
      constructor
      · rintro ⟨v, hv, hp⟩
        rw [List.cons_prefix_cons] at hp
        exact hp.1 ▸ hv
      · intro h
        exact ⟨c, h, by simp [List.cons_prefix_cons]⟩
    rw [show decide (∃ v ∈ c!"AEIOUYaeiouy", [v] <+: c :: r) = c!"AEIOUYaeiouy".contains c by
      rw [Bool.eq_iff_iff, decide_eq_true_eq]; exact e]
    simp only [isVowelP, List.head?_cons]
    by_cases h : isAscii c = true
    · revert c
      have : ∀ c, isAscii c = true → isVowel (some (asciiLower c)) true = c!"AEIOUYaeiouy".contains c := by
        apply forall_ascii; decide +kernel
      exact fun c _ h => this c h
    · have hu : isAsciiUpper c = false := by
        cases hu : isAsciiUpper c with
        | false => rfl
        | true => exact absurd (isAscii_of_upper hu) h
      have f : ∀ d, isAscii d = true → (c == d) = false := fun d hd =>
        beq_eq_false_iff_ne.mpr fun e => h (e ▸ hd)
      simp only [asciiLower, hu, Bool.false_eq_true, if_false, isVowel,
        List.contains_cons, List.contains_nil, Bool.or_false, Bool.true_and]
      simp only [f 'a' rfl, f 'e' rfl, f 'i' rfl, f 'o' rfl, f 'u' rfl, f 'A' rfl, f 'E' rfl,
        f 'I' rfl, f 'O' rfl, f 'U' rfl, f 'y' rfl, f 'Y' rfl, Bool.or_false]

theorem nasal_mn (c : Char) (after : Str) (h : ¬ (c = 'M' ∨ c = 'N')) : nasalGroup (c :: after) = false := by
  simp only [not_or] at h
  cases after with
  | nil => rfl
  | cons b r => simp [nasalGroup, h.1, h.2]

theorem head_prefix (after : Str) (x : Char) : after.head? = some x ↔ [x] <+: after := by
  cases after with
  | nil => simp
  | cons a r => simp [List.cons_prefix_cons, eq_comm]

theorem transcode_eq (c : Char) (after : Str) :
    transcode c after.head? after.head?.isNone = (phonexDigit c after, nasalGroup (c :: after)) := by
  unfold transcode phonexDigit
  by_cases h1 : c!"BPFV".contains c = true
  · rw [if_pos h1, if_pos h1, nasal_mn]
    rintro (rfl | rfl) <;> revert h1 <;> decide
  rw [if_neg h1, if_neg h1]
  by_cases h2 : c!"CSKGJQXZ".contains c = true
  · rw [if_pos h2, if_pos h2, nasal_mn]
    rintro (rfl | rfl) <;> revert h2 <;> decide
  rw [if_neg h2, if_neg h2]
  have hdt : (c!"DT".contains c = true) ↔ (c = 'D' ∨ c = 'T') := by simp
  by_cases h3 : c = 'D' ∨ c = 'T'
  · rw [if_pos (hdt.mpr h3), if_pos h3, nasal_mn]
    · simp only [head_prefix]
    · rcases h3 with rfl | rfl <;> decide
  rw [if_neg (fun h => h3 (hdt.mp h)), if_neg h3]
  have hlast : after.head?.isNone = decide (after = []) := by cases after <;> rfl
  have hv : ((isVowelP after.head? || after.head?.isNone) = true) ↔
      (after = [] ∨ ∃ v ∈ c!"AEIOUYaeiouy", [v] <+: after) := by
    rw [vowelP_spec, hlast]
    simp only [Bool.or_eq_true, decide_eq_true_eq]
    exact Or.comm
  by_cases h4 : c = 'L'
  · subst h4
    rw [if_pos rfl, nasal_mn _ _ (by decide), if_pos (Or.inl rfl)]
    simp only [hv]
    rfl
  rw [if_neg h4]
  have hmn : (c!"MN".contains c = true) ↔ (c = 'M' ∨ c = 'N') := by simp
  by_cases h6 : c = 'R'
  · subst h6
    rw [if_neg (by decide : ¬ c!"MN".contains 'R' = true), if_pos rfl, nasal_mn _ _ (by decide),
      if_pos (Or.inr rfl)]
    simp only [hv]
    rfl
  rw [if_neg (show ¬ (c = 'L' ∨ c = 'R') from fun h => h.elim h4 h6)]
  by_cases h5 : c = 'M' ∨ c = 'N'
  · rw [if_pos (hmn.mpr h5), if_pos h5]
    congr 1
    cases after with
    | nil => rfl
    | cons b r =>
      have : (c == 'M' || c == 'N') = true := by simpa using h5
      simp only [nasalGroup, this, Bool.true_and, List.head?_cons]
      rfl
  · rw [if_neg (fun h => h5 (hmn.mp h)), if_neg h6, if_neg h5, nasal_mn _ _ h5]

theorem dropAfterNasal_cons (c : Char) (rest : Str) :
    dropAfterNasal (c :: rest) =
      c :: dropAfterNasal (if nasalGroup (c :: rest) then rest.drop 1 else rest) := by
  cases rest with
  | nil => simp [dropAfterNasal, nasalGroup]
  | cons b r =>
    rw [dropAfterNasal]
    split
    · rfl
    · rfl

theorem dropAfterNasal_head (w : Str) : (dropAfterNasal w).head? = w.head? := by
  cases w with
  | nil => rfl
  | cons c r => rw [dropAfterNasal_cons]; rfl

theorem phonexDigit_congr (c : Char) (a b : Str) (h : a.head? = b.head?) :
    phonexDigit c a = phonexDigit c b := by
  have e : ∀ x : Char, ([x] <+: a) ↔ ([x] <+: b) := by
    intro x; rw [← head_prefix, ← head_prefix, h]
  have n : a = [] ↔ b = [] := by cases a <;> cases b <;> simp_all
  unfold phonexDigit
  simp only [e, n]

theorem digits_cons (prev c : Char) (rest : Str) :
    phonexDigits prev (dropAfterNasal (c :: rest)) =
      (phonexDigit c rest).getD prev :: phonexDigits ((phonexDigit c rest).getD prev)
        (dropAfterNasal (if nasalGroup (c :: rest) then rest.drop 1 else rest)) := by
  have key : phonexDigit c (dropAfterNasal (if nasalGroup (c :: rest) then rest.drop 1 else rest)) =
      phonexDigit c rest := by
    cases hn : nasalGroup (c :: rest) with
    | false => exact phonexDigit_congr _ _ _ (dropAfterNasal_head rest)
    | true =>
      have hc : c = 'M' ∨ c = 'N' := by
        apply Decidable.byContradiction
        intro h
        rw [nasal_mn c rest h] at hn
        cases hn
      rcases hc with rfl | rfl <;> rfl
  rw [dropAfterNasal_cons, phonexDigits, key]

/-! ### The loop -/

/-- The digits pushed for a list of codes. -/
def emit (last lastPush : Char) : Str → Str
  | [] => []
  | c :: cs => if last ≠ c ∧ c ≠ '0' then c :: emit c c cs else emit lastPush lastPush cs

theorem isDigit_digit (c : Char) (after : Str) (prev : Char) (hp : c!"0123456".contains prev = true) :
    c!"0123456".contains ((phonexDigit c after).getD prev) = true := by
  unfold phonexDigit
  repeat' split
  all_goals first | rfl | exact hp

theorem digit_ascii {c : Char} (h : c!"0123456".contains c = true) : isAscii c = true := by
  have : ∀ c ∈ c!"0123456", isAscii c = true := by decide
  exact this c (List.contains_iff_mem.mp h)

/-- The effect of a later iteration. -/
theorem step_pos (i : Nat) (hi : i ≠ 0) (c : Char) (rest : Str) (st : St) :
    step i c rest.head? st =
      (let d := (phonexDigit c rest).getD st.code
       if st.last ≠ d ∧ d ≠ '0' then { result := st.result ++ [d], code := d, last := d, lastPush := d }
       else { result := st.result, code := d, last := st.lastPush, lastPush := st.lastPush },
       nasalGroup (c :: rest)) := by
  have hi' : (if nasalGroup (c :: rest) = true then i + 1 else i) ≠ 0 := by split <;> omega
  unfold step
  rw [transcode_eq]
  simp only [if_neg hi, if_neg hi', ne_eq, hi', not_false_eq_true, and_true]
  split <;> rfl

theorem byteLen_push (w : Str) {d : Char} (h : c!"0123456".contains d = true) :
    byteLen (w ++ [d]) = byteLen w + 1 := by
  rw [byteLen_append]
  simp [byteLen, utf8Size_ascii (digit_ascii h)]

theorem loop_eq (max : Nat) (rest : Str) (i : Nat) (skip : Bool) (st : St) (hi : i ≠ 0)
    (hl : byteLen st.result ≤ max) (hc : c!"0123456".contains st.code = true) :
    (loop max rest i skip st).result =
      st.result ++ (emit st.last st.lastPush (phonexDigits st.code
        (dropAfterNasal (if skip then rest.drop 1 else rest)))).take (max - byteLen st.result) := by
  induction rest generalizing i skip st with
  | nil => cases skip <;> simp [loop, dropAfterNasal, phonexDigits, emit]
  | cons c rest ih =>
    cases skip with
    | true =>
      rw [loop, ih (i + 1) false st (by omega) hl hc]
      rfl
    | false =>
      rw [loop]
      by_cases hfull : byteLen st.result = max
      · rw [if_pos hfull, hfull, Nat.sub_self, List.take_zero, List.append_nil]
      · rw [if_neg hfull]
        simp only [Bool.false_eq_true, if_false]
        rw [digits_cons, step_pos i hi]
        have hd := isDigit_digit c rest st.code hc
        simp only
        generalize (phonexDigit c rest).getD st.code = d at *
        by_cases hpush : st.last ≠ d ∧ d ≠ '0'
        · have hb := byteLen_push st.result hd
          rw [if_pos hpush, ih]
          · simp only
            rw [emit, if_pos hpush, hb, List.append_assoc]
            congr 1
            rw [show max - byteLen st.result = (max - (byteLen st.result + 1)) + 1 by omega,
              List.take_succ_cons]
            rfl
          · omega
          · simp only; omega
          · exact hd
        · rw [if_neg hpush, ih]
          · simp only
            rw [emit, if_neg hpush]
          · omega
          · exact hl
          · exact hd

/-- Once the limit is exceeded it has no effect any more. -/
theorem loop_over (max : Nat) (rest : Str) (i : Nat) (skip : Bool) (st : St) (hi : i ≠ 0)
    (hl : max < byteLen st.result) (hc : c!"0123456".contains st.code = true) :
    (loop max rest i skip st).result =
      st.result ++ emit st.last st.lastPush (phonexDigits st.code
        (dropAfterNasal (if skip then rest.drop 1 else rest))) := by
  induction rest generalizing i skip st with
  | nil => cases skip <;> simp [loop, dropAfterNasal, phonexDigits, emit]
  | cons c rest ih =>
    cases skip with
    | true =>
      rw [loop, ih (i + 1) false st (by omega) hl hc]
      rfl
    | false =>
      rw [loop, if_neg (by omega)]
      simp only [Bool.false_eq_true, if_false]
      rw [digits_cons, step_pos i hi]
      have hd := isDigit_digit c rest st.code hc
      simp only
      generalize (phonexDigit c rest).getD st.code = d at *
      by_cases hpush : st.last ≠ d ∧ d ≠ '0'
      · have hb := byteLen_push st.result hd
        rw [if_pos hpush, ih]
        · simp only
          rw [emit, if_pos hpush, List.append_assoc]
          rfl
        · omega
        · simp only; omega
        · exact hd
      · rw [if_neg hpush, ih]
        · simp only
          rw [emit, if_neg hpush]
        · omega
        · exact hl
        · exact hd

theorem emit_same (l : Char) (cs : Str) (hl : l ≠ '0') :
    emit l l cs = (collapse (l :: cs.filter (· ≠ '0'))).drop 1 := by
  induction cs generalizing l with
  | nil => rfl
  | cons c cs ih =>
    rw [emit]
    by_cases h0 : c = '0'
    · subst h0
      rw [if_neg (by simp), ih l hl]
      simp
    · rw [List.filter_cons_of_pos (by simpa using h0), collapse_cons_cons]
      by_cases hlc : l = c
      · subst hlc
        rw [if_neg (by simp), if_pos rfl, ih l hl]
      · rw [if_pos ⟨hlc, h0⟩, if_neg hlc, ih c h0]
        rw [← collapse_cons_drop]
        rfl

theorem collapse_fresh (l : Char) (cs : Str) (h : l ∉ cs) : (collapse (l :: cs)).drop 1 = collapse cs := by
  cases cs with
  | nil => rfl
  | cons c cs =>
    rw [collapse_cons_cons, if_neg (fun e => h (by simp [e]))]
    rfl

theorem digits_mem (prev : Char) (w : Str) (hp : c!"0123456".contains prev = true) :
    ∀ d ∈ phonexDigits prev w, c!"0123456".contains d = true := by
  induction w generalizing prev with
  | nil => simp [phonexDigits]
  | cons c w ih =>
    rw [phonexDigits]
    intro d hd
    rcases List.mem_cons.mp hd with rfl | hd
    · exact isDigit_digit c w prev hp
    · exact ih _ (isDigit_digit c w prev hp) d hd

/-- The first iteration. -/
theorem step_zero (c : Char) (rest : Str) :
    step 0 c rest.head? St.init =
      (let d := (phonexDigit c rest).getD '0'
       if nasalGroup (c :: rest) then { result := [c, d], code := d, last := d, lastPush := d }
       else { result := [c], code := d, last := d, lastPush := c }, nasalGroup (c :: rest)) := by
  unfold step
  rw [transcode_eq]
  cases hn : nasalGroup (c :: rest) with
  | true =>
    have hc : c = 'M' ∨ c = 'N' := by
      apply Decidable.byContradiction
      intro h
      rw [nasal_mn c rest h] at hn
      cases hn
    rcases hc with rfl | rfl <;> rfl
  | false => simp [St.init]

/-- The digits pushed for a prepared word, in the terms of the loop. -/
theorem emit_tail (c : Char) (rest : Str) (hc : c!"0123456".contains c = false) :
    (nasalGroup (c :: rest) = true → (phonexDigit c rest).getD '0' = '5' ∧ (c = 'M' ∨ c = 'N')) ∧
    (let d := (phonexDigit c rest).getD '0'
     collapse ((phonexTail (c :: rest)).filter (· ≠ '0')) =
      if nasalGroup (c :: rest) then d :: emit d d (phonexDigits d (dropAfterNasal (rest.drop 1)))
      else emit d c (phonexDigits d (dropAfterNasal rest))) := by
  have hd := isDigit_digit c rest '0' rfl
  have hc0 : c ≠ '0' := by rintro rfl; revert hc; decide
  have hcd : ∀ prev w, c!"0123456".contains prev = true → c ∉ (phonexDigits prev w).filter (· ≠ '0') := by
    intro prev w hp hm
    have := digits_mem prev w hp c (List.mem_filter.mp hm).1
    rw [this] at hc; cases hc
  have hmn : nasalGroup (c :: rest) = true → (phonexDigit c rest).getD '0' = '5' ∧ (c = 'M' ∨ c = 'N') := by
    intro hn
    have hc : c = 'M' ∨ c = 'N' := by
      apply Decidable.byContradiction
      intro h
      rw [nasal_mn c rest h] at hn
      cases hn
    exact ⟨by rcases hc with rfl | rfl <;> rfl, hc⟩
  refine ⟨hmn, ?_⟩
  unfold phonexTail
  rw [digits_cons]
  simp only
  generalize hD : (phonexDigit c rest).getD '0' = d at *
  cases hn : nasalGroup (c :: rest) with
  | true =>
    have hd5 := (hmn hn).1
    simp only [if_true]
    rw [emit_same d _ (by rw [hd5]; decide), List.filter_cons_of_pos (by rw [hd5]; decide),
      ← collapse_cons_drop d]
  | false =>
    simp only [Bool.false_eq_true, if_false]
    cases rest with
    | nil => rfl
    | cons b r =>
      rw [digits_cons]
      have hd' := isDigit_digit b r d hd
      generalize (phonexDigit b r).getD d = e at *
      have hcd' := hcd e (dropAfterNasal (if nasalGroup (b :: r) then r.drop 1 else r)) hd'
      generalize phonexDigits e (dropAfterNasal (if nasalGroup (b :: r) then r.drop 1 else r)) = es at *
      rw [emit]
      simp only
      by_cases hed : e = d
      · subst hed
        rw [if_pos rfl, if_neg (by simp), emit_same c _ hc0, collapse_fresh _ _ hcd']
      · rw [if_neg hed]
        by_cases he0 : e = '0'
        · subst he0
          rw [if_neg (by simp), emit_same c _ hc0, collapse_fresh _ _ hcd']
          simp
        · rw [if_pos ⟨fun h => hed h.symm, he0⟩, emit_same e _ he0,
            List.filter_cons_of_pos (by simpa using he0), ← collapse_cons_drop]

theorem run_eq (max : Nat) (c : Char) (rest : Str) (hc : c!"0123456".contains c = false) (h0 : max ≠ 0) :
    (loop max (c :: rest) 0 false St.init).result =
      c :: (if max < c.utf8Size ∨ (max = 1 ∧ nasalGroup (c :: rest) = true) then
          collapse ((phonexTail (c :: rest)).filter (· ≠ '0'))
        else (collapse ((phonexTail (c :: rest)).filter (· ≠ '0'))).take (max - c.utf8Size)) := by
  rw [loop, if_neg (by simp [St.init, byteLen]; omega)]
  simp only
  rw [step_zero]
  have hd := isDigit_digit c rest '0' rfl
  obtain ⟨hmn, htail⟩ := emit_tail c rest hc
  simp only at htail
  rw [htail]
  generalize hD : (phonexDigit c rest).getD '0' = d at *
  cases hn : nasalGroup (c :: rest) with
  | true =>
    obtain ⟨hd5, hM⟩ := hmn hn
    have hu : c.utf8Size = 1 := by rcases hM with rfl | rfl <;> rfl
    have hb : byteLen [c, d] = 2 := by
      rw [show [c, d] = [c] ++ [d] from rfl, byteLen_push _ hd]; simp [byteLen, hu]
    simp only [if_true]
    by_cases hm : max = 1
    · rw [if_pos (Or.inr ⟨hm, trivial⟩), loop_over _ _ _ _ _ (by omega) (by simp only; omega) hd]
      rfl
    · rw [if_neg (by rintro (h | h); omega; exact hm h.1),
        loop_eq _ _ _ _ _ (by omega) (by simp only; omega) hd]
      simp only [if_true, hb, hu]
      obtain ⟨m, rfl⟩ : ∃ m, max = m + 2 := ⟨max - 2, by omega⟩
      rfl
  | false =>
    have hb : byteLen [c] = c.utf8Size := by simp [byteLen]
    simp only [Bool.false_eq_true, if_false]
    by_cases hm : max < c.utf8Size
    · rw [if_pos (Or.inl hm), loop_over _ _ _ _ _ (by omega) (by simp only; omega) hd]
      rfl
    · rw [if_neg (by rintro (h | h); exact hm h; exact h.2.elim),
        loop_eq _ _ _ _ _ (by omega) (by simp only; omega) hd]
      simp only [hb]
      rfl

theorem tail_digits (w : Str) : ∀ d ∈ phonexTail w, c!"0123456".contains d = true := by
  intro d hd
  have key := digits_mem '0' (dropAfterNasal w) rfl
  unfold phonexTail at hd
  cases hdd : phonexDigits '0' (dropAfterNasal w) with
  | nil => rw [hdd] at hd; simp at hd
  | cons d0 ds =>
    rw [hdd] at hd key
    simp only at hd
    split at hd
    · exact key d hd
    · cases ds with
      | nil => simp at hd
      | cons e es =>
        simp only at hd
        split at hd
        · exact key d (by simp [hd])
        · exact key d (List.mem_cons_of_mem _ hd)

theorem code_digits (w : Str) :
    ∀ d ∈ collapse ((phonexTail w).filter (· ≠ '0')), c!"0123456".contains d = true := by
  intro d hd
  rw [mem_collapse, List.mem_filter] at hd
  exact tail_digits w d hd.1

theorem byteLen_zeros (n : Nat) : byteLen (List.replicate n '0') = n := by
  have h : AsciiStr (List.replicate n '0') := by
    intro x hx; rw [(List.mem_replicate.mp hx).2]; rfl
  rw [byteLen_ascii h, List.length_replicate]

end PhonexProofs

open PhonexProofs

theorem capacity_ok {max : Nat} (h : max < 2 ^ 63) : stringWithCapacity max = .ok [] := by
  unfold stringWithCapacity isizeMax
  rw [if_pos (by omega)]

/-- C26. `Phonex::encode` returns on every Unicode text, for every maximum length up to
`isize::MAX` (none of its
in-place replacements can fall inside a character or outside the string), and the code has at least
the maximum length. -/
theorem phonex_total (U : Unicode) (max : Nat) (s : Str) (hmax : max < 2 ^ 63) :
    ∃ code, (Phonex.new max).encode U s = .ok code ∧ max ≤ byteLen code := by
  unfold Phonex.encode
  rw [preprocess_eq]
  simp only [Phonex.new, capacity_ok hmax, bind, Except.bind, pure, Except.pure]
  refine ⟨_, rfl, ?_⟩
  unfold Phonex.pad
  rw [byteLen_append, byteLen_zeros]
  omega

/-- C73. `Phonex::encode` panics, on every text, exactly if the maximum exceeds `isize::MAX`. -/
theorem phonex_panics_iff (U : Unicode) (max : Nat) (s : Str) :
    (∃ e, (Phonex.new max).encode U s = .error e) ↔ 2 ^ 63 ≤ max := by
  constructor
  · rintro ⟨e, he⟩
    apply Classical.byContradiction
    intro hn
    obtain ⟨code, hc, -⟩ := phonex_total U max s (by omega)
    rw [hc] at he
    cases he
  · intro h
    refine ⟨.capacity, ?_⟩
    have hc : stringWithCapacity max = .error .capacity := by
      unfold stringWithCapacity isizeMax
      rw [if_neg (by omega)]
    unfold Phonex.encode
    rw [preprocess_eq]
    simp only [Phonex.new, hc, bind, Except.bind]

example : (Phonex.new (2 ^ 64 - 1)).encode .latin1 c!"Peter" = .error .capacity := by decide +kernel

/-- C50. Phonex computes its declarative definition on every Unicode text and for every maximum: the
prepared first letter and the collapsed non-zero digits of the further letters, cut or padded with
'0'. The hypothesis says that upper-casing an alphabetic character does not give a digit first. -/
theorem phonex_eq_spec (U : Unicode) (max : Nat) (s : Str) (hmax : max < 2 ^ 63)
    (hfirst : ∀ c, (phonexPrepare (letters U s)).head? = some c → c!"0123456".contains c = false) :
    (Phonex.new max).encode U s = .ok (phonexLimited max (letters U s)) := by
  unfold Phonex.encode
  rw [preprocess_eq]
  simp only [bind, Except.bind, pure, Except.pure, Phonex.new, capacity_ok hmax, Except.ok.injEq]
  unfold phonexLimited phonex
  cases hp : phonexPrepare (letters U s) with
  | nil => simp [Phonex.loop, Phonex.St.init, Phonex.pad, byteLen]
  | cons c r =>
    rw [hp] at hfirst
    by_cases h0 : max = 0
    · subst h0; simp [Phonex.loop, Phonex.St.init, byteLen, Phonex.pad]
    · rw [show ({ result := [], code := Phonex.St.init.code, last := Phonex.St.init.last, lastPush := Phonex.St.init.lastPush } :
        Phonex.St) = Phonex.St.init from rfl, run_eq max c r (hfirst c rfl) h0]
      simp only [h0, if_false]
      have hdig := code_digits (c :: r)
      generalize collapse ((phonexTail (c :: r)).filter (· ≠ '0')) = ds at *
      have hasc : AsciiStr ds := fun x hx => digit_ascii (hdig x hx)
      unfold Phonex.pad
      by_cases h1 : max < c.utf8Size ∨ (max = 1 ∧ nasalGroup (c :: r) = true)
      · rw [if_pos h1, if_pos h1]
        have : max ≤ byteLen (c :: ds) := by
          have := utf8Size_pos c
          simp only [byteLen]
          rcases h1 with h | h <;> omega
        rw [Nat.sub_eq_zero_of_le this]; simp
      · rw [if_neg h1, if_neg h1]
        have ht : AsciiStr (ds.take (max - c.utf8Size)) := hasc.sublist (List.take_sublist _ _)
        have hb : byteLen (c :: ds.take (max - c.utf8Size)) = c.utf8Size + (ds.take (max - c.utf8Size)).length := by
          rw [← byteLen_ascii ht]; rfl
        rw [hb, List.length_take]
        unfold exactly
        simp only [List.cons_append]
        congr 3
        omega

example : (∀ c, (phonexPrepare (letters .latin1 c!"Hammerschlag")).head? = some c →
      c!"0123456".contains c = false) ∧
    phonex (letters .latin1 c!"Hammerschlag") = c!"A5242" ∧
    phonexLimited 4 (letters .latin1 c!"Hammerschlag") = c!"A524" ∧
    phonexLimited 8 (letters .latin1 c!"Heinrich") = c!"A5620000" ∧
    phonexLimited 4 (letters .latin1 c!"Élodie") = c!"É43" := by decide +kernel

/-- C27. On ASCII words the code has exactly the maximum length: a capital letter followed by digits
0–6, all '0' if there is no letter to encode. The only exception is a maximum of one with a prepared
word that starts with M or N followed by D or G. -/
theorem phonex_length (U : Unicode) (max : Nat) (s : Str) (h : AsciiStr s) (hmax : max < 2 ^ 63)
    (h1 : max ≠ 1 ∨ nasalGroup (phonexPrepare (asciiLetters s)) = false) :
    ∃ code, (Phonex.new max).encode U s = .ok code ∧ code.length = max ∧
      (∀ i d, code[i + 1]? = some d → c!"0123456".contains d = true) ∧
      (∀ c, code.head? = some c → (isAsciiUpper c = true ∨
        (c = '0' ∧ phonexPrepare (asciiLetters s) = [] ∧ code = List.replicate max '0'))) := by
  have hl := letters_ascii U h
  have hup : ∀ c ∈ asciiLetters s, isAsciiUpper c = true := asciiLetters_upper
  have hprep : ∀ c, (phonexPrepare (asciiLetters s)).head? = some c → isAsciiUpper c = true := by
    intro c hc
    unfold phonexPrepare at hc
    simp only at hc
    have hfin : ∀ x ∈ dropFinalS (asciiLetters s), isAsciiUpper x = true := by
      intro x hx
      unfold dropFinalS at hx
      rw [List.mem_reverse] at hx
      exact hup x (List.mem_reverse.mp ((List.dropWhile_sublist _).subset hx))
    generalize dropFinalS (asciiLetters s) = w at *
    have hw2 : ∀ x ∈ (if c!"KN" <+: w then 'N' :: w.drop 1
        else if c!"PH" <+: w then 'F' :: w.drop 1
        else if c!"WR" <+: w then 'R' :: w.drop 1
        else w), isAsciiUpper x = true := by
      have hcons : ∀ a : Char, isAsciiUpper a = true → ∀ x ∈ a :: w.drop 1, isAsciiUpper x = true := by
        intro a ha x hx
        rcases List.mem_cons.mp hx with rfl | hx
        · exact ha
        · exact hfin x (List.mem_of_mem_drop hx)
      split
      · exact hcons _ rfl
      split
      · exact hcons _ rfl
      split
      · exact hcons _ rfl
      · exact hfin
    generalize (if c!"KN" <+: w then 'N' :: w.drop 1
        else if c!"PH" <+: w then 'F' :: w.drop 1
        else if c!"WR" <+: w then 'R' :: w.drop 1
        else w) = v at *
    have hv2 : ∀ x ∈ (if c!"H" <+: v then v.drop 1 else v), isAsciiUpper x = true := by
      intro x hx
      split at hx
      · exact hw2 x (List.mem_of_mem_drop hx)
      · exact hw2 x hx
    generalize (if c!"H" <+: v then v.drop 1 else v) = u at *
    cases u with
    | nil => simp at hc
    | cons a r =>
      simp only [List.head?_cons, Option.some.injEq] at hc
      have ha := hv2 a (by simp)
      have key : ∀ a, isAscii a = true → isAsciiUpper a = true → isAsciiUpper (phonexFirst a) = true := by
        apply forall_ascii; decide +kernel
      exact hc ▸ key a (isAscii_of_upper ha) ha
  have nodigit : ∀ c, isAscii c = true → isAsciiUpper c = true → c!"0123456".contains c = false := by
    apply forall_ascii; decide +kernel
  refine ⟨_, phonex_eq_spec U max s hmax (fun c hc => ?_), ?_⟩
  · rw [hl] at hc
    exact nodigit c (isAscii_of_upper (hprep c hc)) (hprep c hc)
  rw [hl]
  unfold phonexLimited phonex
  cases hp : phonexPrepare (asciiLetters s) with
  | nil =>
    refine ⟨by simp, ?_, ?_⟩
    · intro i d hd
      have := List.mem_of_getElem? hd
      rw [(List.mem_replicate.mp this).2]; rfl
    · intro c hc
      right
      have : c ∈ List.replicate max '0' := List.mem_of_mem_head? hc
      exact ⟨(List.mem_replicate.mp this).2, rfl, rfl⟩
  | cons c r =>
    rw [hp] at hprep h1
    have hc := hprep c rfl
    have hu := utf8Size_ascii (isAscii_of_upper hc)
    simp only
    by_cases h0 : max = 0
    · rw [if_pos h0]; subst h0; simp
    · rw [if_neg h0, if_neg (by
        rintro (h | ⟨ha, hb⟩)
        · omega
        · exact h1.elim (fun h => h ha) (fun h => by rw [h] at hb; cases hb)), hu]
      refine ⟨?_, ?_, ?_⟩
      · unfold exactly
        simp only [List.length_cons, List.length_append, List.length_take, List.length_replicate]
        omega
      · intro i d hd
        rw [List.getElem?_cons_succ] at hd
        have := List.mem_of_getElem? hd
        unfold exactly at this
        rcases List.mem_append.mp this with h | h
        · exact code_digits (c :: r) d (List.mem_of_mem_take h)
        · rw [(List.mem_replicate.mp h).2]; rfl
      · intro x hx
        cases hx
        exact .inl hc

example : AsciiStr c!"Mdivani" ∧ nasalGroup (phonexPrepare (asciiLetters c!"Meyer-Lansky")) = false ∧
    (Phonex.new 6).encode .latin1 c!"Meyer-Lansky" = .ok c!"M45200" := by decide +kernel

/-- C27. The exceptions are real, and then the code is not limited at all: with a maximum of one, a
word that starts with a nasal group gets the code without limit, which has at least two characters. -/
theorem phonex_one_overshoots (U : Unicode) (s : Str)
    (h : nasalGroup (phonexPrepare (letters U s)) = true) :
    (Phonex.new 1).encode U s = .ok (phonex (letters U s)) ∧ 2 ≤ (phonex (letters U s)).length := by
  have hfirst : ∀ c, (phonexPrepare (letters U s)).head? = some c →
      c!"0123456".contains c = false ∧ (c = 'M' ∨ c = 'N') := by
    intro c hc
    cases hp : phonexPrepare (letters U s) with
    | nil => rw [hp] at h; cases h
    | cons a r =>
      rw [hp] at hc h
      cases hc
      have : c = 'M' ∨ c = 'N' := by
        apply Decidable.byContradiction
        intro hh
        rw [nasal_mn c r hh] at h
        cases h
      exact ⟨by rcases this with rfl | rfl <;> rfl, this⟩
  rw [phonex_eq_spec U 1 s (by decide) (fun c hc => (hfirst c hc).1)]
  unfold phonexLimited
  rw [h]
  unfold phonex
  cases hp : phonexPrepare (letters U s) with
  | nil => rw [hp] at h; cases h
  | cons a r =>
    refine ⟨by simp, ?_⟩
    have := (emit_tail a r (hfirst a (by rw [hp]; rfl)).1).2
    simp only at this
    rw [hp] at h
    simp only
    rw [this, h]
    simp

example : nasalGroup (phonexPrepare (letters .latin1 c!"Ndrangheta")) = true ∧
    (Phonex.new 1).encode .latin1 c!"Ndrangheta" = .ok c!"N5653" ∧
    (Phonex.new 1).encode .latin1 c!"Élodie" = .ok c!"É43" := by decide +kernel

/-- C27. The codes of the default encoder have exactly four characters, on every ASCII word. -/
theorem phonex_default_length (U : Unicode) (s : Str) (h : AsciiStr s) :
    ∃ code, Phonex.default.encode U s = .ok code ∧ code.length = 4 := by
  obtain ⟨code, e, hl, _⟩ := phonex_length U 4 s h (by decide) (.inl (by decide))
  exact ⟨code, e, hl⟩

example : AsciiStr c!"Peterson" ∧ Phonex.default.encode .latin1 c!"Peterson" = .ok c!"B325" := by decide +kernel

end Verif.Props
