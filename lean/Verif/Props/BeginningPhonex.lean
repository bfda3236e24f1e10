import Verif.Props.Phonex
import Verif.Props.BeginningNysiis
namespace Verif.Props
open Verif.Spec
set_option linter.unusedSimpArgs false

namespace LocalProofs

/-- What is left without the final S is the beginning of what is left of a longer word. -/
theorem dropFinalS_append (w t : Str) : ∃ x, dropFinalS (w ++ t) = dropFinalS w ++ x := by
  unfold dropFinalS
  rw [List.reverse_append, List.dropWhile_append]
  split
  · exact ⟨[], by simp⟩
  · rw [List.reverse_append, List.reverse_reverse]
    have h := List.takeWhile_append_dropWhile (p := (· == 'S')) (l := w.reverse)
    have h' := congrArg List.reverse h
    rw [List.reverse_append, List.reverse_reverse] at h'
    refine ⟨(w.reverse.takeWhile (· == 'S')).reverse ++ (t.reverse.dropWhile (· == 'S')).reverse, ?_⟩
    rw [← List.append_assoc, h']

/-- The rewriting of the beginning of the word. -/
def phonexStart (w : Str) : Str :=
  let w := if c!"KN" <+: w then 'N' :: w.drop 1
    else if c!"PH" <+: w then 'F' :: w.drop 1
    else if c!"WR" <+: w then 'R' :: w.drop 1
    else w
  let w := if c!"H" <+: w then w.drop 1 else w
  match w with
  | [] => []
  | c :: r => phonexFirst c :: r

theorem prepare_start (w : Str) : phonexPrepare w = phonexStart (dropFinalS w) := rfl

theorem start_short (w : Str) (h : w.length ≤ 1) : (phonexStart w).length ≤ 1 := by
  match w, h with
  | [], _ => decide
  | [c], _ =>
    unfold phonexStart
    simp only [List.cons_prefix_cons, List.prefix_nil, reduceCtorEq, and_false, if_false]
    by_cases h : c = 'H' <;> simp [h, eq_comm]

theorem phonexStart_append (w x : Str) (h : 2 ≤ w.length) : ∃ c r, phonexStart w = c :: r ∧
    phonexStart (w ++ x) = c :: r ++ x := by
  match w, h with
  | a :: b :: r, _ =>
    unfold phonexStart
    simp only [List.cons_append, List.cons_prefix_cons, List.nil_prefix, and_true, List.drop_succ_cons, List.drop_zero]
    by_cases h1 : 'K' = a ∧ 'N' = b
    · simp only [if_pos h1]
      exact ⟨_, _, rfl, rfl⟩
    by_cases h2 : 'P' = a ∧ 'H' = b
    · simp only [if_neg h1, if_pos h2]
      exact ⟨_, _, rfl, rfl⟩
    by_cases h3 : 'W' = a ∧ 'R' = b
    · simp only [if_neg h1, if_neg h2, if_pos h3]
      exact ⟨_, _, rfl, rfl⟩
    simp only [if_neg h1, if_neg h2, if_neg h3]
    by_cases h4 : 'H' = a
    · have g : ∀ w : Str, c!"H" <+: a :: w := fun w => by rw [h4]; simp [List.cons_prefix_cons]
      rw [if_pos (g _), if_pos (g _)]
      exact ⟨_, _, rfl, rfl⟩
    · have g : ∀ w : Str, ¬ c!"H" <+: a :: w := fun w => by simp [List.cons_prefix_cons, h4]
      rw [if_neg (g _), if_neg (g _)]
      exact ⟨_, _, rfl, rfl⟩

theorem dropAfterNasal_append (n : Nat) : ∀ v : Str, v.length ≤ n → ∀ x : Str, ∃ y, dropAfterNasal (v ++ x) = dropAfterNasal v ++ y := by
  induction n with
  | zero =>
    intro v hv x
    match v, hv with
    | [], _ => exact ⟨dropAfterNasal x, rfl⟩
  | succ n ih =>
    intro v hv x
    match v, hv with
    | [], _ => exact ⟨dropAfterNasal x, rfl⟩
    | [a], _ =>
      cases x with
      | nil => exact ⟨[], rfl⟩
      | cons b r =>
        simp only [List.cons_append, List.nil_append, dropAfterNasal]
        split
        · exact ⟨_, rfl⟩
        · exact ⟨_, rfl⟩
    | a :: b :: r, hv =>
      simp only [List.cons_append, dropAfterNasal]
      have hg : nasalGroup (a :: b :: (r ++ x)) = nasalGroup (a :: b :: r) := rfl
      rw [hg]
      simp only [List.length_cons] at hv
      split
      · obtain ⟨y, hy⟩ := ih r (by omega) x
        exact ⟨y, by rw [hy]; rfl⟩
      · obtain ⟨y, hy⟩ := ih (b :: r) (by simp; omega) x
        exact ⟨y, by rw [← List.cons_append, hy]; rfl⟩

theorem digits_length (prev : Char) (a : Str) : (phonexDigits prev a).length = a.length := by
  induction a generalizing prev with
  | nil => rfl
  | cons c a ih => simp [phonexDigits, ih]

/-- A letter appended to a word changes at most its last digit. -/
theorem digits_append (a : Str) (ha : a ≠ []) (y : Str) : ∀ prev : Char, ∃ (D : Str) (d : Char) (R : Str),
    phonexDigits prev a = D ++ [d] ∧ phonexDigits prev (a ++ y) = D ++ R ∧ R ≠ [] := by
  induction a with
  | nil => exact absurd rfl ha
  | cons c a ih =>
    intro prev
    cases a with
    | nil => exact ⟨[], _, _, rfl, rfl, by simp [phonexDigits]⟩
    | cons b a =>
      obtain ⟨D, d, R, h1, h2, h3⟩ := ih (by simp) ((phonexDigit c (b :: a)).getD prev)
      have hc : phonexDigit c (b :: a ++ y) = phonexDigit c (b :: a) := PhonexProofs.phonexDigit_congr _ _ _ rfl
      refine ⟨(phonexDigit c (b :: a)).getD prev :: D, d, R, ?_, ?_, h3⟩
      · rw [phonexDigits, h1]; rfl
      · rw [List.cons_append, phonexDigits, hc, h2]; rfl

/-- The digits after the first letter. -/
theorem tail_append (v x : Str) (hv : v ≠ []) : ∃ P Q R, phonexTail v = P ++ Q ∧ phonexTail (v ++ x) = P ++ R ∧
    Q.length ≤ 1 := by
  match v, hv with
  | [c], _ => exact ⟨[], [], phonexTail ([c] ++ x), rfl, rfl, by simp⟩
  | a :: b :: r, _ =>
    have hg : nasalGroup (a :: b :: r ++ x) = nasalGroup (a :: b :: r) := rfl
    obtain ⟨y, hy⟩ := dropAfterNasal_append _ (a :: b :: r) (Nat.le_refl _) x
    have hne : dropAfterNasal (a :: b :: r) ≠ [] := by
      simp only [dropAfterNasal]; split <;> simp
    obtain ⟨D, d, R, h1, h2, h3⟩ := digits_append _ hne y '0'
    unfold phonexTail
    rw [hy, h1, h2, hg]
    cases D with
    | nil =>
      simp only [List.nil_append]
      by_cases hn : nasalGroup (a :: b :: r) = true
      · simp only [if_pos hn]
        exact ⟨[], _, _, rfl, rfl, by simp⟩
      · simp only [if_neg hn]
        exact ⟨[], _, _, rfl, rfl, by simp⟩
    | cons e D =>
      simp only [List.cons_append]
      by_cases hn : nasalGroup (a :: b :: r) = true
      · simp only [hn, if_true]
        exact ⟨e :: D, [d], R, rfl, rfl, by simp⟩
      · simp only [hn, Bool.false_eq_true, if_false]
        cases D with
        | nil =>
          simp only [List.nil_append]
          by_cases hd : d = e
          · simp only [if_pos hd]; exact ⟨[], _, _, rfl, rfl, by simp⟩
          · simp only [if_neg hd]; exact ⟨[], _, _, rfl, rfl, by simp⟩
        | cons f D =>
          simp only [List.cons_append]
          by_cases hd : f = e
          · simp only [if_pos hd]; exact ⟨D, [d], R, rfl, rfl, by simp⟩
          · simp only [if_neg hd]; exact ⟨f :: D, [d], R, rfl, rfl, by simp⟩

theorem phonex_local (w t : Str) : ∃ p q r, phonex w = p ++ q ∧ phonex (w ++ t) = p ++ r ∧ q.length ≤ 1 := by
  obtain ⟨x, hx⟩ := dropFinalS_append w t
  by_cases h : 2 ≤ (dropFinalS w).length
  · obtain ⟨c, r, h1, h2⟩ := phonexStart_append _ x h
    obtain ⟨P, Q, R, h3, h4, h5⟩ := tail_append (c :: r) x (by simp)
    unfold phonex
    rw [prepare_start, prepare_start, hx, h1, h2]
    simp only [List.cons_append] at h4 ⊢
    rw [h3, h4, List.filter_append, List.filter_append]
    obtain ⟨⟨q, g1⟩, g2⟩ := collapse_append (P.filter (· ≠ '0')) (Q.filter (· ≠ '0'))
    obtain ⟨⟨r', g3⟩, _⟩ := collapse_append (P.filter (· ≠ '0')) (R.filter (· ≠ '0'))
    refine ⟨c :: collapse (P.filter (· ≠ '0')), q, r', by rw [← g1]; rfl, by rw [← g3]; rfl, ?_⟩
    have := List.length_filter_le (· ≠ '0') Q
    rw [← g1, List.length_append] at g2
    omega
  · refine ⟨[], phonex w, phonex (w ++ t), rfl, rfl, ?_⟩
    have := start_short (dropFinalS w) (by omega)
    unfold phonex
    rw [prepare_start]
    match hp : phonexStart (dropFinalS w), this with
    | [], _ => simp
    | [c], _ => simp [phonexTail, dropAfterNasal, phonexDigits, nasalGroup, collapse]

theorem phonex_head (U : Unicode) (s : Str) (h : AsciiStr s) :
    ∀ c, (phonexPrepare (letters U s)).head? = some c → isAsciiUpper c = true := by
    rw [letters_ascii U h]
    have hup : ∀ c ∈ asciiLetters s, isAsciiUpper c = true := asciiLetters_upper
    intro c hc
    unfold phonexPrepare at hc
    simp only at hc
    have hfin : ∀ x ∈ dropFinalS (asciiLetters s), isAsciiUpper x = true := by
      intro x hx
      unfold dropFinalS at hx
      rw [List.mem_reverse] at hx
      exact hup x (List.mem_reverse.mp ((List.dropWhile_sublist _).subset hx))
    generalize dropFinalS (asciiLetters s) = w at *
    have hw2 : ∀ x ∈ (if c!"KN" <+: w then 'N' :: w.drop 1
        else if c!"PH" <+: w then 'F' :: w.drop 1
        else if c!"WR" <+: w then 'R' :: w.drop 1
        else w), isAsciiUpper x = true := by
      have hcons : ∀ a : Char, isAsciiUpper a = true → ∀ x ∈ a :: w.drop 1, isAsciiUpper x = true := by
        intro a ha x hx
        rcases List.mem_cons.mp hx with rfl | hx
        · exact ha
        · exact hfin x (List.mem_of_mem_drop hx)
      split
      · exact hcons _ rfl
      split
      · exact hcons _ rfl
      split
      · exact hcons _ rfl
      · exact hfin
    generalize (if c!"KN" <+: w then 'N' :: w.drop 1
        else if c!"PH" <+: w then 'F' :: w.drop 1
        else if c!"WR" <+: w then 'R' :: w.drop 1
        else w) = v at *
    have hv2 : ∀ x ∈ (if c!"H" <+: v then v.drop 1 else v), isAsciiUpper x = true := by
      intro x hx
      split at hx
      · exact hw2 x (List.mem_of_mem_drop hx)
      · exact hw2 x hx
    generalize (if c!"H" <+: v then v.drop 1 else v) = u at *
    cases u with
    | nil => simp at hc
    | cons a r =>
      simp only [List.head?_cons, Option.some.injEq] at hc
      have ha := hv2 a (by simp)
      have key : ∀ a, isAscii a = true → isAsciiUpper a = true → isAsciiUpper (phonexFirst a) = true := by
        apply forall_ascii; decide +kernel
      exact hc ▸ key a (isAscii_of_upper ha) ha

/-- On ASCII words and with a maximum of at least two, the code is the unlimited code, cut or padded. -/
theorem phonex_exactly (U : Unicode) (n : Nat) (h2 : 2 ≤ n) (hn : n < 2 ^ 63) (s : Str) (hs : AsciiStr s) :
    (Phonex.new n).encode U s = .ok (exactly n (phonex (letters U s))) := by
  have nodigit : ∀ c, isAscii c = true → isAsciiUpper c = true → c!"0123456".contains c = false := by
    apply forall_ascii; decide +kernel
  have hp := phonex_head U s hs
  rw [phonex_eq_spec U n s hn (fun c hc => nodigit c (isAscii_of_upper (hp c hc)) (hp c hc))]
  congr 1
  have hh : ∀ c ds, phonex (letters U s) = c :: ds → c.utf8Size = 1 := by
    intro c ds h
    apply utf8Size_ascii
    apply isAscii_of_upper
    apply hp
    unfold phonex at h
    split at h
    · cases h
    · rename_i c' r hr
      rw [hr]; injection h with h _; rw [h]; rfl
  unfold phonexLimited
  split
  · rename_i h0
    rw [h0]; simp [exactly]
  · rename_i c ds h0
    have h1 := hh c ds h0
    rw [h0, if_neg (by omega), h1, if_neg (by omega)]
    obtain ⟨m, rfl⟩ : ∃ m, n = m + 1 := ⟨n - 1, by omega⟩
    simp [exactly]

end LocalProofs

/-- C91. Phonex: letters appended to a word change at most the last character of its code before the padding. -/
theorem phonex_extends (U : Unicode) (n : Nat) (h2 : 2 ≤ n) (hn : n < 2 ^ 63) (s t : Str) (hs : AsciiStr s)
    (ht : AsciiStr t) : ∃ (p q r : Str) (k : Nat), (Phonex.new n).encode U s = .ok (p ++ q ++ List.replicate k '0') ∧
      (Phonex.new n).encode U (s ++ t) = .ok (p ++ r) ∧ q.length ≤ 1 := by
  have ha : AsciiStr (s ++ t) := fun c hc => (List.mem_append.mp hc).elim (hs c) (ht c)
  obtain ⟨p, q, r, h3, h4, h5⟩ := LocalProofs.phonex_local (letters U s) (letters U t)
  rw [LocalProofs.phonex_exactly U n h2 hn s hs, LocalProofs.phonex_exactly U n h2 hn (s ++ t) ha, letters_append, h3, h4]
  unfold exactly
  rw [List.take_append, List.take_append, List.append_assoc]
  refine ⟨p.take n, q.take (n - p.length), _, _, by rw [List.append_assoc], by rw [List.append_assoc], ?_⟩
  rw [List.length_take]; omega

/-- C91. Phonex: if the code with one more character has no zero, it begins with the code of every word that begins
with this one. -/
theorem phonex_beginning (U : Unicode) (n : Nat) (h2 : 2 ≤ n) (hn : n + 1 < 2 ^ 63) (s t c : Str) (hs : AsciiStr s)
    (ht : AsciiStr t) (hc : (Phonex.new (n + 1)).encode U s = .ok c) (h0 : '0' ∉ c) :
    (Phonex.new n).encode U (s ++ t) = .ok (c.take n) := by
  have ha : AsciiStr (s ++ t) := fun c hc => (List.mem_append.mp hc).elim (hs c) (ht c)
  obtain ⟨p, q, r, h3, h4, h5⟩ := LocalProofs.phonex_local (letters U s) (letters U t)
  rw [LocalProofs.phonex_exactly U (n + 1) (by omega) hn s hs, h3] at hc
  have hc := Except.ok.inj hc
  have hl : n + 1 ≤ (p ++ q).length := by
    cases hk : n + 1 - (p ++ q).length with
    | zero => omega
    | succ k =>
      exfalso
      apply h0
      rw [← hc, exactly, hk, List.replicate_succ]
      simp
  rw [List.length_append] at hl
  have hp : n ≤ p.length := by omega
  rw [LocalProofs.phonex_exactly U n h2 (by omega) (s ++ t) ha, letters_append, h4, ← hc]
  unfold exactly
  have e1 : n - (p ++ r).length = 0 := by rw [List.length_append]; omega
  have e2 : n + 1 - (p ++ q).length = 0 := by rw [List.length_append]; omega
  rw [e1, e2, List.replicate_zero, List.append_nil, List.append_nil, List.take_take, Nat.min_eq_left (by omega),
    List.take_append_of_le_length hp, List.take_append_of_le_length hp]

/-- A final digit that changes: "Peter" and "Peterson"; a code that is decided: "Hammerschlag". -/
theorem phonex_extends_example : (Phonex.new 5).encode .latin1 c!"Peter" = .ok c!"B3600" ∧
    (Phonex.new 5).encode .latin1 c!"Peterson" = .ok c!"B3250" ∧
    (Phonex.new 5).encode .latin1 c!"Hammerschlag" = .ok c!"A5242" ∧
    Phonex.default.encode .latin1 c!"Hammerschlager" = .ok c!"A524" := by decide +kernel

end Verif.Props
