import Verif.Props.Metaphone
import Verif.Proofs.Res
namespace Verif.Props
open Verif.Spec
set_option linter.unusedSimpArgs false

namespace LocalProofs

theorem ascii_append {s t : Str} (hs : AsciiStr s) (ht : AsciiStr t) : AsciiStr (s ++ t) :=
  fun c hc => (List.mem_append.mp hc).elim (hs c) (ht c)

theorem p1 (a x : Char) (w : Str) : ([a] <+: x :: w) ↔ a = x := by simp [List.cons_prefix_cons]
theorem p2 (a b x y : Char) (w : Str) : ([a, b] <+: x :: y :: w) ↔ a = x ∧ b = y := by
  simp [List.cons_prefix_cons]

/-- What follows the next two letters does not matter, except for CH at the beginning of a word. -/
theorem letter_local (before : Str) (c d e : Char) (r r' : Str) (h : before ≠ [] ∨ (r ≠ [] ∧ r' ≠ [])) :
    metaLetter before c (d :: e :: r) = metaLetter before c (d :: e :: r') := by
  have h3 : ∀ P : Prop, (before = [] ∧ 3 ≤ (d :: e :: r).length ∧ P) ↔ (before = [] ∧ 3 ≤ (d :: e :: r').length ∧ P) := by
    have g : ∀ w : Str, w ≠ [] → 3 ≤ (d :: e :: w).length := by
      intro w hw; cases w with
      | nil => exact absurd rfl hw
      | cons x w => simp
    intro P
    rcases h with h | ⟨h1, h2⟩
    · simp [h]
    · simp only [g r h1, g r' h2]
  unfold metaLetter
  simp only [p1, p2, startsVowel, startsIn, List.drop_succ_cons, List.drop_zero, reduceCtorEq, and_false]
  by_cases hv : before = [] ∧ 3 ≤ (d :: e :: r).length ∧ c!"AEIOUaeiou".contains e = true
  · rw [if_pos hv, if_pos ((h3 _).mp hv)]
    repeat' first | rfl | refine ite_congr rfl (fun _ => ?_) (fun _ => ?_)
  · rw [if_neg hv, if_neg (fun g => hv ((h3 _).mpr g))]
    repeat' first | rfl | refine ite_congr rfl (fun _ => ?_) (fun _ => ?_)

theorem absorbed_local (before : Str) (c d : Char) (r r' : Str) :
    metaAbsorbed before c (d :: r) = metaAbsorbed before c (d :: r') := rfl

/-- The contribution of a letter. -/
def contrib (before : Str) (c : Char) (after : Str) : Str :=
  if metaAbsorbed before c after ∨ (c ≠ 'C' ∧ [c] <+: before) then [] else metaLetter before c after

theorem codes_cons (before : Str) (c : Char) (after : Str) :
    metaCodes before (c :: after) = contrib before c after ++ metaCodes (c :: before) after := rfl

theorem contrib_local (before : Str) (c d e : Char) (r r' : Str) (h : before ≠ [] ∨ (r ≠ [] ∧ r' ≠ [])) :
    contrib before c (d :: e :: r) = contrib before c (d :: e :: r') := by
  unfold contrib
  rw [letter_local before c d e r r' h, absorbed_local before c d (e :: r) (e :: r')]

theorem contrib_X (before after : Str) : contrib before 'X' after = if ([] : Str) = before then ['K','S'] else
    if ['X'] <+: before then [] else ['K', 'S'] := by
  unfold contrib metaAbsorbed metaLetter
  cases before with
  | nil => simp
  | cons b bs => simp

theorem letter_len (before : Str) (c : Char) (after : Str) (h : c ≠ 'X') : (metaLetter before c after).length ≤ 1 := by
  have h0 : ([] : Str).length ≤ 1 := by simp
  have h1 : ∀ x : Char, [x].length ≤ 1 := by simp
  unfold metaLetter
  repeat' first
    | with_reducible exact h0
    | with_reducible exact h1 _
    | (exact absurd (by assumption) h)
    | refine ite_ind (fun s : Str => s.length ≤ 1) (fun _ => ?_) (fun _ => ?_)

theorem contrib_len (before : Str) (c : Char) (after : Str) (h : c ≠ 'X') : (contrib before c after).length ≤ 1 := by
  unfold contrib
  split
  · simp
  · exact letter_len _ _ _ h

theorem contrib_len2 (before : Str) (c : Char) (after : Str) : (contrib before c after).length ≤ 2 := by
  by_cases h : c = 'X'
  · subst h; rw [contrib_X]; repeat' split
    all_goals simp
  · exact Nat.le_succ_of_le (contrib_len _ _ _ h)

theorem contrib_beforeX (before : Str) (c : Char) (r r' : Str) :
    contrib before c ('X' :: r) = contrib before c ('X' :: r') := by
  have : metaLetter before c ('X' :: r) = metaLetter before c ('X' :: r') := by
    unfold metaLetter
    simp [p1, List.cons_prefix_cons, startsVowel, startsIn]
  unfold contrib
  rw [this, absorbed_local before c 'X' r r']

/-- Letters appended to a word change at most its last two codes. -/
theorem codes_local (s t : Str) : ∀ before : Str, ∃ p, p <+: metaCodes before s ∧ p <+: metaCodes before (s ++ t) ∧
    (metaCodes before s).length ≤ p.length + 2 := by
  have lift : ∀ (before : Str) (c : Char) (s : Str), contrib before c s = contrib before c (s ++ t) →
      (∃ p, p <+: metaCodes (c :: before) s ∧ p <+: metaCodes (c :: before) (s ++ t) ∧
        (metaCodes (c :: before) s).length ≤ p.length + 2) →
      ∃ p, p <+: metaCodes before (c :: s) ∧ p <+: metaCodes before (c :: s ++ t) ∧
        (metaCodes before (c :: s)).length ≤ p.length + 2 := by
    intro before c s h ⟨p, h1, h2, h3⟩
    refine ⟨contrib before c s ++ p, ?_, ?_, ?_⟩
    · rw [codes_cons]; exact (List.prefix_append_right_inj _).mpr h1
    · rw [List.cons_append, codes_cons, ← h]; exact (List.prefix_append_right_inj _).mpr h2
    · rw [codes_cons]; simp only [List.length_append]; omega
  induction s with
  | nil => exact fun before => ⟨[], List.nil_prefix, List.nil_prefix, by simp [metaCodes]⟩
  | cons c s ih =>
    intro before
    match s, ih with
    | [], _ =>
      refine ⟨[], List.nil_prefix, List.nil_prefix, ?_⟩
      rw [codes_cons]
      have := contrib_len2 before c []
      simpa [metaCodes] using this
    | [d], ih =>
      by_cases hx : d = 'X'
      · subst hx
        exact lift before c ['X'] (contrib_beforeX before c [] t) (ih (c :: before))
      · by_cases hc : c = 'X'
        · subst hc
          exact lift before 'X' [d] (by rw [contrib_X, contrib_X]) (ih ('X' :: before))
        · refine ⟨[], List.nil_prefix, List.nil_prefix, ?_⟩
          rw [codes_cons, codes_cons]
          have := contrib_len before c [d] hc
          have := contrib_len (c :: before) d [] hx
          simp [metaCodes]; omega
    | [d, e], ih =>
      by_cases hb : before = []
      · subst hb
        by_cases hs : contrib [] c [d, e] = contrib [] c ([d, e] ++ t)
        · exact lift [] c [d, e] hs (ih _)
        · -- C, H and a vowel
          have hch : c = 'C' ∧ d = 'H' ∧ startsVowel [e] = true := by
            by_cases hch : c = 'C' ∧ d = 'H' ∧ startsVowel [e] = true
            · exact hch
            · exfalso; apply hs
              have : metaLetter [] c [d, e] = metaLetter [] c ([d, e] ++ t) := by
                unfold metaLetter
                simp only [List.cons_append, List.nil_append, p1, p2, startsVowel, startsIn, List.drop_succ_cons,
                  List.drop_zero, reduceCtorEq, and_false] at hch ⊢
                by_cases h1 : c = 'C'
                · by_cases h2 : 'H' = d
                  · subst h1; subst h2
                    have he : c!"AEIOUaeiou".contains e = false := by
                      cases hv : c!"AEIOUaeiou".contains e with
                      | false => rfl
                      | true => exact absurd ⟨rfl, rfl, hv⟩ hch
                    simp only [he, Bool.false_eq_true, and_false, if_false]
                    simp
                  · simp [h1, h2]
                · simp [h1]
              unfold contrib
              rw [this]; rfl
          obtain ⟨rfl, rfl, he⟩ := hch
          refine ⟨[], List.nil_prefix, List.nil_prefix, ?_⟩
          rw [codes_cons, codes_cons, codes_cons]
          have h1 := contrib_len [] 'C' ['H', e] (by decide)
          have h2 : contrib ['C'] 'H' [e] = [] := by
            simp [contrib, metaLetter, metaAbsorbed, startsIn]
          have hx : e ≠ 'X' := by rintro rfl; exact absurd he (by decide)
          have h3 := contrib_len ['H', 'C'] e [] hx
          rw [h2]
          simp [metaCodes]; omega
      · exact lift before c [d, e] (contrib_local before c d e [] t (.inl hb)) (ih _)
    | d :: e :: f :: r, ih =>
      exact lift before c (d :: e :: f :: r)
        (contrib_local before c d e (f :: r) (f :: r ++ t) (.inr ⟨by simp, by simp⟩)) (ih _)

theorem initial_local (s t : Str) (h : 2 ≤ s.length) : metaInitial (s ++ t) = metaInitial s ++ t := by
  match s, h with
  | a :: b :: r, _ =>
    unfold metaInitial
    simp only [List.cons_append, p1, p2]
    repeat' split
    all_goals simp

theorem metaphone_local_upper (s t : Str) : ∃ p, p <+: metaphone s ∧ p <+: metaphone (s ++ t) ∧
    (metaphone s).length ≤ p.length + 2 := by
  match s with
  | [] => exact ⟨[], List.nil_prefix, List.nil_prefix, by simp [metaphone, metaInitial, metaCodes]⟩
  | [a] => exact ⟨[], List.nil_prefix, List.nil_prefix, by simp [metaphone]⟩
  | a :: b :: r =>
    unfold metaphone
    rw [if_neg (by simp), if_neg (by simp), initial_local _ _ (by simp)]
    exact codes_local _ t []

end LocalProofs

/-- C91. Metaphone, without a limit: letters appended to a word change at most the last two characters of its
code; the rest is the beginning of the new code. -/
theorem metaphone_extends (U : Unicode) (s t : Str) (hs : AsciiStr s) (ht : AsciiStr t) :
    ∃ p q r, (Metaphone.new none).encode U s = .ok (p ++ q) ∧ (Metaphone.new none).encode U (s ++ t) = .ok (p ++ r) ∧
      q.length ≤ 2 := by
  obtain ⟨p, ⟨q, h1⟩, ⟨r, h2⟩, h3⟩ := LocalProofs.metaphone_local_upper (s.map asciiUpper) (t.map asciiUpper)
  refine ⟨p, q, r, ?_, ?_, ?_⟩
  · rw [(metaphone_eq_spec U s hs).1, h1]
  · rw [(metaphone_eq_spec U (s ++ t) (LocalProofs.ascii_append hs ht)).1, List.map_append, h2]
  · rw [← h1] at h3; simp at h3; omega

/-- C91. Metaphone with a limit: a word whose unlimited code exceeds the limit by two characters has the code of
every word that begins with it. -/
theorem metaphone_beginning (U : Unicode) (n : Nat) (s t c : Str) (hs : AsciiStr s) (ht : AsciiStr t)
    (hc : (Metaphone.new none).encode U s = .ok c) (hn : n + 2 ≤ c.length) :
    (Metaphone.new (some n)).encode U (s ++ t) = (Metaphone.new (some n)).encode U s := by
  obtain ⟨p, ⟨q, h1⟩, ⟨r, h2⟩, h3⟩ := LocalProofs.metaphone_local_upper (s.map asciiUpper) (t.map asciiUpper)
  rw [(metaphone_eq_spec U s hs).1] at hc
  injection hc with hc
  rw [hc] at h3
  have hl : s.length ≠ 1 := by
    intro hl
    have : (s.map asciiUpper).length = 1 := by simpa using hl
    rw [metaphone, if_pos this] at hc
    rw [← hc] at hn; omega
  have hl' : (s ++ t).length ≠ 1 := by
    intro hl'
    have : s = [] := by
      cases s with
      | nil => rfl
      | cons a s =>
        exfalso
        simp only [List.length_append, List.length_cons] at hl hl'
        omega
    subst this
    have : metaphone ([] : Str) = [] := by simp [metaphone, metaInitial, metaCodes]
    rw [List.map_nil, this] at hc
    rw [← hc] at hn; simp at hn
  have hp : n ≤ p.length := by omega
  rw [(metaphone_eq_spec U s hs).2 n (.inl hl), (metaphone_eq_spec U (s ++ t) (LocalProofs.ascii_append hs ht)).2 n (.inl hl'), List.map_append, ← h1, ← h2,
    List.take_append_of_le_length hp, List.take_append_of_le_length hp]

/-- The bound is reached: "Dodg" and "Dodge". -/
theorem metaphone_extends_example : (Metaphone.new none).encode .latin1 c!"Dodg" = .ok c!"TTK" ∧
    (Metaphone.new none).encode .latin1 c!"Dodge" = .ok c!"TJ" := by decide +kernel

end Verif.Props
