import Verif.Spec.Interchange
import Verif.Proofs.Interchange
/-!
# Letters that may be written twice (C101)
-/

set_option linter.unusedSimpArgs false
set_option linter.unusedVariables false

namespace Verif.Props
open Spec
namespace DoubledProofs

/-! ## Metaphone -/

/-- Texts before a letter (nearest first) that differ by the repetition of a letter that is neither D nor G. -/
inductive Again : Str → Str → Prop where
  | here (c : Char) (q : Str) (h : c ≠ 'D' ∧ c ≠ 'G') : Again (c :: c :: q) (c :: q)
  | later (d : Char) {b b' : Str} (h : Again b b') : Again (d :: b) (d :: b')

theorem Again.one {b b' : Str} (h : Again b b') (c : Char) : ([c] <+: b) ↔ ([c] <+: b') := by
  cases h <;> simp [List.cons_prefix_cons]

theorem Again.nil {b b' : Str} (h : Again b b') : (b = [] ↔ b' = []) := by
  cases h <;> simp

theorem Again.startsIn {b b' : Str} (h : Again b b') (l : Str) : startsIn b l = startsIn b' l := by
  cases h <;> rfl

theorem Again.plainD {b b' : Str} (h : Again b b') : plainD b = plainD b' := by
  cases h with
  | here c q h =>
    have : (c!"D").isPrefixOf (c :: q) = false := by
      simp [List.isPrefixOf, Ne.symm h.1]
    have t : (c!"D").isPrefixOf (c :: c :: q) = false := by
      simp [List.isPrefixOf, Ne.symm h.1]
    unfold Spec.plainD
    rw [this, t]
    rfl
  | later d h =>
    unfold Spec.plainD
    have := h.one 'D'
    rw [← List.isPrefixOf_iff_prefix, ← List.isPrefixOf_iff_prefix, ← Bool.eq_iff_iff] at this
    simp only [List.isPrefixOf, this]
    
theorem Again.absorbed {b b' : Str} (h : Again b b') (c : Char) (after : Str) :
    metaAbsorbed b c after = metaAbsorbed b' c after := by
  unfold metaAbsorbed
  rw [h.plainD]
  congr 1
  cases h with
  | here c q h =>
    have e1 : (c!"GD").isPrefixOf (c :: c :: q) = false := by simp [List.isPrefixOf, Ne.symm h.2]
    have e2 : (c!"GD").isPrefixOf (c :: q) = false := by simp [List.isPrefixOf, Ne.symm h.2]
    rw [e1, e2]
    simp
  | later d h =>
    have := h.one 'D'
    rw [← List.isPrefixOf_iff_prefix, ← List.isPrefixOf_iff_prefix, ← Bool.eq_iff_iff] at this
    simp only [List.drop_succ_cons, List.drop_zero, h.plainD, List.isPrefixOf, this]

theorem Again.letter {b b' : Str} (h : Again b b') (c : Char) (after : Str) : metaLetter b c after = metaLetter b' c after := by
  unfold metaLetter
  simp only [h.one, h.nil, h.startsIn, ne_eq]

theorem Again.codes {after : Str} : ∀ {b b' : Str}, Again b b' → metaCodes b after = metaCodes b' after := by
  induction after with
  | nil => intro b b' h; rfl
  | cons c after ih =>
    intro b b' h
    simp only [metaCodes, h.absorbed, h.one, h.letter, ih (h.later c)]

/-- A word begins both texts or none, if the letter is at most the last one of the word. -/
theorem prefix_again {w : Str} {c : Char} (hw : c ∉ w.dropLast) (x y : Str) :
    (w <+: x ++ c :: c :: y) ↔ (w <+: x ++ c :: y) := by
  induction x generalizing w with
  | nil =>
    match w, hw with
    | [], _ => simp
    | [d], _ => simp [List.cons_prefix_cons]
    | d :: e :: w, hw =>
      have : d ≠ c := by
        intro h
        apply hw
        simp [List.dropLast, h]
      simp [List.cons_prefix_cons, this]
  | cons a x ih =>
    match w, hw with
    | [], _ => simp
    | [d], _ => simp [List.cons_prefix_cons]
    | d :: e :: w, hw =>
      have : c ∉ (e :: w).dropLast := fun h => hw (by simp [List.dropLast] at h ⊢; exact .inr h)
      simp only [List.cons_append, List.cons_prefix_cons, ih this]

theorem startsIn_again (x y l : Str) (c : Char) : startsIn (x ++ c :: c :: y) l = startsIn (x ++ c :: y) l := by
  cases x <;> rfl

/-- Two letters ahead. -/
theorem second_again {d c : Char} (x y l : Str) (hd : d ≠ c) : ([d] <+: x ++ c :: y) →
    startsIn ((x ++ c :: c :: y).drop 1) l = startsIn ((x ++ c :: y).drop 1) l := by
  intro h
  cases x with
  | nil => simp [List.cons_prefix_cons] at h; exact absurd h hd
  | cons a x => exact startsIn_again x y l c

theorem meta_letter_again (before : Str) (d c : Char) (x y : Str) (hc : c ∈ c!"FJKLMNQRVXZ") :
    metaLetter before d (x ++ c :: c :: y) = metaLetter before d (x ++ c :: y) := by
  have p1 : ∀ e : Char, ([e] <+: x ++ c :: c :: y) ↔ ([e] <+: x ++ c :: y) := fun e => prefix_again (by simp) x y
  have hn : c ≠ 'I' ∧ c ≠ 'C' ∧ c ≠ 'H' ∧ c ≠ 'G' := by
    have : ∀ c ∈ c!"FJKLMNQRVXZ", c ≠ 'I' ∧ c ≠ 'C' ∧ c ≠ 'H' ∧ c ≠ 'G' := by decide
    exact this c hc
  have hv : (c!"AEIOUaeiou").contains c = false := by
    have : ∀ c ∈ c!"FJKLMNQRVXZ", (c!"AEIOUaeiou").contains c = false := by decide
    exact this c hc
  have pIA : (c!"IA" <+: x ++ c :: c :: y) ↔ (c!"IA" <+: x ++ c :: y) :=
    prefix_again (by simp [hn.1]) x y
  have pIO : (c!"IO" <+: x ++ c :: c :: y) ↔ (c!"IO" <+: x ++ c :: y) :=
    prefix_again (by simp [hn.1]) x y
  have pCH : (c!"CH" <+: x ++ c :: c :: y) ↔ (c!"CH" <+: x ++ c :: y) :=
    prefix_again (by simp [hn.2.1]) x y
  have pG : (c!"G" <+: x ++ c :: c :: y ∧ startsIn ((x ++ c :: c :: y).drop 1) c!"EIY" = true) ↔
      (c!"G" <+: x ++ c :: y ∧ startsIn ((x ++ c :: y).drop 1) c!"EIY" = true) := by
    rw [p1]
    exact and_congr_right fun h => by rw [second_again x y _ (Ne.symm hn.2.2.2) h]
  have pH : (c!"H" <+: x ++ c :: c :: y ∧ ¬ startsVowel ((x ++ c :: c :: y).drop 1) = true) ↔
      (c!"H" <+: x ++ c :: y ∧ ¬ startsVowel ((x ++ c :: y).drop 1) = true) := by
    rw [p1]
    exact and_congr_right fun h => by unfold startsVowel; rw [second_again x y _ (Ne.symm hn.2.2.1) h]
  have nil1 : x ++ c :: c :: y ≠ [] := by simp
  have nil2 : x ++ c :: y ≠ [] := by simp
  have pV : startsVowel (x ++ c :: c :: y) = startsVowel (x ++ c :: y) := startsIn_again x y _ c
  have p3 : c!"H" <+: x ++ c :: y → ((3 ≤ (x ++ c :: c :: y).length ∧ startsVowel ((x ++ c :: c :: y).drop 1) = true) ↔
      (3 ≤ (x ++ c :: y).length ∧ startsVowel ((x ++ c :: y).drop 1) = true)) := by
    intro h
    unfold startsVowel
    rw [second_again x y _ (Ne.symm hn.2.2.1) h]
    refine and_congr_left fun h' => ?_
    match x, h, h' with
    | [], h, _ => simp [List.cons_prefix_cons] at h; exact absurd h.symm hn.2.2.1
    | [a], _, h' => 
      exfalso
      simp only [List.cons_append, List.nil_append, List.drop_succ_cons, List.drop_zero, startsIn, hv] at h'
      cases h'
    | a :: b :: x, _, _ => simp; omega
  unfold metaLetter
  simp only [pG, pH]
  simp only [p1, pIA, pIO, pCH, pV, startsIn_again, nil1, nil2]
  by_cases h : c!"H" <+: x ++ c :: y
  · simp only [p3 h]
  · simp only [if_neg h]

theorem meta_codes (x : Str) : ∀ (before : Str) (c : Char) (y : Str), c ∈ c!"FJKLMNQRVXZ" →
    metaCodes before (x ++ c :: c :: y) = metaCodes before (x ++ c :: y) := by
  induction x with
  | nil =>
    intro before c y hc
    have hcD : c ≠ 'D' ∧ c ≠ 'G' ∧ c ≠ 'C' := by
      simp only [List.mem_cons, List.not_mem_nil, or_false] at hc
      rcases hc with rfl | rfl | rfl | rfl | rfl | rfl | rfl | rfl | rfl | rfl | rfl <;> decide
    have e1 : metaCodes (c :: before) (c :: y) = metaCodes (c :: before) y := by
      simp only [metaCodes]
      rw [if_pos (Or.inr ⟨hcD.2.2, by simp⟩)]
      exact (Again.here c before ⟨hcD.1, hcD.2.1⟩).codes
    show (if _ then _ else _) ++ metaCodes (c :: before) (c :: y) = _
    rw [e1]
    show _ = (if _ then _ else _) ++ metaCodes (c :: before) y
    congr 1
    simp only [List.mem_cons, List.not_mem_nil, or_false] at hc
    rcases hc with rfl | rfl | rfl | rfl | rfl | rfl | rfl | rfl | rfl | rfl | rfl <;>
      simp [metaAbsorbed, metaLetter]
  | cons d x ih =>
    intro before c y hc
    have ha : metaAbsorbed before d (x ++ c :: c :: y) = metaAbsorbed before d (x ++ c :: y) := by
      unfold metaAbsorbed
      rw [startsIn_again]
    simp only [List.cons_append, metaCodes, ih (d :: before) c y hc, meta_letter_again before d c x y hc, ha]

theorem meta_doubled {u v : Str} {c : Char}
    (h : (u = [] ∧ c ∈ c!"FJLMNR") ∨ (u ≠ [] ∧ c ∈ c!"FJKLMNQRVXZ")) :
    metaphone (u ++ c :: c :: v) = metaphone (u ++ c :: v) := by
  unfold metaphone
  have l1 : (u ++ c :: c :: v).length ≠ 1 := by simp; omega
  rw [if_neg l1]
  rcases h with ⟨rfl, hc⟩ | ⟨hu, hc⟩
  · have hc' : c ∈ c!"FJKLMNQRVXZ" := by
      have : ∀ c ∈ c!"FJLMNR", c ∈ c!"FJKLMNQRVXZ" := by decide
      exact this c hc
    have hi : ∀ w : Str, metaInitial (c :: w) = c :: w := by
      intro w
      simp only [List.mem_cons, List.not_mem_nil, or_false] at hc
      rcases hc with rfl | rfl | rfl | rfl | rfl | rfl <;> simp [metaInitial, List.cons_prefix_cons]
    simp only [List.nil_append, hi]
    split
    · next h1 =>
      have : v = [] := by cases v with
        | nil => rfl
        | cons a v => simp at h1
      subst this
      simp only [List.mem_cons, List.not_mem_nil, or_false] at hc
      rcases hc with rfl | rfl | rfl | rfl | rfl | rfl <;> decide
    · exact meta_codes [] [] c v hc'
  · obtain ⟨a, x, rfl⟩ : ∃ a x, u = a :: x := by
      cases u with
      | nil => exact absurd rfl hu
      | cons a x => exact ⟨a, x, rfl⟩
    rw [if_neg (by simp)]
    have p : ∀ a' b : Char, ([a', b] <+: a :: x ++ c :: c :: v) ↔ ([a', b] <+: a :: x ++ c :: v) := by
      intro a' b
      cases x <;> simp [List.cons_prefix_cons]
    have p1 : ∀ a' : Char, ([a'] <+: a :: x ++ c :: c :: v) ↔ ([a'] <+: a :: x ++ c :: v) := by
      intro a'
      simp [List.cons_prefix_cons]
    unfold metaInitial
    simp only [p, p1]
    refine ite_ind (fun r => metaCodes [] r = _) (fun h => ?_) (fun h => ?_)
    · rw [if_pos h]
      exact meta_codes x [] c v hc
    · rw [if_neg h]
      refine ite_ind (fun r => metaCodes [] r = _) (fun h => ?_) (fun h => ?_)
      · rw [if_pos h]
        cases x with
        | nil =>
          exfalso
          simp [List.cons_prefix_cons] at h
          rw [← h.2] at hc
          revert hc; decide
        | cons b x => exact meta_codes ('W' :: x) [] c v hc
      · rw [if_neg h]
        refine ite_ind (fun r => metaCodes [] r = _) (fun h => ?_) (fun h => ?_)
        · rw [if_pos h]
          exact meta_codes ('S' :: x) [] c v hc
        · rw [if_neg h]
          exact meta_codes (a :: x) [] c v hc

end DoubledProofs
end Verif.Props
