import Verif.Props.Metaphone
/-!
# C116: Metaphone codes are put together from the codes of parts
-/

set_option linter.unusedSimpArgs false

namespace Verif.Props
open Spec

namespace PartsProofs

/-- Whether a text begins with `l` can be seen up to the first letter that does not occur in `l` (except at its end). -/
theorem prefix_cut (l : Str) (v : Char) (q : Str) : ∀ p : Str, v ∉ l.dropLast → (l <+: p ++ v :: q ↔ l <+: p ++ [v]) := by
  induction l with
  | nil => intro p _; simp
  | cons a l ih =>
    intro p hv
    cases p with
    | nil =>
      simp only [List.nil_append, List.cons_prefix_cons]
      cases l with
      | nil => simp
      | cons b l =>
        have : a ≠ v := by rintro rfl; exact hv (by simp [List.dropLast])
        simp [this]
    | cons x p =>
      simp only [List.cons_append, List.cons_prefix_cons]
      rw [ih p]
      cases l with
      | nil => simp
      | cons b l => exact fun h => hv (by simp only [List.dropLast] at h ⊢; exact List.mem_cons_of_mem _ h)

theorem prefixB_cut (l : Str) (v : Char) (q p : Str) (h : v ∉ l.dropLast) :
    l.isPrefixOf (p ++ v :: q) = l.isPrefixOf (p ++ [v]) := by
  rw [Bool.eq_iff_iff, List.isPrefixOf_iff_prefix, List.isPrefixOf_iff_prefix, prefix_cut l v q p h]

theorem startsIn_cut (l : Str) (v : Char) (q p : Str) : startsIn (p ++ v :: q) l = startsIn (p ++ [v]) l := by
  cases p <;> rfl

theorem startsVowel_cut (v : Char) (q p : Str) : startsVowel (p ++ v :: q) = startsVowel (p ++ [v]) := startsIn_cut _ v q p

theorem meta_vowel {v : Char} (hv : v ∈ c!"AEOU") : v ≠ 'D' ∧ v ≠ 'G' ∧ v ≠ 'H' ∧ v ≠ 'I' ∧ v ≠ 'C' ∧ c!"AEIOU".contains v = true ∧
    isAscii v = true := by
  have : ∀ v ∈ c!"AEOU", v ≠ 'D' ∧ v ≠ 'G' ∧ v ≠ 'H' ∧ v ≠ 'I' ∧ v ≠ 'C' ∧ c!"AEIOU".contains v = true ∧
    isAscii v = true := by decide +kernel
  exact this v hv

theorem plainD_cut {v : Char} (hv : v ∈ c!"AEOU") (q p : Str) : plainD (p ++ v :: q) = plainD (p ++ [v]) := by
  have hD := (meta_vowel hv).1
  unfold plainD
  rw [prefixB_cut c!"D" v q p (by simp), prefixB_cut c!"DD" v q p (by simpa [List.dropLast] using hD)]

theorem absorbed_before {v : Char} (hv : v ∈ c!"AEOU") (q p : Str) (c : Char) (after : Str) :
    metaAbsorbed (p ++ v :: q) c after = metaAbsorbed (p ++ [v]) c after := by
  obtain ⟨hD, hG, _⟩ := meta_vowel hv
  unfold metaAbsorbed
  rw [plainD_cut hv, prefixB_cut c!"GD" v q p (by simpa [List.dropLast] using hG)]
  cases p with
  | nil =>
    have : c!"GD".isPrefixOf ([] ++ [v]) = false := by
      simp [List.isPrefixOf]
    rw [this]; simp
  | cons x p =>
    simp only [List.cons_append, List.drop_one, List.tail_cons]
    rw [plainD_cut hv]

theorem letter_before {v : Char} (q p : Str) (c : Char) (after : Str) :
    metaLetter (p ++ v :: q) c after = metaLetter (p ++ [v]) c after := by
  unfold metaLetter
  simp only [prefix_cut c!"M" v q p (by simp), prefix_cut c!"S" v q p (by simp), prefix_cut c!"C" v q p (by simp),
    startsIn_cut, ne_eq, List.append_eq_nil_iff, List.cons_ne_nil, and_false, reduceCtorEq]

/-- The letters before a vowel do not matter. -/
theorem codes_before {v : Char} (hv : v ∈ c!"AEOU") (b : Str) : ∀ q p, metaCodes (p ++ v :: q) b = metaCodes (p ++ [v]) b := by
  induction b with
  | nil => intros; rfl
  | cons c b ih =>
    intro q p
    rw [metaCodes, metaCodes, absorbed_before hv, letter_before]
    have h1 := ih q (c :: p)
    simp only [List.cons_append] at h1
    rw [h1]
    have h2 : [c] <+: p ++ v :: q ↔ [c] <+: p ++ [v] := prefix_cut [c] v q p (by simp)
    simp only [h2]

/-- The letters after a vowel do not matter, except after CH. -/
theorem letter_after {v : Char} (hv : v ∈ c!"AEOU") (b r : Str) (before : Str) (c : Char)
    (h : ¬ (before = [] ∧ c = 'C' ∧ r = ['H'])) :
    metaLetter before c (r ++ v :: b) = metaLetter before c (r ++ [v]) := by
  obtain ⟨hD, hG, hH, hI, hC, _⟩ := meta_vowel hv
  have d1 : (c!"H" <+: r ++ [v] ∧ ¬ startsVowel ((r ++ v :: b).drop 1) = true) =
      (c!"H" <+: r ++ [v] ∧ ¬ startsVowel ((r ++ [v]).drop 1) = true) := by
    cases r with
    | nil => simp [Ne.symm hH]
    | cons e r => simp only [List.cons_append, List.drop_one, List.tail_cons, startsVowel_cut]
  have d2 : (c!"G" <+: r ++ [v] ∧ startsIn ((r ++ v :: b).drop 1) c!"EIY" = true) =
      (c!"G" <+: r ++ [v] ∧ startsIn ((r ++ [v]).drop 1) c!"EIY" = true) := by
    cases r with
    | nil => simp [Ne.symm hG]
    | cons e r => simp only [List.cons_append, List.drop_one, List.tail_cons, startsIn_cut]
  have d3 : c = 'C' → c!"H" <+: r ++ [v] →
      ((before = [] ∧ 3 ≤ (r ++ v :: b).length ∧ startsVowel ((r ++ v :: b).drop 1) = true) ↔
      (before = [] ∧ 3 ≤ (r ++ [v]).length ∧ startsVowel ((r ++ [v]).drop 1) = true)) := by
    intro hc hp
    by_cases hb : before = []
    · cases r with
      | nil => simp [Ne.symm hH] at hp
      | cons e r =>
        have he : e = 'H' := by simpa [eq_comm] using hp
        subst he
        cases r with
        | nil => exact absurd ⟨hb, hc, rfl⟩ h
        | cons f r =>
          simp only [List.cons_append, List.drop_one, List.tail_cons, List.length_cons, List.length_append, List.length_nil]
          have e1 : startsVowel (f :: (r ++ v :: b)) = startsVowel (f :: (r ++ [v])) := rfl
          rw [e1]
          constructor
          · rintro ⟨_, _, h3⟩; exact ⟨hb, by omega, h3⟩
          · rintro ⟨_, _, h3⟩; exact ⟨hb, by omega, h3⟩
    · simp [hb]
  unfold metaLetter
  have n1 : (r ++ v :: b = []) = (r ++ [v] = []) := by simp
  simp only [n1, startsIn_cut, startsVowel_cut, prefix_cut c!"H" v b r (by simp), prefix_cut c!"G" v b r (by simp),
    prefix_cut c!"N" v b r (by simp), prefix_cut c!"IA" v b r (by simpa [List.dropLast] using hI),
    prefix_cut c!"IO" v b r (by simpa [List.dropLast] using hI), prefix_cut c!"CH" v b r (by simpa [List.dropLast] using hC),
    d1, d2]
  by_cases hc : c = 'C'
  · subst hc
    by_cases hp : c!"H" <+: r ++ [v]
    · have d4 := d3 rfl hp
      simp only [hp, d4]
    · simp only [hp, if_false]
  · simp only [hc, if_false]

theorem absorbed_after (v : Char) (b r before : Str) (c : Char) :
    metaAbsorbed before c (r ++ v :: b) = metaAbsorbed before c (r ++ [v]) := by
  unfold metaAbsorbed; rw [startsIn_cut]

theorem meta_codes_cut {v : Char} (hv : v ∈ c!"AEOU") (b : Str) (a : Str) : ∀ before, ¬ (before = [] ∧ a = c!"CH") →
    metaCodes before (a ++ v :: b) = metaCodes before (a ++ [v]) ++ metaCodes [v] b := by
  induction a with
  | nil =>
    intro before _
    simp only [List.nil_append]
    rw [metaCodes, metaCodes, metaCodes]
    have h := codes_before hv b before []
    simp only [List.nil_append] at h
    have h1 : metaAbsorbed before v b = true ∨ metaAbsorbed before v [] = true → before ≠ [] := by
      rintro h rfl
      simp [metaAbsorbed, plainD] at h
    have h2 : ∀ x, metaLetter before v x = if before = [] then [v] else [] := by
      intro x; unfold metaLetter; rw [if_pos (meta_vowel hv).2.2.2.2.2.1]
    rw [h, h2, h2, List.append_nil]
    congr 1
    by_cases hb : before = []
    · subst hb
      have e : ∀ x, ¬ (metaAbsorbed [] v x = true ∨ v ≠ 'C' ∧ [v] <+: ([] : Str)) := by
        intro x; simp [metaAbsorbed, plainD]
      rw [if_neg (e b), if_neg (e [])]
    · rw [if_neg hb]; simp
  | cons c r ih =>
    intro before hn
    simp only [List.cons_append]
    rw [metaCodes, metaCodes, absorbed_after, ih (c :: before) (by simp), List.append_assoc]
    rw [letter_after hv b r before c]
    rintro ⟨h1, rfl, rfl⟩
    exact hn ⟨h1, rfl⟩

theorem meta_vowel_codes {v : Char} (hv : v ∈ c!"AEOU") (b : Str) : metaCodes [] (v :: b) = v :: metaCodes [v] b := by
  rw [metaCodes]
  have e : ¬ (metaAbsorbed [] v b = true ∨ v ≠ 'C' ∧ [v] <+: ([] : Str)) := by simp [metaAbsorbed, plainD]
  rw [if_neg e]
  unfold metaLetter
  rw [if_pos (meta_vowel hv).2.2.2.2.2.1]
  rfl

theorem meta_initial_cut {v : Char} (hv : v ∈ c!"AEOU") (b a : Str) (hne : a ≠ []) : ∃ a',
    metaInitial (a ++ v :: b) = a' ++ v :: b ∧ metaInitial (a ++ [v]) = a' ++ [v] ∧ (a' = c!"CH" → a = c!"CH") := by
  have hm : v = 'A' ∨ v = 'E' ∨ v = 'O' ∨ v = 'U' := by simpa using hv
  cases a with
  | nil => exact absurd rfl hne
  | cons x a =>
    cases a with
    | nil =>
      by_cases h1 : x = 'A' ∧ v = 'E'
      · obtain ⟨rfl, rfl⟩ := h1
        exact ⟨[], by simp [metaInitial], by simp [metaInitial], by simp⟩
      · by_cases h2 : x = 'X'
        · subst h2
          refine ⟨['S'], ?_, ?_, by simp⟩ <;> rcases hm with rfl | rfl | rfl | rfl <;> simp [metaInitial]
        · refine ⟨[x], ?_, ?_, by simp⟩ <;> rcases hm with rfl | rfl | rfl | rfl <;>
            simp [metaInitial, Ne.symm h2] <;> intro h <;> exact absurd ⟨h.symm, rfl⟩ h1
    | cons y a =>
      simp only [List.cons_append]
      unfold metaInitial
      simp only [List.cons_prefix_cons, List.nil_prefix, and_true]
      by_cases h1 : ('K' = x ∧ 'N' = y) ∨ ('G' = x ∧ 'N' = y) ∨ ('P' = x ∧ 'N' = y) ∨ ('A' = x ∧ 'E' = y) ∨ ('W' = x ∧ 'R' = y)
      · refine ⟨y :: a, by rw [if_pos h1]; rfl, by rw [if_pos h1]; rfl, ?_⟩
        intro h
        injection h with h2 _
        subst h2
        simp at h1
      · by_cases h2 : 'W' = x ∧ 'H' = y
        · exact ⟨'W' :: a, by rw [if_neg h1, if_pos h2]; rfl, by rw [if_neg h1, if_pos h2]; rfl, by simp⟩
        · by_cases h3 : 'X' = x
          · exact ⟨'S' :: y :: a, by rw [if_neg h1, if_neg h2, if_pos h3]; rfl, by rw [if_neg h1, if_neg h2, if_pos h3]; rfl,
              by simp⟩
          · exact ⟨x :: y :: a, by rw [if_neg h1, if_neg h2, if_neg h3]; rfl, by rw [if_neg h1, if_neg h2, if_neg h3]; rfl,
              id⟩

theorem metaphone_word_cut {v : Char} (hv : v ∈ c!"AEOU") (a b : Str) (ha : a ≠ c!"CH") (hb : ¬ (v = 'A' ∧ b.head? = some 'E')) :
    metaphone (a ++ v :: b) = metaphone (a ++ [v]) ++ (metaphone (v :: b)).drop 1 := by
  have hm : v = 'A' ∨ v = 'E' ∨ v = 'O' ∨ v = 'U' := by simpa using hv
  have q : (metaphone (v :: b)).drop 1 = metaCodes [v] b := by
    unfold metaphone
    cases b with
    | nil => rfl
    | cons d b =>
      rw [if_neg (by simp)]
      have : metaInitial (v :: d :: b) = v :: d :: b := by
        rcases hm with rfl | rfl | rfl | rfl <;> simp [metaInitial]
        intro h; exact absurd ⟨rfl, by simp [← h]⟩ hb
      rw [this, meta_vowel_codes hv]; rfl
  by_cases hne : a = []
  · subst hne
    rw [q]
    simp only [List.nil_append]
    have p : metaphone [v] = [v] := rfl
    rw [p]
    cases b with
    | nil => rfl
    | cons d b =>
      unfold metaphone
      rw [if_neg (by simp)]
      have : metaInitial (v :: d :: b) = v :: d :: b := by
        rcases hm with rfl | rfl | rfl | rfl <;> simp [metaInitial]
        intro h; exact absurd ⟨rfl, by simp [← h]⟩ hb
      rw [this, meta_vowel_codes hv]; rfl
  · obtain ⟨a', h1, h2, h3⟩ := meta_initial_cut hv b a hne
    rw [q]
    have l1 : (a ++ v :: b).length ≠ 1 := by
      cases a with
      | nil => exact absurd rfl hne
      | cons x a => simp
    have l2 : (a ++ [v]).length ≠ 1 := by
      cases a with
      | nil => exact absurd rfl hne
      | cons x a => simp
    unfold metaphone
    rw [if_neg l1, if_neg l2, h1, h2]
    exact meta_codes_cut hv b a' [] (fun h => ha (h3 h.2))

end PartsProofs
open PartsProofs

/-- C116. Metaphone without limit: an ASCII text can be cut at a vowel A, E, O or U, if the part before is not CH and the part
after does not make it begin with AE.  Its code is that of the part up to the vowel followed by that of the part from the vowel
on, without the first letter, which is the vowel. -/
theorem metaphone_cut (U : Unicode) (a b : Str) (v : Char) (hv : v ∈ c!"AEOUaeou") (ha : AsciiStr a) (hb : AsciiStr b)
    (hch : a.map asciiUpper ≠ c!"CH") (hae : ¬ (asciiUpper v = 'A' ∧ (b.map asciiUpper).head? = some 'E')) :
    ∃ p q, (Metaphone.new none).encode U (a ++ [v]) = .ok p ∧ (Metaphone.new none).encode U (v :: b) = .ok q ∧
      (Metaphone.new none).encode U (a ++ v :: b) = .ok (p ++ q.drop 1) ∧ q.head? = some (asciiUpper v) := by
  have hv2 : isAscii v = true ∧ asciiUpper v ∈ c!"AEOU" := by
    have : ∀ v ∈ c!"AEOUaeou", isAscii v = true ∧ asciiUpper v ∈ c!"AEOU" := by decide +kernel
    exact this v hv
  have h1 : AsciiStr (a ++ [v]) := asciiStr_append.mpr ⟨ha, fun x hx => by simp at hx; exact hx ▸ hv2.1⟩
  have h2 : AsciiStr (v :: b) := fun x hx => by
    rcases List.mem_cons.mp hx with rfl | hx
    · exact hv2.1
    · exact hb x hx
  have h3 : AsciiStr (a ++ v :: b) := asciiStr_append.mpr ⟨ha, h2⟩
  refine ⟨_, _, (metaphone_eq_spec U _ h1).1, (metaphone_eq_spec U _ h2).1, ?_, ?_⟩
  · rw [(metaphone_eq_spec U _ h3).1]
    have := metaphone_word_cut hv2.2 (a.map asciiUpper) (b.map asciiUpper) hch hae
    have e : (a ++ v :: b).map asciiUpper = a.map asciiUpper ++ asciiUpper v :: b.map asciiUpper := by simp
    have e2 : (a ++ [v]).map asciiUpper = a.map asciiUpper ++ [asciiUpper v] := by simp
    rw [e, this, e2]; rfl
  · have e : (v :: b).map asciiUpper = asciiUpper v :: b.map asciiUpper := rfl
    have hm : asciiUpper v = 'A' ∨ asciiUpper v = 'E' ∨ asciiUpper v = 'O' ∨ asciiUpper v = 'U' := by simpa using hv2.2
    rw [e]
    generalize asciiUpper v = w at hae hm hv2
    generalize b.map asciiUpper = c at hae
    unfold metaphone
    split
    · rfl
    · have : metaInitial (w :: c) = w :: c := by
        cases c with
        | nil => rcases hm with rfl | rfl | rfl | rfl <;> simp [metaInitial]
        | cons d c =>
          rcases hm with rfl | rfl | rfl | rfl <;> simp [metaInitial]
          intro h; exact absurd ⟨rfl, by simp [← h]⟩ hae
      rw [this, meta_vowel_codes hv2.2]; rfl

/-! Cases: a name that is cut, and the conditions. -/

example : (Metaphone.new none).encode .latin1 c!"Knowledge" = .ok c!"NLJ" ∧
    (Metaphone.new none).encode .latin1 c!"Kno" = .ok c!"N" ∧ (Metaphone.new none).encode .latin1 c!"owledge" = .ok c!"OLJ" := by
  decide +kernel

/-- CH, AE, and the vowel I. -/
example : (Metaphone.new none).encode .latin1 c!"Chaos" = .ok c!"KS" ∧ (Metaphone.new none).encode .latin1 c!"Cha" = .ok c!"X" ∧
    (Metaphone.new none).encode .latin1 c!"aos" = .ok c!"AS" ∧
    (Metaphone.new none).encode .latin1 c!"Nation" = .ok c!"NXN" ∧ (Metaphone.new none).encode .latin1 c!"Nati" = .ok c!"NT" ∧
    (Metaphone.new none).encode .latin1 c!"Raes" = .ok c!"RS" ∧ (Metaphone.new none).encode .latin1 c!"aes" = .ok c!"ES" := by
  decide +kernel

end Verif.Props
