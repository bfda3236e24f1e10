import Verif.Proofs.CaverphoneText
/-!
# Caverphone: the text before the compaction spells the sounds
-/

set_option linter.unusedSimpArgs false

namespace Verif.CavSpec
open Spec.Caverphone

/-- How a sound is written before the compaction. -/
def sym : Sound → Char
  | .silent => '2'
  | .vowel => '3'
  | .letter c => if c ∈ c!"STPKFMN" then asciiLower c else c

section
variable {w : Str} {n : Nat}

theorem starts_one (a : Char) (k : Nat) : starts (w.drop k) [[a]] = true ↔ g w k = some a := by
  rw [g_nat, ← prefix_one, ← List.isPrefixOf_iff_prefix]; simp [starts]

theorem starts_two (a b : Char) (k : Nat) : starts (w.drop k) [[a, b]] = true ↔ g w k = some a ∧ g w (k + 1) = some b := by
  rw [g_nat, g_succ, ← prefix_two, ← List.isPrefixOf_iff_prefix]; simp [starts]

theorem starts_cons (x y : Str) (xs : List Str) (t : Str) :
    starts t (x :: y :: xs) = true ↔ starts t [x] = true ∨ starts t (y :: xs) = true := by
  simp [starts]

theorem starts_nil (t : Str) : starts t [] = true ↔ False := by simp [starts]

theorem vowelAhead1 (k : Nat) : vowelAhead .v1 (w.drop k) = true ↔
    g w k = some 'a' ∨ g w k = some 'e' ∨ g w k = some 'i' ∨ g w k = some 'o' ∨ g w k = some 'u' := by
  unfold vowelAhead
  simp only [vocal, List.map_cons, List.map_nil]
  rw [starts_cons, starts_cons, starts_cons, starts_cons]
  simp only [starts_one]

theorem vowelAhead2 (k : Nat) : vowelAhead .v2 (w.drop k) = true ↔
    g w k = some 'a' ∨ g w k = some 'e' ∨ g w k = some 'i' ∨ g w k = some 'o' ∨ g w k = some 'u' ∨ g w k = some 'y' ∨
      g w k = some 'j' := by
  unfold vowelAhead
  simp only [vocal, List.map_cons, List.map_nil]
  rw [starts_cons, starts_cons, starts_cons, starts_cons, starts_cons, starts_cons]
  simp only [starts_one]

theorem after_nil (k : Nat) : w.drop k = [] ↔ g w k = none := by
  rw [g_nat]; simp

theorem after_one (a : Char) (k : Nat) : w.drop k = [a] ↔ g w k = some a ∧ g w (k + 1) = none := by
  rw [g_nat, g_succ]
  constructor
  · intro h
    have h1 : (w.drop k)[0]? = some a := by rw [h]; rfl
    have h2 : (w.drop k)[1]? = none := by rw [h]; rfl
    rw [List.getElem?_drop] at h1 h2
    exact ⟨h1, h2⟩
  · rintro ⟨h1, h2⟩
    obtain ⟨r, hr⟩ := (prefix_one w k a).2 h1
    have : r = [] := by
      have h3 : (w.drop k)[1]? = none := by rw [List.getElem?_drop]; exact h2
      rw [← hr] at h3
      cases r with
      | nil => rfl
      | cons x xs => simp at h3
    rw [← hr, this]; rfl

theorem before_nil (h : n < w.length) : w.take n = [] ↔ (n : Int) = 0 := by
  simp only [List.take_eq_nil_iff]
  constructor
  · rintro (h' | h')
    · omega
    · subst h'; simp at h
  · intro h'; left; omega

theorem before_last (h : n < w.length) (c : Char) : (w.take n).getLast? = some c ↔ g w ((n : Int) - 1) = some c := by
  rw [← g_pred, List.getLast?_eq_getElem?]
  cases n with
  | zero => simp
  | succ n =>
    have : (w.take (n + 1)).length - 1 = n := by simp; omega
    rw [this, List.getElem?_take]; simp

/-- `tough` words before a gh. -/
theorem tough_before {v : Version} (h : n < w.length) (hg : w[n]? = some 'g') (hh : w[n + 1]? = some 'h') :
    (tough v).contains (w.take n) = true ↔ toughAt v w n := by
  rw [List.contains_iff_mem]
  constructor
  · intro hm
    refine ⟨_, hm, by simp; omega, ?_⟩
    obtain ⟨r, hr⟩ := (prefix_two w n 'g' 'h').2 ⟨hg, hh⟩
    refine ⟨r, ?_⟩
    rw [List.append_assoc, hr, List.take_append_drop]
  · rintro ⟨a, ha, hn, r, hr⟩
    have : w.take n = a := by
      rw [← hr, show n = a.length by omega]
      simp
    rw [this]; exact ha

theorem tough_before_h {v : Version} (h : n < w.length) (hh : w[n]? = some 'h') :
    ((tough v).map (· ++ c!"g")).contains (w.take n) = true ↔ toughAt v w ((n : Int) - 1) := by
  rw [List.contains_iff_mem, List.mem_map]
  constructor
  · rintro ⟨a, ha, hw⟩
    refine ⟨a, ha, ?_, ?_⟩
    · have := congrArg List.length hw
      simp at this; omega
    · obtain ⟨r, hr⟩ := (prefix_one w n 'h').2 hh
      refine ⟨r, ?_⟩
      have := List.take_append_drop n w
      rw [← hw, ← hr] at this
      simpa using this
  · rintro ⟨a, ha, hn, r, hr⟩
    refine ⟨a, ha, ?_⟩
    rw [← hr, show n = (a ++ c!"g").length by simp; omega, show a ++ c!"gh" ++ r = (a ++ c!"g") ++ ('h' :: r) by simp]
    rw [List.take_left' rfl]

theorem take_succ_rev {k : Nat} {c : Char} (h : w[k]? = some c) : (w.take (k + 1)).reverse = c :: (w.take k).reverse := by
  rw [List.take_add_one, h]; simp

/-- The gh that sound like k are those that are replaced. -/
theorem hit_iff {v : Version} {t : Str}
    (h3 : ∀ i : Int, g t i = some '3' ↔ i ≠ 0 ∧ ∃ c ∈ vocal v, g w i = some c)
    (hg : ∀ i : Int, g t i = some 'g' ↔ g w i = some 'g' ∧ ¬ (toughAt v w i ∨ i = 0 ∧ g w (i + 1) = some 'n'))
    (hh : ∀ i : Int, g t i = some 'h' ↔ g w i = some 'h' ∧ ¬ toughAt v w (i - 1) ∧ g w (i - 1) ≠ some 's') (k : Nat) :
    hit (g t) k ↔ hardAfter v (w.take (k + 1)).reverse = true ∧ w[k + 1]? = some 'g' ∧ w[k + 2]? = some 'h' ∧
      ¬ toughAt v w (k + 1 : Nat) ∧ ∃ c ∈ vocal v, w[k + 3]? = some c := by
  have hocc : ∀ k : Nat, occ t k ↔ (k ≠ 0 ∧ ∃ c ∈ vocal v, w[k]? = some c) ∧ w[k + 1]? = some 'g' ∧ w[k + 2]? = some 'h' ∧
      ¬ toughAt v w (k + 1 : Nat) ∧ ∃ c ∈ vocal v, w[k + 3]? = some c := by
    intro k
    unfold occ
    rw [← g_nat t k, ← g_nat t (k + 1), ← g_nat t (k + 2), ← g_nat t (k + 3), h3, hg, hh, h3]
    have e0 : ((k + 2 : Nat) : Int) - 1 = (k + 1 : Nat) := by omega
    rw [e0]
    simp only [g_nat]
    have e1 : ¬ ((k + 1 : Nat) : Int) = 0 := by omega
    have e2 : ((k + 3 : Nat) : Int) ≠ 0 := by omega
    constructor
    · rintro ⟨⟨a1, a2⟩, ⟨b1, b2⟩, ⟨c1, c2, c3⟩, d1, d2⟩
      exact ⟨⟨by omega, a2⟩, b1, c1, c2, d2⟩
    · rintro ⟨⟨a1, a2⟩, b, c, d, e⟩
      refine ⟨⟨by omega, a2⟩, ⟨b, ?_⟩, ⟨c, d, ?_⟩, e2, e⟩
      · rintro (x | ⟨x, _⟩)
        · exact d x
        · exact e1 x
      · rw [b]; simp
  have hard_two : ∀ (c d : Char) (r : Str), (¬ ∃ b, d = 'h' ∧ r = 'g' :: b) →
      hardAfter v (c :: d :: r) = (vocal v).contains c := by
    intro c d r hno
    unfold hardAfter
    split
    · rename_i heq
      simp only [List.cons.injEq] at heq
      obtain ⟨rfl, rfl, rfl⟩ := heq
      exact absurd ⟨_, rfl, rfl⟩ hno
    · rename_i heq
      simp only [List.cons.injEq] at heq
      rw [heq.1]
    · rename_i h1 h2
      exact absurd rfl (h2 c d r)
  have hv : ∀ (k : Nat) (c : Char), w[k]? = some c → ((∃ c ∈ vocal v, w[k]? = some c) ↔ (vocal v).contains c = true) := by
    intro k c hc
    rw [hc, List.contains_iff_mem]
    constructor
    · rintro ⟨d, hd, he⟩; rw [Option.some.injEq] at he; rw [he]; exact hd
    · exact fun h => ⟨c, h, rfl⟩
  have lens : ∀ (k : Nat), w[k + 1]? = some 'g' → ∃ c, w[k]? = some c := by
    intro k h
    have := (List.getElem?_eq_some_iff.1 h).1
    exact ⟨w[k], List.getElem?_eq_getElem _⟩
  have lens2 : ∀ (j k : Nat) (c : Char), w[k]? = some c → j ≤ k → ∃ d, w[j]? = some d := by
    intro j k c h hj
    have := (List.getElem?_eq_some_iff.1 h).1
    exact ⟨w[j], List.getElem?_eq_getElem _⟩
  induction k using Nat.strongRecOn with
  | ind k ih =>
    match k with
    | 0 =>
      rw [hit_small t (by omega), hocc]
      constructor
      · rintro ⟨⟨h, _⟩, _⟩; exact absurd rfl h
      · rintro ⟨h, h1, _⟩
        obtain ⟨c, hc⟩ := lens 0 h1
        rw [take_succ_rev hc] at h
        simp [hardAfter] at h
    | 1 =>
      rw [hit_small t (by omega), hocc]
      refine ⟨fun ⟨⟨_, h⟩, h1, h'⟩ => ⟨?_, h1, h'⟩, fun ⟨h, h1, h'⟩ => ⟨⟨by omega, ?_⟩, h1, h'⟩⟩
      all_goals
        obtain ⟨c, hc⟩ := lens 1 h1
        obtain ⟨d, hd⟩ := lens2 0 1 c hc (by omega)
      · rw [take_succ_rev hc, take_succ_rev hd, hard_two _ _ _ (by simp)]
        exact (hv 1 c hc).1 h
      · rw [take_succ_rev hc, take_succ_rev hd, hard_two _ _ _ (by simp)] at h
        exact (hv 1 c hc).2 h
    | 2 =>
      rw [hit_small t (by omega), hocc]
      have key : ∀ c d e : Char, hardAfter v [c, d, e] = (vocal v).contains c := by
        intro c d e
        by_cases hx : d = 'h' ∧ e = 'g'
        · rw [hx.1, hx.2]; simp [hardAfter]
        · exact hard_two _ _ _ (by rintro ⟨b, h1, h2⟩; simp at h2; exact hx ⟨h1, h2.1⟩)
      refine ⟨fun ⟨⟨_, h⟩, h1, h'⟩ => ⟨?_, h1, h'⟩, fun ⟨h, h1, h'⟩ => ⟨⟨by omega, ?_⟩, h1, h'⟩⟩
      all_goals
        obtain ⟨c, hc⟩ := lens 2 h1
        obtain ⟨d, hd⟩ := lens2 1 2 c hc (by omega)
        obtain ⟨e, he⟩ := lens2 0 2 c hc (by omega)
      · rw [take_succ_rev hc, take_succ_rev hd, take_succ_rev he]
        rw [show (w.take 0).reverse = [] by simp, key]
        exact (hv 2 c hc).1 h
      · rw [take_succ_rev hc, take_succ_rev hd, take_succ_rev he] at h
        rw [show (w.take 0).reverse = [] by simp, key] at h
        exact (hv 2 c hc).2 h
    | k + 3 =>
      have ihk : hit (g t) k ↔ hardAfter v (w.take (k + 1)).reverse = true ∧ w[k + 1]? = some 'g' ∧ w[k + 2]? = some 'h' ∧
        ¬ toughAt v w (k + 1 : Nat) ∧ ∃ c ∈ vocal v, w[k + 3]? = some c := ih k (by omega)
      rw [hit_step, hocc, ihk]
      by_cases h1 : w[k + 3 + 1]? = some 'g'
      · obtain ⟨c, hc⟩ := lens (k + 3) h1
        obtain ⟨d, hd⟩ := lens2 (k + 2) (k + 3) c hc (by omega)
        obtain ⟨e, he⟩ := lens2 (k + 1) (k + 3) c hc (by omega)
        rw [take_succ_rev hc, take_succ_rev hd, take_succ_rev he, hv (k + 3) c hc]
        by_cases hx : d = 'h' ∧ e = 'g'
        · obtain ⟨rfl, rfl⟩ := hx
          have hl : k + 1 < w.length := (List.getElem?_eq_some_iff.1 he).1
          have ht := tough_before (v := v) hl he hd
          rw [hardAfter, List.reverse_reverse]
          simp only [Bool.and_eq_true, Bool.not_eq_true', Bool.and_eq_false_iff, Bool.not_eq_false', ht, he, hd, true_and]
          rw [← Bool.not_eq_true]
          generalize hA : hardAfter v (w.take (k + 1)).reverse = A
          constructor
          · rintro ⟨⟨⟨_, a1⟩, a2⟩, a3⟩
            refine ⟨⟨a1, ?_⟩, a2⟩
            by_cases hA' : A = true
            · right
              refine Classical.byContradiction fun hn => a3 ⟨hA', hn, ?_⟩
              exact a1
            · exact Or.inl hA'
          · rintro ⟨⟨a1, a2⟩, a3⟩
            refine ⟨⟨⟨by omega, a1⟩, a3⟩, ?_⟩
            rintro ⟨b1, b2, _⟩
            rcases a2 with a2 | a2
            · exact a2 b1
            · exact b2 a2
        · rw [hard_two _ _ _ (by rintro ⟨b, hb1, hb2⟩; simp at hb2; exact hx ⟨hb1, hb2.1⟩)]
          have : ¬ (w[k + 1]? = some 'g' ∧ w[k + 2]? = some 'h') := by
            rw [he, hd]
            simp only [Option.some.injEq]
            exact fun e => hx ⟨e.2, e.1⟩
          constructor
          · rintro ⟨⟨⟨_, a1⟩, a2⟩, _⟩; exact ⟨a1, a2⟩
          · rintro ⟨a1, a2⟩
            exact ⟨⟨⟨by omega, a1⟩, a2⟩, fun b => this ⟨b.2.1, b.2.2.1⟩⟩
      · constructor
        · rintro ⟨⟨_, a, _⟩, _⟩; exact absurd a h1
        · rintro ⟨_, a, _⟩; exact absurd a h1

theorem gh_not {v : Version} (hn : n < w.length) (e1 : w[n]? = some 'g') (e2 : w[n + 1]? = some 'h')
    (h : (hardAfter v (w.take n).reverse && vowelAhead v ((w.drop (n + 1)).drop 1) && !(tough v).contains (w.take n)) = true) :
    ¬ toughAt v w n := by
  simp only [Bool.and_eq_true, Bool.not_eq_true'] at h
  rw [← tough_before hn e1 e2, h.2]; simp

/-- The condition of `soundGH`. -/
theorem gh_iff {v : Version} {t : Str} (hn : n < w.length)
    (h3 : ∀ i : Int, g t i = some '3' ↔ i ≠ 0 ∧ ∃ c ∈ vocal v, g w i = some c)
    (hg : ∀ i : Int, g t i = some 'g' ↔ g w i = some 'g' ∧ ¬ (toughAt v w i ∨ i = 0 ∧ g w (i + 1) = some 'n'))
    (hh : ∀ i : Int, g t i = some 'h' ↔ g w i = some 'h' ∧ ¬ toughAt v w (i - 1) ∧ g w (i - 1) ≠ some 's')
    (e1 : w[n]? = some 'g') (e2 : w[n + 1]? = some 'h') :
    (hardAfter v (w.take n).reverse && vowelAhead v ((w.drop (n + 1)).drop 1) && !(tough v).contains (w.take n)) = true ↔
      (∃ k : Nat, (n : Int) = k + 1 ∧ hit (g t) k) := by
  have hv : vowelAhead v ((w.drop (n + 1)).drop 1) = true ↔ ∃ c ∈ vocal v, w[n + 2]? = some c := by
    rw [List.drop_drop]
    cases v
    · rw [vowelAhead1]; simp only [vocal, g_nat]; simp
    · rw [vowelAhead2]; simp only [vocal, g_nat]; simp
  simp only [Bool.and_eq_true, Bool.not_eq_true']
  rw [hv, ← Bool.not_eq_true, tough_before hn e1 e2]
  constructor
  · rintro ⟨⟨a, b⟩, c⟩
    cases n with
    | zero => simp [hardAfter] at a
    | succ n => exact ⟨n, by omega, (hit_iff h3 hg hh n).2 ⟨a, e1, e2, c, b⟩⟩
  · rintro ⟨k, hk, h⟩
    obtain rfl : n = k + 1 := by omega
    obtain ⟨a, _, _, b, c⟩ := (hit_iff h3 hg hh k).1 h
    exact ⟨⟨a, c⟩, b⟩

theorem sym_lemmas : sym (.letter 'S') = 's' ∧ sym (.letter 'T') = 't' ∧ sym (.letter 'P') = 'p' ∧ sym (.letter 'K') = 'k' ∧
    sym (.letter 'F') = 'f' ∧ sym (.letter 'M') = 'm' ∧ sym (.letter 'N') = 'n' ∧ sym (.letter 'A') = 'A' ∧
    sym (.letter 'W') = 'W' ∧ sym (.letter 'R') = 'R' ∧ sym (.letter 'L') = 'L' ∧ sym (.letter 'Y') = 'Y' ∧
    sym .silent = '2' ∧ sym .vowel = '3' := by decide

theorem sound1_ok (hw : Plain w) {t : Str} (X : Text1 (toughAt .v1 w) (g w) (g t)) {c : Char} (hc : w[n]? = some c) :
    g (late1 t) n = some (sym (sound .v1 (w.take n) (w.drop (n + 1)) c)) := by
  have L := late1_ok t
  have hn : n < w.length := (List.getElem?_eq_some_iff.1 hc).1
  have hc' : g w n = some c := by rw [g_nat]; exact hc
  have hgh : w[n]? = some 'g' → w[n + 1]? = some 'h' →
    ((hardAfter .v1 (w.take n).reverse && vowelAhead .v1 ((w.drop (n + 1)).drop 1) && !(tough .v1).contains (w.take n)) = true ↔
      (fun i : Int => ∃ k : Nat, i = k + 1 ∧ hit (g t) k) n) := gh_iff (v := .v1) hn (by
    intro i; rw [X.three]; simp [vocal]) X.g_ X.h
  have hgn := gh_not (v := .v1) hn
  rw [← g_nat, ← g_nat] at hgh hgn
  have hvow1 := vowelAhead1 (w := w) (n + 1)
  have hvow2 := vowelAhead1 (w := w) (n + 1 + 1)
  have hfst := before_nil hn
  have hlst := after_nil (w := w) (n + 1)
  have hplain : ∀ d ∈ c!"23AWRLYSTPKFMN", ∀ i, g w i ≠ some d := fun d hd i => plain_g hw i (c := d) hd
  have pplain := hw c (List.mem_of_getElem? hc)
  have hTg := toughAt_gh (v := .v1) (w := w) n
  have hTh := toughAt_gh (v := .v1) (w := w) ((n : Int) - 1)
  have hzero : (n : Int) = 0 → g w ((n : Int) - 1) = none := fun h => g_neg w (by omega)
  have E1 : (n : Int) - 1 + 1 = n := by omega
  have E2 : ((n + 1 : Nat) : Int) = (n : Int) + 1 := by omega
  have E3 : ((n + 1 + 1 : Nat) : Int) = (n : Int) + 2 := by omega
  have E4 : (n : Int) + 1 + 1 = (n : Int) + 2 := by omega
  have E5 : (n : Int) + 1 - 1 = (n : Int) := by omega
  have E6 : (n : Int) + 2 - 1 = (n : Int) + 1 := by omega
  have N1 : ¬ (n : Int) + 1 = 0 := by omega
  have N2 : ¬ (n : Int) + 2 = 0 := by omega
  obtain ⟨s1, s2, s3, s4, s5, s6, s7, s8, s9, s10, s11, s12, s13, s14⟩ := sym_lemmas
  generalize (fun i : Int => ∃ k : Nat, i = k + 1 ∧ hit (g t) k) = H at *
  have hlast := fun c => before_last hn c
  have htough := fun hh => tough_before_h (v := .v1) (n := n) hn hh
  unfold sound soundGH
  generalize (hardAfter .v1 (w.take n).reverse && vowelAhead .v1 ((w.drop (n + 1)).drop 1) &&
    !(tough .v1).contains (w.take n)) = B at hgh hgn ⊢
  generalize ((tough .v1).map (· ++ c!"g")).contains (w.take n) = B2 at htough ⊢
  have p1 := hplain '2' (by decide)
  have p2 := hplain '3' (by decide)
  have p3 := hplain 'A' (by decide)
  have p4 := hplain 'W' (by decide)
  have p5 := hplain 'R' (by decide)
  have p6 := hplain 'L' (by decide)
  have p7 := hplain 'Y' (by decide)
  rw [E2] at hgh hgn
  rw [← g_nat] at htough
  split
  case h_27 =>
    clear hgh hgn hvow1 hvow2 hfst hlst hTg hTh htough hlast hplain p1 p2 p3 p4 p5 p6 p7
    simp only [List.mem_cons, List.not_mem_nil, or_false, not_or] at pplain
    have e1 : c ∉ c!"kWARLY2ghwrlyj" := by
      simp only [List.mem_cons, List.not_mem_nil, or_false, not_or]
      grind
    have e2 : c ∉ c!"2ghkstfpbcdqvxz3AYaeiouyj" := by
      simp only [List.mem_cons, List.not_mem_nil, or_false, not_or]
      grind
    have e3 : sym (Sound.letter c) = c := by
      simp only [sym, List.mem_cons, List.not_mem_nil, or_false]
      rw [if_neg (by grind)]
    rw [e3, L.same _ _ e1, X.same _ _ e2]
    exact hc'
  all_goals try simp only [soundW, soundR, soundL, soundY, hfst, hlst, hvow1, hvow2, starts_cons, starts_one, starts_two, after_one,
    hlast, List.drop_drop, Bool.or_eq_true, Bool.and_eq_true, decide_eq_true_eq, reduceCtorEq, false_and, true_and, or_false, E2, E3, E4, E5]
  all_goals clear hfst hlst hvow1 hvow2 hlast E2 E3
  all_goals (repeat' split)
  all_goals simp only [s1, s2, s3, s4, s5, s6, s7, s8, s9, s10, s11, s12, s13, s14]
  all_goals clear s1 s2 s3 s4 s5 s6 s7 s8 s9 s10 s11 s12 s13 s14
  all_goals try simp only [L.k, L.W, L.A, L.R, L.L, L.Y, L.two, L.same, X.two, X.g_, X.h, X.k, X.s, X.t, X.f_, X.p, X.A, X.three, X.y, X.j, X.Y, X.same, p1, p2, p3, p4, p5, p6, p7,
    hc', E1, E4, E5, E6, N1, N2, Option.some.injEq, List.mem_cons, List.not_mem_nil, Char.reduceEq, or_false, false_or, not_false_eq_true, ne_eq,
    false_and, and_false, true_and, and_true, not_true_eq_false, true_or, or_true]
  all_goals clear L X hplain p1 p2 p3 p4 p5 p6 p7 hw hn pplain hc
  all_goals try rw [E1] at hTh
  all_goals clear E1 E4 E5 E6
  all_goals generalize g w = f at *
  all_goals grind (splits := 60) -verbose only

theorem sound2_ok (hw : Plain w) {t : Str} (X : Text2 (toughAt .v2 w) (g w) (g t)) {c : Char} (hc : w[n]? = some c) :
    g (late2 t) n = some (sym (sound .v2 (w.take n) (w.drop (n + 1)) c)) := by
  have L := late2_ok t
  have hn : n < w.length := (List.getElem?_eq_some_iff.1 hc).1
  have hc' : g w n = some c := by rw [g_nat]; exact hc
  have hgh : w[n]? = some 'g' → w[n + 1]? = some 'h' →
    ((hardAfter .v2 (w.take n).reverse && vowelAhead .v2 ((w.drop (n + 1)).drop 1) && !(tough .v2).contains (w.take n)) = true ↔
      (fun i : Int => ∃ k : Nat, i = k + 1 ∧ hit (g t) k) n) := gh_iff (v := .v2) hn (by
    intro i; rw [X.three]; simp [vocal]) X.g_ X.h
  have hgn := gh_not (v := .v2) hn
  rw [← g_nat, ← g_nat] at hgh hgn
  have hvow1 := vowelAhead2 (w := w) (n + 1)
  have hvow2 := vowelAhead2 (w := w) (n + 1 + 1)
  have hfst := before_nil hn
  have hlst := after_nil (w := w) (n + 1)
  have hplain : ∀ d ∈ c!"23AWRLYSTPKFMN", ∀ i, g w i ≠ some d := fun d hd i => plain_g hw i (c := d) hd
  have pplain := hw c (List.mem_of_getElem? hc)
  have hTg := toughAt_gh (v := .v2) (w := w) n
  have hTh := toughAt_gh (v := .v2) (w := w) ((n : Int) - 1)
  have hzero : (n : Int) = 0 → g w ((n : Int) - 1) = none := fun h => g_neg w (by omega)
  have E1 : (n : Int) - 1 + 1 = n := by omega
  have E2 : ((n + 1 : Nat) : Int) = (n : Int) + 1 := by omega
  have E3 : ((n + 1 + 1 : Nat) : Int) = (n : Int) + 2 := by omega
  have E4 : (n : Int) + 1 + 1 = (n : Int) + 2 := by omega
  have E5 : (n : Int) + 1 - 1 = (n : Int) := by omega
  have E6 : (n : Int) + 2 - 1 = (n : Int) + 1 := by omega
  have N1 : ¬ (n : Int) + 1 = 0 := by omega
  have N2 : ¬ (n : Int) + 2 = 0 := by omega
  obtain ⟨s1, s2, s3, s4, s5, s6, s7, s8, s9, s10, s11, s12, s13, s14⟩ := sym_lemmas
  generalize (fun i : Int => ∃ k : Nat, i = k + 1 ∧ hit (g t) k) = H at *
  have hlast := fun c => before_last hn c
  have htough := fun hh => tough_before_h (v := .v2) (n := n) hn hh
  unfold sound soundGH
  generalize (hardAfter .v2 (w.take n).reverse && vowelAhead .v2 ((w.drop (n + 1)).drop 1) &&
    !(tough .v2).contains (w.take n)) = B at hgh hgn ⊢
  generalize ((tough .v2).map (· ++ c!"g")).contains (w.take n) = B2 at htough ⊢
  have p1 := hplain '2' (by decide)
  have p2 := hplain '3' (by decide)
  have p3 := hplain 'A' (by decide)
  have p4 := hplain 'W' (by decide)
  have p5 := hplain 'R' (by decide)
  have p6 := hplain 'L' (by decide)
  have p7 := hplain 'Y' (by decide)
  rw [E2] at hgh hgn
  rw [← g_nat] at htough
  split
  case h_27 =>
    clear hgh hgn hvow1 hvow2 hfst hlst hTg hTh htough hlast hplain p1 p2 p3 p4 p5 p6 p7
    simp only [List.mem_cons, List.not_mem_nil, or_false, not_or] at pplain
    have e1 : c ∉ c!"kWARL32ghwrl" := by
      simp only [List.mem_cons, List.not_mem_nil, or_false, not_or]
      grind
    have e2 : c ∉ c!"2ghkstfpbcdqvxz3AYaeiouyj" := by
      simp only [List.mem_cons, List.not_mem_nil, or_false, not_or]
      grind
    have e3 : sym (Sound.letter c) = c := by
      simp only [sym, List.mem_cons, List.not_mem_nil, or_false]
      rw [if_neg (by grind)]
    rw [e3, L.same _ _ e1, X.same _ _ e2]
    exact hc'
  all_goals try simp only [soundW, soundR, soundL, soundY, hfst, hlst, hvow1, hvow2, starts_cons, starts_one, starts_two, after_one,
    hlast, List.drop_drop, Bool.or_eq_true, Bool.and_eq_true, decide_eq_true_eq, reduceCtorEq, false_and, true_and, or_false, E2, E3, E4, E5]
  all_goals clear hfst hlst hvow1 hvow2 hlast E2 E3
  all_goals (repeat' split)
  all_goals simp only [s1, s2, s3, s4, s5, s6, s7, s8, s9, s10, s11, s12, s13, s14]
  all_goals clear s1 s2 s3 s4 s5 s6 s7 s8 s9 s10 s11 s12 s13 s14
  all_goals try simp only [L.k, L.W, L.A, L.R, L.L, L.three, L.two, L.same, X.two, X.g_, X.h, X.k, X.s, X.t, X.f_, X.p, X.A, X.three, X.Y, X.same, X.none, p1, p2, p3, p4, p5, p6, p7,
    hc', E1, E4, E5, E6, N1, N2, Option.some.injEq, List.mem_cons, List.not_mem_nil, Char.reduceEq, or_false, false_or, not_false_eq_true, ne_eq,
    false_and, and_false, true_and, and_true, not_true_eq_false, true_or, or_true]
  all_goals clear L X hplain p1 p2 p3 p4 p5 p6 p7 hw hn pplain hc
  all_goals try rw [E1] at hTh
  all_goals clear E1 E4 E5 E6
  all_goals generalize g w = f at *
  all_goals grind (splits := 60) -verbose only

end

end Verif.CavSpec
