import Verif.Props.Soundex
import Verif.Props.Cologne
import Verif.Props.MatchRating
import Verif.Proofs.Res
/-!
# Codes of longer names (C90)
-/

namespace Verif.Props
open Verif.Spec

namespace ExtendProofs

theorem clean_append (U : Unicode) (s t : Str) : soundexClean U (s ++ t) = soundexClean U s ++ soundexClean U t := by
  unfold soundexClean
  rw [List.filter_append, List.flatMap_append]

theorem refined_append (m : Mapping) (a b : Str) (p : Option Char) (code c : Str)
    (h : RefinedSoundex.loop m (a ++ b) p code = .ok c) :
    ∃ p' c', RefinedSoundex.loop m a p code = .ok c' ∧ RefinedSoundex.loop m b p' c' = .ok c := by
  induction a generalizing p code with
  | nil => exact ⟨p, code, rfl, h⟩
  | cons x a ih =>
    simp only [List.cons_append, RefinedSoundex.loop] at h ⊢
    cases hg : getMappingCode m x with
    | error e => rw [hg] at h; cases h
    | ok d =>
      rw [hg] at h
      simp only [bind, Except.bind] at h ⊢
      by_cases hd : some d ≠ p
      · rw [if_pos hd] at h ⊢; exact ih _ _ h
      · rw [if_neg hd] at h ⊢; exact ih _ _ h

theorem refined_prefix (m : Mapping) (b : Str) (p : Option Char) (code c : Str)
    (h : RefinedSoundex.loop m b p code = .ok c) : code <+: c := by
  induction b generalizing p code with
  | nil => simp only [RefinedSoundex.loop, Except.ok.injEq] at h; rw [h]; exact List.prefix_rfl
  | cons x b ih =>
    simp only [RefinedSoundex.loop] at h
    cases hg : getMappingCode m x with
    | error e => rw [hg] at h; cases h
    | ok d =>
      rw [hg] at h
      simp only [bind, Except.bind] at h
      by_cases hd : some d ≠ p
      · rw [if_pos hd] at h; exact (List.prefix_append _ _).trans (ih _ _ h)
      · rw [if_neg hd] at h; exact ih _ _ h

/-- Four characters: a text filled up with zeros. -/
def filled (w : Str) : Str := w ++ List.replicate (4 - w.length) '0'

theorem set_filled (w : Str) (d : Char) (h : w.length < 4) : (filled w).set w.length d = filled (w ++ [d]) := by
  unfold filled
  rw [List.set_append_right _ _ (Nat.le_refl _), Nat.sub_self]
  have : 4 - w.length = (4 - (w ++ [d]).length) + 1 := by simp; omega
  rw [this, List.replicate_succ]
  simp

theorem soundex_append (sx : Soundex) (a b w : Str) (p : Char) (c : Str) (hw : w.length ≤ 4)
    (h : sx.loop (a ++ b) w.length p (filled w) = .ok c) :
    ∃ w' w'', sx.loop a w.length p (filled w) = .ok (filled w') ∧ c = filled w'' ∧ w <+: w' ∧ w' <+: w'' ∧
      w''.length ≤ 4 := by
  have ext : ∀ (b w : Str) (p : Char) (c : Str), w.length ≤ 4 → sx.loop b w.length p (filled w) = .ok c →
      ∃ w'', c = filled w'' ∧ w <+: w'' ∧ w''.length ≤ 4 := by
    intro b
    induction b with
    | nil =>
      intro w p c hw h
      simp only [Soundex.loop, Except.ok.injEq] at h
      exact ⟨w, h.symm, List.prefix_rfl, hw⟩
    | cons x b ih =>
      intro w p c hw h
      simp only [Soundex.loop] at h
      by_cases h4 : w.length < 4
      · rw [if_pos h4] at h
        split at h
        · exact ih w p c hw h
        · cases hg : getMappingCode sx.mapping x with
          | error e => rw [hg] at h; cases h
          | ok d =>
            rw [hg] at h
            simp only [bind, Except.bind] at h
            split at h
            · exact ih w p c hw h
            · split at h
              · rw [set_filled w d h4] at h
                have hl : (w ++ [d]).length = w.length + 1 := by simp
                rw [← hl] at h
                obtain ⟨w'', h1, h2, h3⟩ := ih (w ++ [d]) d c (by omega) h
                exact ⟨w'', h1, (List.prefix_append _ _).trans h2, h3⟩
              · exact ih w d c hw h
      · rw [if_neg h4] at h
        simp only [Except.ok.injEq] at h
        exact ⟨w, h.symm, List.prefix_rfl, hw⟩
  induction a generalizing w p with
  | nil =>
    obtain ⟨w'', h1, h2, h3⟩ := ext b w p c hw h
    exact ⟨w, w'', rfl, h1, List.prefix_rfl, h2, h3⟩
  | cons x a ih =>
    simp only [List.cons_append, Soundex.loop] at h ⊢
    by_cases h4 : w.length < 4
    · rw [if_pos h4] at h ⊢
      split at h
      · rw [if_pos (by assumption)]; exact ih w p hw h
      · rw [if_neg (by assumption)]
        cases hg : getMappingCode sx.mapping x with
        | error e => rw [hg] at h; cases h
        | ok d =>
          rw [hg] at h
          simp only [bind, Except.bind] at h ⊢
          split at h
          · rw [if_pos (by assumption)]; exact ih w p hw h
          · rw [if_neg (by assumption)]
            split at h
            · rw [if_pos (by assumption), set_filled w d h4]
              rw [set_filled w d h4] at h
              have hl : (w ++ [d]).length = w.length + 1 := by simp
              rw [← hl] at h ⊢
              obtain ⟨w', w'', h1, h2, h3, h5, h6⟩ := ih (w ++ [d]) d (by omega) h
              exact ⟨w', w'', h1, h2, (List.prefix_append _ _).trans h3, h5, h6⟩
            · rw [if_neg (by assumption)]; exact ih w d hw h
    · rw [if_neg h4] at h ⊢
      simp only [Except.ok.injEq] at h
      exact ⟨w, w, rfl, h.symm, List.prefix_rfl, List.prefix_rfl, hw⟩

end ExtendProofs
open ExtendProofs

/-- C90: the Refined Soundex code of a name is the beginning of the code of every longer name. -/
theorem refined_soundex_extends (U : Unicode) (rs : RefinedSoundex) (s t code : Str)
    (h : rs.encode U (s ++ t) = .ok code) : ∃ c, rs.encode U s = .ok c ∧ c <+: code := by
  unfold RefinedSoundex.encode at h ⊢
  rw [clean_append] at h
  cases hs : soundexClean U s with
  | nil => exact ⟨[], rfl, List.nil_prefix⟩
  | cons x a =>
    rw [hs] at h
    dsimp only [List.cons_append] at h ⊢
    rw [← List.cons_append] at h
    obtain ⟨p', c', h1, h2⟩ := refined_append _ _ _ _ _ _ h
    exact ⟨c', h1, refined_prefix _ _ _ _ _ h2⟩

/-- C90: the Soundex code of a name with a letter, without the zeros that fill it up, is the beginning of the code of
every longer name. -/
theorem soundex_extends (U : Unicode) (sx : Soundex) (s t code : Str) (hs : ∃ c ∈ s, U.isAlphabetic c = true)
    (h : sx.encode U (s ++ t) = .ok code) :
    ∃ w w', sx.encode U s = .ok (w ++ List.replicate (4 - w.length) '0') ∧
      code = w' ++ List.replicate (4 - w'.length) '0' ∧ w <+: w' ∧ w'.length ≤ 4 := by
  unfold Soundex.encode at h ⊢
  rw [clean_append] at h
  cases hc : soundexClean U s with
  | nil =>
    obtain ⟨c, hc1, hc2⟩ := hs
    unfold soundexClean at hc
    replace hc := MraProofs.strUpper_eq_nil.mp hc
    have : c ∈ s.filter U.isAlphabetic := List.mem_filter.mpr ⟨hc1, hc2⟩
    rw [hc] at this
    cases this
  | cons x a =>
    rw [hc] at h
    dsimp only [List.cons_append] at h ⊢
    cases hg : getMappingCode sx.mapping x with
    | error e => rw [hg] at h; cases h
    | ok d =>
      rw [hg] at h
      simp only [bind, Except.bind] at h ⊢
      obtain ⟨w', w'', h1, h2, h3, h4, h5⟩ := soundex_append sx a _ [x] d code (by simp) h
      exact ⟨w', w'', h1, h2, h4, h5⟩

namespace ExtendProofs

theorem push_prefix (o : Cologne.Output) (c : Char) : o.buffer <+: (o.push c).buffer := by
  unfold Cologne.Output.push
  split
  · exact List.prefix_append _ _
  · exact List.prefix_rfl

theorem push_one (o : Cologne.Output) (c : Char) : (o.push c).buffer.dropLast <+: o.buffer := by
  unfold Cologne.Output.push
  split
  · simp
  · exact List.dropLast_prefix _

theorem step_prefix (o : Cologne.Output) (l c n : Char) : o.buffer <+: (Cologne.step o l c n).buffer := by
  unfold Cologne.step
  repeat' first
    | with_reducible exact push_prefix _ _
    | with_reducible exact (push_prefix _ _).trans (push_prefix _ _)
    | with_reducible exact List.prefix_rfl
    | refine ite_ind (fun x : Cologne.Output => o.buffer <+: x.buffer) (fun _ => ?_) (fun _ => ?_)

theorem loop_prefix (v : Str) (l : Char) (o : Cologne.Output) : o.buffer <+: (Cologne.loop v l o).buffer := by
  induction v generalizing l o with
  | nil => exact List.prefix_rfl
  | cons c v ih =>
    simp only [Cologne.loop]
    split
    · exact ih _ _
    · exact (step_prefix _ _ _ _).trans (ih _ _)

/-- The step of the last letter, with and without a letter after it. -/
theorem step_last (o : Cologne.Output) (l c n n' : Char) :
    (Cologne.step o l c n).buffer.dropLast <+: (Cologne.step o l c n').buffer := by
  by_cases h : c = 'P' ∨ c = 'D' ∨ c = 'T' ∨ c = 'C'
  · refine List.IsPrefix.trans ?_ (step_prefix o l c n')
    rcases h with rfl | rfl | rfl | rfl
    all_goals
      unfold Cologne.step
      repeat' first
        | with_reducible exact push_one _ _
        | with_reducible exact List.dropLast_prefix _
        | (rename_i hh; refine absurd hh ?_; simp; done)
        | refine ite_ind (fun x : Cologne.Output => x.buffer.dropLast <+: o.buffer) (fun _ => ?_) (fun _ => ?_)
  · have : Cologne.step o l c n = Cologne.step o l c n' := by
      have hP : (c == 'P') = false := by simpa using fun e => h (.inl e)
      have hD : (c == 'D') = false := by simpa using fun e => h (.inr (.inl e))
      have hT : (c == 'T') = false := by simpa using fun e => h (.inr (.inr (.inl e)))
      have hC : (c == 'C') = false := by simpa using fun e => h (.inr (.inr (.inr e)))
      unfold Cologne.step
      simp only [hP, hD, hT, hC, Bool.false_and, Bool.or_self, Bool.or_false, Bool.false_eq_true, if_false]
    rw [this]
    exact List.dropLast_prefix _

theorem dropLast_mono {a b : Str} (h : a <+: b) : a.dropLast <+: b := (List.dropLast_prefix _).trans h

theorem loop_extends (v w : Str) (l : Char) (o : Cologne.Output) :
    (Cologne.loop v l o).buffer.dropLast <+: (Cologne.loop (v ++ w) l o).buffer := by
  induction v generalizing l o with
  | nil => exact (List.dropLast_prefix _).trans (loop_prefix _ _ _)
  | cons c v ih =>
    simp only [List.cons_append, Cologne.loop]
    split
    · exact ih _ _
    · cases v with
      | nil => exact (step_last _ _ _ _ _).trans (loop_prefix _ _ _)
      | cons d v => exact ih _ _

theorem loop_extends_full (v w : Str) (x : Char) (hx : isAsciiUpper x = false) (l : Char) (o : Cologne.Output) :
    (Cologne.loop (v ++ [x]) l o).buffer <+: (Cologne.loop (v ++ [x] ++ w) l o).buffer := by
  induction v generalizing l o with
  | nil =>
    simp only [List.nil_append, List.cons_append, Cologne.loop, hx]
    exact loop_prefix _ _ _
  | cons c v ih =>
    simp only [List.cons_append, Cologne.loop]
    split
    · exact ih _ _
    · cases v with
      | nil => exact ih _ _
      | cons d v => exact ih _ _

theorem prepare_append (U : Unicode) (s t : Str) :
    Cologne.prepare U (s ++ t) = Cologne.prepare U s ++ Cologne.prepare U t := by
  rw [CologneProofs.prepare_eq, CologneProofs.prepare_eq, CologneProofs.prepare_eq]
  unfold cologneWord
  rw [strUpper_append, List.map_append]

end ExtendProofs

/-- C90: the Cologne code of a name, up to its last digit, is the beginning of the code of every longer name; when the
name ends in an ASCII character that is not a letter, all of it is. -/
theorem cologne_extends (U : Unicode) (s t : Str) :
    (Cologne.encode U s).dropLast <+: Cologne.encode U (s ++ t) ∧
    ∀ s' x, s = s' ++ [x] → isAscii x = true → isAsciiAlpha x = false → Cologne.encode U s <+: Cologne.encode U (s ++ t) := by
  constructor
  · unfold Cologne.encode
    rw [prepare_append]
    exact loop_extends _ _ _ _
  · rintro s' x rfl hx hl
    unfold Cologne.encode
    rw [prepare_append U (s' ++ [x]), prepare_append U s']
    have key : ∀ c, isAscii c = true → isAsciiAlpha c = false → ([c].map asciiUpper).map unUmlaut = [c] := by
      apply forall_ascii; decide +kernel
    have key2 : ∀ c, isAscii c = true → isAsciiAlpha c = false → isAsciiUpper c = false := by
      apply forall_ascii; decide +kernel
    have : Cologne.prepare U [x] = [x] := by
      rw [CologneProofs.prepare_eq]
      unfold cologneWord
      rw [strUpper_ascii U (fun c hc => by rw [List.mem_singleton.mp hc]; exact hx)]
      exact key x hx hl
    rw [this]
    exact loop_extends_full _ _ _ (key2 x hx hl) _ _

/-- C90, not vacuous: the codes grow with the name; the last digit of a Cologne code may change. -/
example : RefinedSoundex.default.encode .latin1 c!"test" = .ok c!"T6036" ∧
    RefinedSoundex.default.encode .latin1 c!"testing" = .ok c!"T6036084" ∧
    Soundex.default.encode .latin1 c!"Rob" = .ok c!"R100" ∧ Soundex.default.encode .latin1 c!"Robert" = .ok c!"R163" ∧
    Cologne.encode .latin1 c!"Müllerp" = c!"6571" ∧ Cologne.encode .latin1 c!"Müllerphi" = c!"6573" := by
  decide +kernel

end Verif.Props
