import Verif.Spec.FirstCharacter
import Verif.Props.HeardDaitchMokotoff
/-!
# C106: what the first character of a code says about the beginning of the name

Daitch-Mokotoff Soundex.
-/
namespace Verif.Props
open Spec DaitchMokotoff DMKProofs InterchangeProofs
set_option linter.unusedSimpArgs false

namespace OnsetProofs

/-- The first group belongs to the first letter. -/
theorem groups_onset {rules : List DMSpecRule} (hd : Default rules) (text : Str) (ht : AsciiStr text)
    (c : Char) (r : Str) (h : text.filter isAsciiLower = c :: r) :
    ∃ g gs, dmGroups rules none 0 text = g :: gs ∧ ∀ a ∈ g.1, ∃ x ∈ daitchMokotoffOnset (asciiUpper c), a.head? = some x := by
  have hs := HeardProofs.sounding hd
  induction text with
  | nil => cases h
  | cons x t ih =>
    rw [asciiStr_cons] at ht
    by_cases hx : isAsciiLower x = true
    · rw [List.filter_cons_of_pos hx] at h
      injection h with h _
      subst h
      obtain ⟨r0, hr0, hp⟩ := hs.single x hx
      obtain ⟨y, hy⟩ := HeardProofs.best_some (text := x :: t) hr0 (by rw [hp]; simp [List.isPrefixOf])
      obtain ⟨hr, q, hq⟩ := OneCodeProofs.best_mem hy
      rw [dmGroups, if_neg, hy]
      · refine ⟨_, _, rfl, fun a ha => ?_⟩
        have ha : a ∈ y.atStart := by simpa [alternativesAt] using ha
        have := default_all hd (fun r => !isAscii (r.pattern.headD 'a') ||
          r.atStart.all fun a => a.head?.any fun x => (daitchMokotoffOnset (asciiUpper (r.pattern.headD 'a'))).contains x)
          (by decide +kernel) y hr
        have hh : y.pattern.headD 'a' = x := by
          cases hp : y.pattern with
          | nil => exact absurd hp (hs.filled y hr)
          | cons z p =>
            rw [hp] at hq
            injection hq with hq _
        rw [hh, ht.1] at this
        simp only [Bool.not_true, Bool.false_or] at this
        have := List.all_eq_true.mp this a ha
        cases a with
        | nil => simp at this
        | cons z a => exact ⟨z, by simpa using this, rfl⟩
      · intro hall
        have := List.all_eq_true.mp hall r0 hr0
        rw [hp] at this; simp at this
    · rw [List.filter_cons_of_neg hx] at h
      rw [dmGroups, if_pos]
      · exact ih ht.2 h
      · refine List.all_eq_true.mpr fun r hr => ?_
        simp only [bne_iff_ne, ne_eq]
        intro hh
        exact hx (hs.letters r hr x hh ht.1)

theorem paths_onset (gs : List (List Str × Bool)) (T : Str) : ∀ ps : List Partial,
    (∀ p ∈ ps, ∃ x ∈ T, p.code.head? = some x) → ∀ p ∈ gs.foldl HeardProofs.dmkStep ps, ∃ x ∈ T, p.code.head? = some x := by
  induction gs with
  | nil => exact fun ps h => h
  | cons g gs ih =>
    intro ps h
    refine ih _ ?_
    intro q hq
    obtain ⟨p, hp, a, ha, rfl⟩ := HeardProofs.mem_step hq
    obtain ⟨x, hx, e⟩ := h p hp
    refine ⟨x, hx, ?_⟩
    rw [HeardProofs.add_eq]
    simp only
    split
    · exact e
    · cases hc : p.code with
      | nil => rw [hc] at e; cases e
      | cons y ys => rw [hc] at e; simpa using e

/-- The letters of a name, in the text that is coded. -/
theorem text_letters (s : Str) (hs : AsciiStr s) :
    ((s.filter fun c => !isAsciiWs c).map asciiLower).filter isAsciiLower = (asciiLetters s).map asciiLower := by
  unfold asciiLetters
  have f1 : ∀ c, isAscii c = true → isAsciiAlpha c = true → isAsciiWs c = false ∧ isAsciiLower (asciiLower c) = true ∧
      asciiLower (asciiUpper c) = asciiLower c := by apply forall_ascii; decide +kernel
  have f2 : ∀ c, isAscii c = true → isAsciiAlpha c = false → isAsciiLower (asciiLower c) = false := by
    apply forall_ascii; decide +kernel
  induction s with
  | nil => rfl
  | cons x s ih =>
    rw [asciiStr_cons] at hs
    have ih := ih hs.2
    cases hx : isAsciiAlpha x with
    | true =>
      obtain ⟨g1, g2, g3⟩ := f1 x hs.1 hx
      simp [List.filter_cons, hx, g1, g2, g3] at ih ⊢
      exact ih
    | false =>
      have g := f2 x hs.1 hx
      by_cases hw : isAsciiWs x = true
      · simp [List.filter_cons, hx, hw] at ih ⊢
        exact ih
      · simp [List.filter_cons, hx, hw, g] at ih ⊢
        exact ih

end OnsetProofs

/-- C106. Daitch-Mokotoff Soundex with the embedded rules: the first digit of every code is one of those of the first
letter. -/
theorem dm_onset (U : Unicode) (s : Str) (hs : AsciiStr s) (c : Char) (r : Str) (h : asciiLetters s = c :: r) :
    ∃ codes, defaultEncoder.innerSoundex U s true = .ok codes ∧ codes ≠ [] ∧
      ∀ code ∈ codes, ∃ x ∈ daitchMokotoffOnset c, code.head? = some x := by
  obtain ⟨rules, hd, hc⟩ := default_codes
  have hne : dmCodes rules (clean U defaultEncoder s) ≠ [] := by
    obtain ⟨codes, h1, h2, _⟩ := dm_few_codes U s hs
    rw [Except.ok.inj ((hc U s).symm.trans h1)]
    rintro rfl
    simp at h2
  refine ⟨_, hc U s, hne, ?_⟩
  rw [clean_ascii U hs]
  have ha : AsciiStr ((s.filter fun c => !isAsciiWs c).map asciiLower) := by
    have hl : ∀ c, isAscii c = true → isAscii (asciiLower c) = true := by apply forall_ascii; decide +kernel
    intro c hc
    obtain ⟨d, hd', rfl⟩ := List.mem_map.mp hc
    exact hl d (hs d (List.mem_filter.mp hd').1)
  obtain ⟨g, gs, hg, hx⟩ := OnsetProofs.groups_onset hd _ ha (asciiLower c) (r.map asciiLower)
    (by rw [OnsetProofs.text_letters s hs, h]; rfl)
  have up : asciiUpper (asciiLower c) = c := by
    have hu : isAsciiUpper c = true := asciiLetters_upper c (by rw [h]; simp)
    have f : ∀ c, isAscii c = true → isAsciiUpper c = true → asciiUpper (asciiLower c) = c := by
      apply forall_ascii; decide +kernel
    exact f c (isAscii_of_upper hu) hu
  rw [up] at hx
  intro code hcode
  unfold dmCodes at hcode
  rw [hg] at hcode
  obtain ⟨p, hp, rfl⟩ := List.mem_map.mp hcode
  have e : ∀ gs, dmPaths gs = gs.foldl HeardProofs.dmkStep [⟨[], none⟩] := fun _ => rfl
  rw [e, List.foldl_cons] at hp
  obtain ⟨x, hxT, ex⟩ := OnsetProofs.paths_onset gs (daitchMokotoffOnset c) _ (by
    intro q hq
    obtain ⟨p, h1, a, ha, rfl⟩ := HeardProofs.mem_step hq
    have : p = ⟨[], none⟩ := by simpa using h1
    subst this
    obtain ⟨x, hxT, ex⟩ := hx a ha
    refine ⟨x, hxT, ?_⟩
    cases a with
    | nil => cases ex
    | cons y a => simpa [Partial.add] using ex) p hp
  refine ⟨x, hxT, ?_⟩
  unfold pad6
  cases hcd : p.code with
  | nil => rw [hcd] at ex; cases ex
  | cons y ys => rw [hcd] at ex; simpa using ex

example : defaultEncoder.soundex .latin1 c!"Rzepka" = .ok c!"475000|947500" ∧ daitchMokotoffOnset 'R' = c!"49" := by
  decide +kernel

/-- C106. All the digits of the table occur. -/
theorem dm_onset_sharp : ∀ c ∈ c!"ABCDEFGHIJKLMNOPQRSTUVWXYZ", ∀ d ∈ daitchMokotoffOnset c,
    ∃ t ∈ [c!"", c!"u", c!"o", c!"z", c!"d", c!"zdz", c!"tch"],
      ((defaultEncoder.innerSoundex .latin1 (c :: t) true).map fun codes => codes.any fun code => code.head? == some d) = .ok true := by
  decide +kernel

end Verif.Props
