import Verif.Proofs.CaverphoneLate
/-!
# Caverphone: the compaction commutes with the rules after it
-/

set_option linter.unusedSimpArgs false

namespace Verif.CavSpec

/-- The compaction. -/
def compact (t : Str) : Str := replaceCompactAllToUppercase t compactChars

/-- A letter that the compaction neither changes nor produces. -/
def inert (c : Char) : Bool := !compactChars.contains c && !(compactChars.map asciiUpper).contains c

theorem inert_not {c : Char} (h : inert c = true) : compactChars.contains c = false := by
  simp only [inert, Bool.and_eq_true, Bool.not_eq_true'] at h; exact h.1

theorem inert_ne {c d : Char} (h : inert c = true) (hd : compactChars.contains d = true) : c ≠ asciiUpper d := by
  rintro rfl
  simp only [inert, Bool.and_eq_true, Bool.not_eq_true'] at h
  have : (compactChars.map asciiUpper).contains (asciiUpper d) = true := by
    rw [List.contains_iff_mem]
    exact List.mem_map.2 ⟨d, List.contains_iff_mem.1 hd, rfl⟩
  rw [this] at h; simp at h

theorem compactLoop_inert (p : Option Char) {c : Char} (h : compactChars.contains c = false) (cs : Str) :
    compactLoop compactChars p (c :: cs) = c :: compactLoop compactChars none cs := by
  cases p <;> (simp only [compactLoop]; rw [if_neg (by rw [h]; simp)])

theorem compactLoop_inert_append (p : Option Char) {l : Str} (hl : l ≠ []) (h : ∀ c ∈ l, compactChars.contains c = false)
    (cs : Str) : compactLoop compactChars p (l ++ cs) = l ++ compactLoop compactChars none cs := by
  induction l generalizing p with
  | nil => exact absurd rfl hl
  | cons c l ih =>
    rw [List.cons_append, compactLoop_inert p (h c (by simp))]
    cases l with
    | nil => rfl
    | cons d l => rw [ih none (by simp) (fun x hx => h x (by simp [hx]))]; rfl

/-- A letter that is compacted is kept in upper case, or dropped after the same one. -/
theorem compactLoop_active (p : Option Char) {c : Char} (h : compactChars.contains c = true) (cs : Str) :
    compactLoop compactChars p (c :: cs) =
      if p = some c then compactLoop compactChars (some c) cs else asciiUpper c :: compactLoop compactChars (some c) cs := by
  cases p with
  | none => simp only [compactLoop]; rw [if_pos h]; simp
  | some q =>
    simp only [compactLoop]
    rw [if_pos h]
    by_cases hq : q = c
    · subst hq; simp
    · simp [hq]

theorem prefix_compact (pat t : Str) (hp : ∀ c ∈ pat, inert c = true) :
    pat.isPrefixOf (compactLoop compactChars none t) = pat.isPrefixOf t := by
  induction pat generalizing t with
  | nil => simp [List.isPrefixOf]
  | cons p ps ih =>
    cases t with
    | nil => rfl
    | cons c cs =>
      by_cases hc : compactChars.contains c = true
      · rw [compactLoop_active none hc, if_neg (by simp)]
        have h1 : p ≠ asciiUpper c := inert_ne (hp p (by simp)) hc
        have h2 : p ≠ c := by
          rintro rfl
          rw [inert_not (hp p (by simp))] at hc; simp at hc
        simp only [List.isPrefixOf]
        rw [beq_eq_false_iff_ne.2 h1, beq_eq_false_iff_ne.2 h2]; rfl
      · rw [compactLoop_inert none (by simpa using hc)]
        simp only [List.isPrefixOf]
        rw [ih cs (fun x hx => hp x (by simp [hx]))]

theorem replaceAll_compactLoop (pat rep : Str) (hp0 : pat ≠ []) (hr0 : rep ≠ []) (hp : ∀ c ∈ pat, inert c = true)
    (hr : ∀ c ∈ rep, compactChars.contains c = false) (p : Option Char) (t : Str) :
    replaceAll (compactLoop compactChars p t) pat rep = compactLoop compactChars p (replaceAll t pat rep) := by
  induction hn : t.length using Nat.strongRecOn generalizing t p with
  | ind n ih =>
    cases t with
    | nil => rfl
    | cons c cs =>
      by_cases hc : compactChars.contains c = true
      · have hno : ∀ s, pat.isPrefixOf (asciiUpper c :: s) = false := by
          intro s
          cases pat with
          | nil => exact absurd rfl hp0
          | cons q qs =>
            have h1 : q ≠ asciiUpper c := inert_ne (hp q (by simp)) hc
            simp [List.isPrefixOf, h1]
        have hno' : ∀ s, pat.isPrefixOf (c :: s) = false := by
          intro s
          cases pat with
          | nil => exact absurd rfl hp0
          | cons q qs =>
            have h1 : q ≠ c := by
              rintro rfl
              rw [inert_not (hp q (by simp))] at hc; simp at hc
            simp [List.isPrefixOf, h1]
        rw [replaceAll_cons c cs _ _ hp0, hno', compactLoop_active p hc]
        simp only [Bool.false_eq_true, if_false]
        rw [compactLoop_active p hc]
        have := ih cs.length (by subst hn; simp) (some c) cs rfl
        split
        · exact this
        · rw [replaceAll_cons _ _ _ _ hp0, hno]
          simp only [Bool.false_eq_true, if_false]
          rw [this]
      · have hc : compactChars.contains c = false := by simpa using hc
        rw [replaceAll_cons c cs _ _ hp0, compactLoop_inert p hc, replaceAll_cons _ _ _ _ hp0]
        have e : pat.isPrefixOf (c :: compactLoop compactChars none cs) = pat.isPrefixOf (c :: cs) := by
          rw [← compactLoop_inert none hc, prefix_compact pat _ hp]
        rw [e]
        by_cases hpre : pat.isPrefixOf (c :: cs) = true
        · rw [if_pos hpre, if_pos hpre, compactLoop_inert_append p hr0 hr]
          obtain ⟨r, hr'⟩ := List.isPrefixOf_iff_prefix.1 hpre
          have e2 : (c :: compactLoop compactChars none cs).drop pat.length = compactLoop compactChars none r := by
            rw [← compactLoop_inert none hc, ← hr', compactLoop_inert_append none hp0 (fun x hx => inert_not (hp x hx))]
            simp
          have e3 : (c :: cs).drop pat.length = r := by rw [← hr']; simp
          have hl : r.length < n := by
            have := congrArg List.length hr'
            have h0 : 0 < pat.length := List.length_pos_iff.2 hp0
            simp at this hn; omega
          rw [e2, e3, ih r.length hl none r rfl]
        · rw [if_neg hpre, if_neg hpre, ih cs.length (by subst hn; simp) none cs rfl, compactLoop_inert p hc]

theorem replaceAll_compact {pat rep : Str} (t : Str)
    (h : (pat ≠ [] ∧ rep ≠ []) ∧ (∀ c ∈ pat, inert c = true) ∧ ∀ c ∈ rep, compactChars.contains c = false) :
    replaceAll (compact t) pat rep = compact (replaceAll t pat rep) :=
  replaceAll_compactLoop pat rep h.1.1 h.1.2 h.2.1 h.2.2 none t

theorem replaceStart_compact {p r : Char} (t : Str) (h : inert p = true ∧ compactChars.contains r = false) :
    replaceStart (compact t) [p] [r] = compact (replaceStart t [p] [r]) := by
  unfold replaceStart compact replaceCompactAllToUppercase
  rw [prefix_compact [p] t (by simpa using h.1)]
  by_cases hpre : [p].isPrefixOf t = true
  · rw [if_pos hpre, if_pos hpre]
    obtain ⟨s, rfl⟩ := List.isPrefixOf_iff_prefix.1 hpre
    rw [compactLoop_inert_append none (by simp) (by simpa using inert_not h.1)]
    have e : ([p] ++ s).drop [p].length = s := by simp
    rw [e, compactLoop_inert_append none (by simp) (by simpa using h.2)]
    simp
  · rw [if_neg hpre, if_neg hpre]

theorem compactLoop_snoc (p : Option Char) (t : Str) {c : Char} (h : compactChars.contains c = false) :
    compactLoop compactChars p (t ++ [c]) = compactLoop compactChars p t ++ [c] := by
  induction t generalizing p with
  | nil => rw [List.nil_append, compactLoop_inert p h]; rfl
  | cons d ds ih =>
    by_cases hd : compactChars.contains d = true
    · rw [List.cons_append, compactLoop_active p hd, compactLoop_active p hd]
      split
      · exact ih _
      · rw [ih]; rfl
    · rw [List.cons_append, compactLoop_inert p (by simpa using hd), compactLoop_inert p (by simpa using hd), ih]; rfl

theorem compactLoop_snoc_active (p : Option Char) (t : Str) {c : Char} (h : compactChars.contains c = true) :
    compactLoop compactChars p (t ++ [c]) = [] ∨ (compactLoop compactChars p (t ++ [c])).getLast? = some (asciiUpper c) ∨
      (∃ q, p = some q ∧ q = c ∧ compactLoop compactChars p t = [] ) := by
  induction t generalizing p with
  | nil =>
    rw [List.nil_append, compactLoop_active p h]
    split
    · left; rfl
    · right; left; rfl
  | cons d ds ih =>
    by_cases hd : compactChars.contains d = true
    · rw [List.cons_append, compactLoop_active p hd, compactLoop_active p hd]
      by_cases hpd : p = some d
      · rw [if_pos hpd, if_pos hpd]
        rcases ih (some d) with h1 | h1 | ⟨q, h1, h2, h3⟩
        · exact Or.inl h1
        · exact Or.inr (Or.inl h1)
        · right; right
          exact ⟨q, by rw [hpd]; exact h1, h2, h3⟩
      · rw [if_neg hpd]
        right; left
        rw [List.getLast?_cons]
        rcases ih (some d) with h1 | h1 | ⟨q, h1, h2, h3⟩
        · rw [h1]
          -- the whole rest repeats `d`
          have : ∀ (t : Str) (q : Char), compactLoop compactChars (some q) (t ++ [c]) = [] → q = c := by
            intro t
            induction t with
            | nil =>
              intro q hq
              rw [List.nil_append, compactLoop_active _ h] at hq
              split at hq
              · rename_i e; simpa using e
              · simp at hq
            | cons x xs ihx =>
              intro q hq
              by_cases hx : compactChars.contains x = true
              · rw [List.cons_append, compactLoop_active _ hx] at hq
                split at hq
                · rename_i e
                  have := ihx x hq
                  rw [Option.some.injEq] at e
                  rw [e, this]
                · simp at hq
              · rw [List.cons_append, compactLoop_inert _ (by simpa using hx)] at hq
                simp at hq
          rw [this ds d h1]; rfl
        · rw [h1]; rfl
        · rw [Option.some.injEq] at h1
          subst h1; subst h2
          have : ∀ (t : Str), compactLoop compactChars (some d) t = [] → compactLoop compactChars (some d) (t ++ [d]) = [] := by
            intro t
            induction t with
            | nil => intro _; rw [List.nil_append, compactLoop_active _ h, if_pos rfl]; rfl
            | cons x xs ihx =>
              intro hq
              by_cases hx : compactChars.contains x = true
              · rw [compactLoop_active _ hx] at hq
                split at hq
                · rename_i e
                  rw [Option.some.injEq] at e
                  subst e
                  rw [List.cons_append, compactLoop_active _ hx, if_pos rfl]
                  exact ihx hq
                · simp at hq
              · rw [compactLoop_inert _ (by simpa using hx)] at hq
                simp at hq
          rw [this ds h3]; rfl
    · rw [List.cons_append, compactLoop_inert p (by simpa using hd)]
      right; left
      rw [List.getLast?_cons]
      rcases ih none with h1 | h1 | ⟨q, h1, _, _⟩
      · exfalso
        have : ∀ t : Str, compactLoop compactChars none (t ++ [c]) ≠ [] := by
          intro t
          cases t with
          | nil => rw [List.nil_append, compactLoop_active _ h, if_neg (by simp)]; simp
          | cons x xs =>
            by_cases hx : compactChars.contains x = true
            · rw [List.cons_append, compactLoop_active _ hx, if_neg (by simp)]; simp
            · rw [List.cons_append, compactLoop_inert _ (by simpa using hx)]; simp
        exact this ds h1
      · rw [h1]; rfl
      · simp at h1

theorem replaceEnd_compact {p r : Char} (t : Str) (h : inert p = true ∧ compactChars.contains r = false) :
    replaceEnd (compact t) [p] [r] = compact (replaceEnd t [p] [r]) := by
  unfold compact replaceCompactAllToUppercase
  have yes : ∀ s : Str, ∀ q : Char, replaceEnd (s ++ [q]) [q] [r] = s ++ [r] := by
    intro s q
    unfold replaceEnd
    rw [if_pos (by simp [endsWith]), show (s ++ [q]).length - [q].length = s.length by simp, List.take_left' rfl]
  have no : ∀ s : Str, s.getLast? ≠ some p → replaceEnd s [p] [r] = s := by
    intro s hs
    unfold replaceEnd
    rw [if_neg]
    simp only [endsWith, List.isSuffixOf_iff_suffix]
    rintro ⟨m, rfl⟩
    simp at hs
  rcases List.eq_nil_or_concat t with rfl | ⟨l, c, rfl⟩
  · rfl
  · rw [List.concat_eq_append]
    by_cases hc : c = p
    · subst hc
      rw [compactLoop_snoc none l (inert_not h.1), yes, yes, compactLoop_snoc none l h.2]
    · rw [no (l ++ [c]) (by simpa using hc)]
      apply no
      by_cases ha : compactChars.contains c = true
      · rcases compactLoop_snoc_active none l ha with h1 | h1 | ⟨q, h1, _, _⟩
        · rw [h1]; simp
        · rw [h1, ne_eq, Option.some.injEq]
          exact fun e => inert_ne h.1 ha e.symm
        · simp at h1
      · rw [compactLoop_snoc none l (by simpa using ha)]
        simpa using hc

theorem vowels1_eq (t : Str) : Caverphone1.vowels t =
    replaceAll (replaceAll (compact (late1 (replaceChar (replaceChar t vowelStartF) vowelF))) c!"2" []) c!"3" [] := by
  unfold Caverphone1.vowels late1
  dsimp only
  rw [show ∀ x, replaceCompactAllToUppercase x compactChars = compact x from fun _ => rfl]
  repeat first
    | rw [replaceAll_compact _ (by decide)]
    | rw [replaceStart_compact _ (by decide)]

theorem vowels2_eq (t : Str) : Caverphone2.vowels t =
    replaceAll (replaceEnd (replaceAll (compact (late2 (mid2 (replaceChar (replaceChar t vowelStartF) vowelF)))) c!"2" [])
      c!"3" c!"A") c!"3" [] := by
  unfold Caverphone2.vowels late2 mid2
  dsimp only
  rw [show ∀ x, replaceCompactAllToUppercase x compactChars = compact x from fun _ => rfl]
  repeat first
    | rw [replaceAll_compact _ (by decide)]
    | rw [replaceStart_compact _ (by decide)]
    | rw [replaceEnd_compact _ (by decide)]

end Verif.CavSpec
