import Verif.Props.CodesSoundex
import Verif.Props.BeginningNysiis
/-!
# C93: which strings are codes (NYSIIS)
-/

set_option linter.unusedSimpArgs false

namespace Verif.Props
open Spec

namespace NysiisCodes
open NysiisProofs CodeProofs

def inside : Str := c!"ABCDFGHJLNPRSTVWXY"
def vowels : Str := c!"AEIOU"

/-- What may follow a letter in a key; `e` says whether the key may end in H. -/
def Run (e : Bool) : Char → Str → Prop
  | _, [] => True
  | p, c :: r => c ∈ inside ∧ p ≠ c ∧ (c = 'W' → p ∉ vowels) ∧ (c = 'H' → p ∈ vowels ∧ (e = true ∧ r = [] ∨ r.head? = some 'A')) ∧ Run e c r

theorem run_weaken {p : Char} {r : Str} {e : Bool} (h : Run e p r) : Run true p r := by
  induction r generalizing p with
  | nil => trivial
  | cons c r ih =>
    obtain ⟨h1, h2, h3, h4, h5⟩ := h
    refine ⟨h1, h2, h3, fun hc => ⟨(h4 hc).1, ?_⟩, ih h5⟩
    rcases (h4 hc).2 with h | h
    · exact Or.inl ⟨rfl, h.2⟩
    · exact Or.inr h

theorem run_noDup {e : Bool} {p : Char} {r : Str} (h : Run e p r) : NoAdjacentDup (p :: r) := by
  induction r generalizing p with
  | nil => trivial
  | cons c r ih => exact ⟨h.2.1, ih h.2.2.2.2⟩

theorem run_inside {e : Bool} {p : Char} {r : Str} (h : Run e p r) : ∀ c ∈ r, c ∈ inside := by
  induction r generalizing p with
  | nil => simp
  | cons c r ih =>
    intro x hx
    rcases List.mem_cons.mp hx with rfl | hx
    · exact h.1
    · exact ih h.2.2.2.2 x hx

theorem run_at {e : Bool} {p : Char} {r : Str} (h : Run e p r) (before : Str) (x y : Char) (after : Str)
    (eq : p :: r = before ++ x :: y :: after) : (y = 'W' → x ∉ vowels) ∧
      (y = 'H' → x ∈ vowels ∧ (e = true ∧ after = [] ∨ after.head? = some 'A')) := by
  induction before generalizing p r with
  | nil =>
    simp only [List.nil_append, List.cons.injEq] at eq
    obtain ⟨rfl, rfl⟩ := eq
    exact ⟨h.2.2.1, h.2.2.2.1⟩
  | cons b before ih =>
    simp only [List.cons_append, List.cons.injEq] at eq
    obtain ⟨rfl, eq⟩ := eq
    cases r with
    | nil => simp at eq
    | cons c r => exact ih h.2.2.2.2 eq

theorem run_of {p : Char} {r : Str} (h1 : ∀ c ∈ r, c ∈ inside) (h2 : NoAdjacentDup (p :: r))
    (h3 : ∀ before x after, p :: r = before ++ x :: 'W' :: after → x ∉ vowels)
    (h4 : ∀ before x after, p :: r = before ++ x :: 'H' :: after → x ∈ vowels ∧ (after = [] ∨ after.head? = some 'A')) :
    Run true p r := by
  induction r generalizing p with
  | nil => trivial
  | cons c r ih =>
    refine ⟨h1 c (by simp), h2.1, ?_, ?_, ih (fun x hx => h1 x (by simp [hx])) h2.2 ?_ ?_⟩
    · rintro rfl
      exact h3 [] p r rfl
    · rintro rfl
      have := h4 [] p r rfl
      exact ⟨this.1, this.2.elim (fun h => Or.inl ⟨rfl, h⟩) Or.inr⟩
    · exact fun before x after eq => h3 (p :: before) x after (by rw [eq]; rfl)
    · exact fun before x after eq => h4 (p :: before) x after (by rw [eq]; rfl)

theorem key_iff (first : Char) (rest : Str) :
    NysiisKey first rest ↔ first ∈ capitals ∧ first ≠ 'K' ∧ Run true first rest := by
  constructor
  · rintro ⟨h1, h2, h3, h4, h5, h6⟩
    exact ⟨h1, h2, run_of h3 h4 h5 h6⟩
  · rintro ⟨h1, h2, h3⟩
    refine ⟨h1, h2, run_inside h3, run_noDup h3, fun b x a eq => (run_at h3 b x 'W' a eq).1 rfl, fun b x a eq => ?_⟩
    have := (run_at h3 b x 'H' a eq).2 rfl
    exact ⟨this.1, this.2.imp (fun h => h.2) id⟩

theorem run_take {p : Char} {r : Str} (h : Run true p r) (n : Nat) : Run true p (r.take n) := by
  induction r generalizing p n with
  | nil => simp [Run]
  | cons c r ih =>
    cases n with
    | zero => trivial
    | succ n =>
      obtain ⟨h1, h2, h3, h4, h5⟩ := h
      refine ⟨h1, h2, h3, fun hc => ⟨(h4 hc).1, ?_⟩, ih h5 n⟩
      cases n with
      | zero => exact Or.inl ⟨rfl, rfl⟩
      | succ n =>
        rcases (h4 hc).2 with h | h
        · rw [h.2]; exact Or.inl ⟨rfl, rfl⟩
        · right
          cases r with
          | nil => cases h
          | cons d r => exact h

theorem vowel_caps {c : Char} (h : isAsciiUpper c = true) : nysiisVowel c = true ↔ c ∈ vowels := by
  have : ∀ c, isAscii c = true → isAsciiUpper c = true → (nysiisVowel c = true ↔ c ∈ vowels) := by
    apply forall_ascii; decide +kernel
  exact this c (isAscii_of_upper h) h

/-- The letter after H in a key. -/
theorem letters_vowel (n : Nat) (p c : Char) (rest : Str) (h : nysiisVowel c = true) :
    (nysiisLetters n p (c :: rest)) = [] ∨ (nysiisLetters n p (c :: rest)).head? = some 'A' := by
  cases n with
  | zero => exact Or.inl rfl
  | succ n =>
    right
    simp only [nysiisLetters, List.head?_cons, Option.some.injEq]
    unfold nysiisLetter
    split
    · rfl
    · rfl

theorem letter_step {prev c : Char} {rest : Str} (hp : isAsciiUpper prev = true) (hc : isAsciiUpper c = true)
    (hne : (nysiisLetter prev c rest).1 ≠ prev) :
    (nysiisLetter prev c rest).1 ∈ inside ∧ ((nysiisLetter prev c rest).1 = 'W' → prev ∉ vowels) ∧
    ((nysiisLetter prev c rest).1 = 'H' → prev ∈ vowels ∧ ∃ d r, (nysiisLetter prev c rest).2 = d :: r ∧ nysiisVowel d = true) := by
  revert hne
  let P : Char × Str → Prop := fun r => r.1 ≠ prev → r.1 ∈ inside ∧ (r.1 = 'W' → prev ∉ vowels) ∧
    (r.1 = 'H' → prev ∈ vowels ∧ ∃ d t, r.2 = d :: t ∧ nysiisVowel d = true)
  have q : ∀ (d : Char) (t : Str), d ∈ inside → d ≠ 'W' → d ≠ 'H' → P (d, t) :=
    fun d t h1 h2 h3 _ => ⟨h1, fun h => absurd h h2, fun h => absurd h h3⟩
  have qp : ∀ t, P (prev, t) := fun t h => absurd rfl h
  have key : ∀ c, isAscii c = true → (isAsciiUpper c && !nysiisVowel c && !(c == 'Q') &&
      !(c == 'Z') && !(c == 'M') && !(c == 'K') && !(c == 'H')) = true → c ∈ inside ∧ c ≠ 'H' := by
    apply forall_ascii; decide +kernel
  show P (nysiisLetter prev c rest)
  unfold nysiisLetter
  refine ite_ind (fun _ => q _ _ (by decide) (by decide) (by decide)) fun _ => ?_
  refine ite_ind (fun _ => q _ _ (by decide) (by decide) (by decide)) fun h1 => ?_
  refine ite_ind (fun _ => q _ _ (by decide) (by decide) (by decide)) fun h2 => ?_
  refine ite_ind (fun _ => q _ _ (by decide) (by decide) (by decide)) fun h3 => ?_
  refine ite_ind (fun _ => q _ _ (by decide) (by decide) (by decide)) fun h4 => ?_
  refine ite_ind (fun _ => q _ _ (by decide) (by decide) (by decide)) fun _ => ?_
  refine ite_ind (fun _ => q _ _ (by decide) (by decide) (by decide)) fun h5 => ?_
  refine ite_ind (fun _ => q _ _ (by decide) (by decide) (by decide)) fun _ => ?_
  refine ite_ind (fun _ => q _ _ (by decide) (by decide) (by decide)) fun _ => ?_
  refine ite_ind (fun _ => ite_ind (fun hv _ => ?_) fun _ => qp _) fun h6 => ?_
  · refine ⟨(by decide : 'H' ∈ inside), (by simp), fun _ => ⟨(vowel_caps hp).mp hv.1, ?_⟩⟩
    obtain ⟨_, hv⟩ := hv
    cases rest with
    | nil => simp at hv
    | cons d t => exact ⟨d, t, rfl, by simpa using hv⟩
  · refine ite_ind (fun _ => qp _) fun h7 _ => ?_
    have := key c (isAscii_of_upper hc) (by simp [hc, h1, h2, h3, h4, h5, h6])
    refine ⟨this.1, fun hw hv => h7 ⟨hw, (vowel_caps hp).mpr hv⟩, fun hh => absurd hh this.2⟩

theorem letters_run (n : Nat) : ∀ {prev : Char} {rest : Str}, isAsciiUpper prev = true → Caps rest →
    ∃ t, collapse (prev :: nysiisLetters n prev rest) = prev :: t ∧ Run true prev t := by
  induction n with
  | zero => intro prev rest _ _; exact ⟨[], rfl, trivial⟩
  | succ n ih =>
    intro prev rest hp hr
    cases rest with
    | nil => exact ⟨[], rfl, trivial⟩
    | cons c rest =>
      have hc := hr c (by simp)
      have hr' : Caps rest := hr.drop 1
      obtain ⟨h1, h2⟩ := letter_caps hp hc hr'
      obtain ⟨t, h3, h4⟩ := ih (prev := (nysiisLetter prev c rest).1) h1 h2
      simp only [nysiisLetters]
      rw [collapse_cons_cons]
      by_cases he : prev = (nysiisLetter prev c rest).1
      · rw [if_pos he, h3]
        rw [← he] at h4 ⊢
        exact ⟨t, rfl, h4⟩
      · rw [if_neg he, h3]
        refine ⟨_, rfl, ?_⟩
        obtain ⟨h5, h6, h7⟩ := letter_step (rest := rest) hp hc (fun h => he h.symm)
        refine ⟨h5, he, h6, fun hh => ?_, h4⟩
        obtain ⟨h8, d, r, h9, h10⟩ := h7 hh
        refine ⟨h8, ?_⟩
        rw [h9] at h3
        generalize (nysiisLetter prev c rest).1 = x at *
        subst hh
        rcases letters_vowel n 'H' d r h10 with h | h
        · rw [h] at h3
          left
          simp [collapse] at h3
          first | exact ⟨rfl, h3⟩ | exact ⟨rfl, h3.symm⟩
        · right
          cases hl : nysiisLetters n 'H' (d :: r) with
          | nil => rw [hl] at h; cases h
          | cons a l =>
            rw [hl] at h h3
            simp only [List.head?_cons, Option.some.injEq] at h
            subst h
            rw [collapse_cons_cons, if_neg (by decide)] at h3
            obtain ⟨t', ht⟩ := collapse_head 'A' l
            rw [ht] at h3
            simp only [List.cons.injEq, true_and] at h3
            rw [← h3]; rfl

/-- A key, or nothing. -/
def Good (w : Str) : Prop := w = [] ∨ ∃ c t, w = c :: t ∧ c ∈ capitals ∧ c ≠ 'K' ∧ Run true c t

theorem good_take {w : Str} (h : Good w) (n : Nat) : Good (w.take n) := by
  rcases h with rfl | ⟨c, t, rfl, h1, h2, h3⟩
  · left; simp
  · cases n with
    | zero => exact Or.inl rfl
    | succ n => exact Or.inr ⟨c, t.take n, rfl, h1, h2, run_take h3 n⟩

theorem good_dropLast {w : Str} (h : Good w) : Good w.dropLast := by
  rw [List.dropLast_eq_take]; exact good_take h _

theorem good_noDup {w : Str} (h : Good w) : NoAdjacentDup w := by
  rcases h with rfl | ⟨c, t, rfl, _, _, h⟩
  · trivial
  · exact run_noDup h

theorem noDup_last {z : Str} {a : Char} (h : NoAdjacentDup (z ++ [a])) : z.getLast? ≠ some a := by
  induction z with
  | nil => simp
  | cons b z ih =>
    cases z with
    | nil =>
      simp only [List.cons_append, List.nil_append, NoAdjacentDup] at h
      simpa using h.1
    | cons c z =>
      have := ih h.2
      rw [List.getLast?_cons_cons]
      exact this

theorem good_code {w : Str} (h : Good w) (hl : w.getLast? ≠ some 'A') :
    NysiisCode w ∧ (w ≠ [] → NysiisCode (w ++ c!"Y")) := by
  rcases h with rfl | ⟨c, t, rfl, h1, h2, h3⟩
  · exact ⟨Or.inl rfl, fun h => absurd rfl h⟩
  · have hk := (key_iff c t).mpr ⟨h1, h2, h3⟩
    exact ⟨Or.inr (Or.inr ⟨c, t, hk, hl, Or.inl rfl⟩), fun _ => Or.inr (Or.inr ⟨c, t, hk, hl, Or.inr rfl⟩)⟩

theorem suffix_one {w : Str} {a : Char} (h : [a] <:+ w) : w = w.dropLast ++ [a] := by
  obtain ⟨z, rfl⟩ := h
  simp

theorem finish_code {key : Str} (h : Good key) : NysiisCode (nysiisFinish key) := by
  unfold nysiisFinish
  split
  · rename_i hb
    rcases h with rfl | ⟨c, t, rfl, h1, h2, h3⟩
    · exact Or.inl rfl
    · cases t with
      | nil =>
        by_cases hA : c = 'A'
        · subst hA; exact Or.inr (Or.inl rfl)
        · exact (good_code (Or.inr ⟨c, [], rfl, h1, h2, h3⟩) (by simpa using hA)).1
      | cons d t =>
        have e1 := Char.utf8Size_pos c
        have e2 := Char.utf8Size_pos d
        simp only [byteLen, List.map_cons, List.sum_cons] at hb
        omega
  · dsimp only
    have hk : Good (if c!"S" <:+ key then key.dropLast else key) := by
      split
      · exact good_dropLast h
      · exact h
    generalize (if c!"S" <:+ key then key.dropLast else key) = k at hk
    by_cases hy : c!"AY" <:+ k ∧ k ≠ c!"AY"
    · rw [if_pos hy]
      obtain ⟨⟨z, rfl⟩, hz⟩ := hy
      have e : (z ++ c!"AY").dropLast.dropLast = z := by simp
      rw [e, if_neg]
      · have hg : Good z := by
          have := good_dropLast (good_dropLast hk)
          rwa [e] at this
        refine (good_code hg ?_).2 ?_
        · have := good_noDup (good_dropLast hk)
          have e2 : (z ++ c!"AY").dropLast = z ++ ['A'] := by simp
          rw [e2] at this
          exact noDup_last this
        · rintro rfl; exact hz rfl
      · rintro ⟨y, hy⟩
        have := congrArg List.getLast? hy
        simp at this
    · rw [if_neg hy]
      by_cases hA : c!"A" <:+ k
      · rw [if_pos hA]
        have := suffix_one hA
        refine (good_code (good_dropLast hk) ?_).1
        have hn := good_noDup hk
        rw [this] at hn
        exact noDup_last hn
      · rw [if_neg hA]
        refine (good_code hk ?_).1
        intro hl
        apply hA
        rcases List.eq_nil_or_concat k with rfl | ⟨z, a, rfl⟩
        · cases hl
        · rw [List.concat_eq_append] at hl ⊢
          simp at hl
          subst hl
          exact ⟨z, rfl⟩

theorem start_head {w : Str} : (nysiisStart w).head? ≠ some 'K' := by
  unfold nysiisStart
  split
  · simp
  · split
    · simp
    · split
      · simp
      · rename_i h
        split
        · simp
        · split
          · simp
          · intro hk
            apply h
            cases w with
            | nil => cases hk
            | cons c w => simp at hk; subst hk; exact ⟨w, rfl⟩

theorem end_head {w : Str} (h : w.head? ≠ some 'K') : (nysiisEnd w).head? ≠ some 'K' := by
  have key : ∀ a : Char, a ≠ 'K' → (w.dropLast.dropLast ++ [a]).head? ≠ some 'K' := by
    intro a ha
    match w with
    | [] => simpa using ha
    | [x] => simpa using ha
    | [x, y] => simpa using ha
    | x :: y :: z :: w => simpa using h
  unfold nysiisEnd
  split
  · exact key 'Y' (by decide)
  · split
    · exact key 'D' (by decide)
    · exact h

theorem nysiis_shape (U : Unicode) {s : Str} (h : AsciiStr s) : NysiisCode (nysiis U s) := by
  have hl : Caps (letters U s) := by
    rw [letters_ascii U h]; exact asciiLetters_upper
  have hw := caps_end (caps_start hl)
  have hh := end_head (start_head (w := letters U s))
  unfold nysiis
  split
  · exact Or.inl rfl
  · rename_i c rest heq
    rw [heq] at hw hh
    obtain ⟨t, h1, h2⟩ := letters_run rest.length (hw c (by simp)) (show Caps rest from hw.drop 1)
    rw [h1]
    exact finish_code (Or.inr ⟨c, t, rfl, upper_caps (hw c (by simp)), by simpa using hh, h2⟩)

/-! ## A word for each code -/

theorem run_append {c : Char} {t u : Str} (h : Run true c t) (hl : (c :: t).getLast? ≠ some 'A') (hu : Run false 'A' u) :
    Run false c (t ++ 'A' :: u) := by
  induction t generalizing c with
  | nil =>
    refine ⟨by decide, by simpa using hl, (by simp), (by simp), hu⟩
  | cons d t ih =>
    obtain ⟨h1, h2, h3, h4, h5⟩ := h
    refine ⟨h1, h2, h3, fun hd => ⟨(h4 hd).1, Or.inr ?_⟩, ih h5 (by rwa [List.getLast?_cons_cons] at hl)⟩
    rcases (h4 hd).2 with h | h
    · rw [h.2]; rfl
    · cases t with
      | nil => cases h
      | cons x t => exact h

theorem letter_same {p c : Char} {r : Str} (hp : isAsciiUpper p = true) (h : Run false p (c :: r)) : nysiisLetter p c r = (c, r) := by
  obtain ⟨h1, h2, h3, h4, h5⟩ := h
  have hf : ∀ c ∈ inside, c ≠ 'E' ∧ c ≠ 'Q' ∧ c ≠ 'Z' ∧ c ≠ 'M' ∧ c ≠ 'K' ∧ (nysiisVowel c = true → c = 'A') := by decide +kernel
  obtain ⟨f1, f2, f3, f4, f5, f6⟩ := hf c h1
  by_cases hA : c = 'A'
  · subst hA
    unfold nysiisLetter
    rw [if_neg (fun h => f1 h.1), if_pos (by decide)]
  have hv : ¬ nysiisVowel c = true := fun h => hA (f6 h)
  unfold nysiisLetter
  rw [if_neg (fun h => f1 h.1), if_neg hv, if_neg f2, if_neg f3, if_neg f4, if_neg (fun h => f5 h.1), if_neg f5, if_neg, if_neg]
  · by_cases hH : c = 'H'
    · rw [if_pos hH, if_pos, hH]
      obtain ⟨h6, h7⟩ := h4 hH
      refine ⟨(vowel_caps hp).mpr h6, ?_⟩
      rcases h7 with ⟨h, _⟩ | h
      · cases h
      · cases r with
        | nil => cases h
        | cons x r => simp at h; subst h; rfl
    · rw [if_neg hH, if_neg]
      rintro ⟨hw, hpv⟩
      exact h3 hw ((vowel_caps hp).mp hpv)
  · rintro ⟨rfl, ⟨t, rfl⟩⟩
    have := (h5.2.2.2.1 rfl).1
    revert this; decide
  · rintro ⟨rfl, ⟨t, rfl⟩⟩
    have := (h5.2.2.2.2.2.2.2.1 rfl).1
    revert this; decide

theorem inside_upper {c : Char} (h : c ∈ inside) : isAsciiUpper c = true := by
  have : ∀ c ∈ inside, isAsciiUpper c = true := by decide
  exact this c h

theorem letters_same {p : Char} {r : Str} (hp : isAsciiUpper p = true) (h : Run false p r) : nysiisLetters r.length p r = r := by
  induction r generalizing p with
  | nil => rfl
  | cons c r ih =>
    simp only [List.length_cons, nysiisLetters]
    rw [letter_same hp h]
    dsimp only
    rw [ih (inside_upper h.1) h.2.2.2.2]

/-- The key of a word that the rules for the first and the last letters do not change. -/
theorem key_of {c : Char} {t : Str} (hc : isAsciiUpper c = true) (h : Run false c t) :
    collapse (c :: nysiisLetters t.length c t) = c :: t := by
  rw [letters_same hc h, collapse_noDup (run_noDup h)]

theorem end_same {w : Str} (h : w.getLast? = some 'A' ∨ w.getLast? = some 'Y') : nysiisEnd w = w := by
  have key : ∀ (x : Str) (a : Char), x.getLast? = some a → a ≠ 'A' → a ≠ 'Y' → ¬ x <:+ w := by
    rintro x a hx h1 h2 ⟨z, rfl⟩
    rw [List.getLast?_append, hx] at h
    rcases h with h | h
    · exact h1 (Option.some.inj h)
    · exact h2 (Option.some.inj h)
  unfold nysiisEnd
  rw [if_neg, if_neg]
  · rintro (h | h | h | h | h) <;> exact key _ _ rfl (by decide) (by decide) h
  · rintro (h | h) <;> exact key _ _ rfl (by decide) (by decide) h

/-- A word with a given key. -/
def word (w : Str) : Str :=
  if c!"MAC" <+: w then c!"MEC" ++ w.drop 3 else if c!"PF" <+: w then 'P' :: w else w

theorem word_key (U : Unicode) {c : Char} {t : Str} (hc : c ∈ capitals) (hk : c ≠ 'K') (h : Run false c t)
    (hend : (c :: t).getLast? = some 'A' ∨ (c :: t).getLast? = some 'Y') (hlen : 2 ≤ t.length) :
    AsciiStr (word (c :: t)) ∧ nysiis U (word (c :: t)) = nysiisFinish (c :: t) := by
  have hu : ∀ x ∈ c :: t, isAsciiUpper x = true := by
    intro x hx
    rcases List.mem_cons.mp hx with rfl | hx
    · exact caps_upper hc
    · exact inside_upper (run_inside h x hx)
  have main : ∀ (d : Char) (r : Str), word (c :: t) = d :: r → (∀ x ∈ d :: r, isAsciiUpper x = true) → nysiisStart (d :: r) = d :: r →
      ((d :: r).getLast? = some 'A' ∨ (d :: r).getLast? = some 'Y') → collapse (d :: nysiisLetters r.length d r) = c :: t →
      AsciiStr (word (c :: t)) ∧ nysiis U (word (c :: t)) = nysiisFinish (c :: t) := by
    intro d r e hu' hs he hcol
    rw [e]
    refine ⟨upper_ascii hu', ?_⟩
    unfold nysiis
    rw [letters_ascii U (upper_ascii hu'), asciiLetters_caps hu', hs, end_same he]
    dsimp only
    rw [hcol]
  have startN : ∀ (d : Char) (r : Str), d ≠ 'K' → ¬ c!"MAC" <+: d :: r → ¬ c!"PH" <+: d :: r → ¬ c!"PF" <+: d :: r → ¬ c!"SCH" <+: d :: r →
      nysiisStart (d :: r) = d :: r := by
    intro d r h1 h2 h3 h4 h5
    unfold nysiisStart
    rw [if_neg h2, if_neg, if_neg, if_neg, if_neg h5]
    · rintro (h | h)
      · exact h3 h
      · exact h4 h
    · rintro ⟨z, hz⟩; simp at hz; exact h1 hz.1.symm
    · rintro ⟨z, hz⟩; simp at hz; exact h1 hz.1.symm
  have noPH : ¬ c!"PH" <+: c :: t := by
    rintro ⟨z, hz⟩
    simp only [List.cons_append, List.nil_append, List.cons.injEq] at hz
    obtain ⟨rfl, rfl⟩ := hz
    have := (h.2.2.2.1 rfl).1
    revert this; decide
  have noSCH : ¬ c!"SCH" <+: c :: t := by
    rintro ⟨z, hz⟩
    simp only [List.cons_append, List.nil_append, List.cons.injEq] at hz
    obtain ⟨rfl, rfl⟩ := hz
    have := (h.2.2.2.2.2.2.2.1 rfl).1
    revert this; decide
  by_cases hm : c!"MAC" <+: c :: t
  · obtain ⟨z, hz⟩ := hm
    simp only [List.cons_append, List.nil_append, List.cons.injEq] at hz
    obtain ⟨rfl, rfl⟩ := hz
    have hz : z ≠ [] := by
      rintro rfl
      rcases hend with h | h <;> revert h <;> decide
    refine main 'M' ('E' :: 'C' :: z) ?_ ?_ ?_ ?_ ?_
    · unfold word; rw [if_pos ⟨z, rfl⟩]; rfl
    · intro x hx
      simp only [List.mem_cons] at hx
      rcases hx with rfl | rfl | rfl | hx
      · decide
      · decide
      · decide
      · exact hu x (by simp [hx])
    · refine startN 'M' _ (by decide) ?_ ?_ ?_ ?_ <;> · rintro ⟨y, hy⟩; simp at hy
    · rcases List.eq_nil_or_concat z with rfl | ⟨z', a, rfl⟩
      · exact absurd rfl hz
      · rw [List.concat_eq_append] at hend ⊢
        rw [show 'M' :: 'A' :: 'C' :: (z' ++ [a]) = ('M' :: 'A' :: 'C' :: z') ++ [a] by simp] at hend
        rw [show 'M' :: 'E' :: 'C' :: (z' ++ [a]) = ('M' :: 'E' :: 'C' :: z') ++ [a] by simp]
        rw [List.getLast?_concat] at hend ⊢
        exact hend
    · have hr := h.2.2.2.2
      have e : nysiisLetters ('E' :: 'C' :: z).length 'M' ('E' :: 'C' :: z) = 'A' :: 'C' :: z := by
        simp only [List.length_cons, nysiisLetters]
        have e1 : nysiisLetter 'M' 'E' ('C' :: z) = ('A', 'C' :: z) := by
          unfold nysiisLetter
          rw [if_neg (by rintro ⟨_, ⟨y, hy⟩⟩; simp at hy), if_pos (by decide)]
        rw [e1]
        dsimp only
        have := letters_same (by decide) hr
        rw [List.length_cons] at this
        rw [this]
      rw [e, collapse_noDup (run_noDup h)]
  by_cases hp : c!"PF" <+: c :: t
  · obtain ⟨z, hz⟩ := hp
    simp only [List.cons_append, List.nil_append, List.cons.injEq] at hz
    obtain ⟨rfl, rfl⟩ := hz
    refine main 'P' ('P' :: 'F' :: z) ?_ ?_ ?_ ?_ ?_
    · unfold word; rw [if_neg hm, if_pos ⟨z, rfl⟩]
    · intro x hx
      rcases List.mem_cons.mp hx with rfl | hx
      · decide
      · exact hu x hx
    · refine startN 'P' _ (by decide) ?_ ?_ ?_ ?_ <;> · rintro ⟨y, hy⟩; simp at hy
    · rwa [List.getLast?_cons_cons]
    · have e : nysiisLetters ('P' :: 'F' :: z).length 'P' ('P' :: 'F' :: z) = 'P' :: 'F' :: z := by
        rw [List.length_cons, nysiisLetters]
        have e1 : nysiisLetter 'P' 'P' ('F' :: z) = ('P', 'F' :: z) := by
          unfold nysiisLetter
          simp [nysiisVowel]
        rw [e1]
        dsimp only
        rw [letters_same (by decide) h]
      rw [e, collapse_cons_cons, if_pos rfl, collapse_noDup (run_noDup h)]
  · refine main c t ?_ hu (startN c t hk hm noPH hp noSCH) hend (key_of (caps_upper hc) h)
    unfold word; rw [if_neg hm, if_neg hp]

theorem byteLen_ge (w : Str) : w.length ≤ byteLen w := by
  induction w with
  | nil => simp [byteLen]
  | cons a w ih =>
    have := Char.utf8Size_pos a
    simp only [byteLen, List.map_cons, List.sum_cons, List.length_cons] at *
    omega

theorem finish_A {w : Str} (hw : w ≠ []) : nysiisFinish (w ++ c!"A") = w := by
  have hl : ¬ byteLen (w ++ c!"A") ≤ 1 := by
    have := byteLen_ge (w ++ c!"A")
    have := List.length_pos_iff.mpr hw
    simp at *; omega
  have last : ∀ (x : Str) (a : Char), x.getLast? = some a → a ≠ 'A' → ¬ x <:+ w ++ c!"A" := by
    rintro x a hx ha ⟨z, hz⟩
    have := congrArg List.getLast? hz
    rw [List.getLast?_append, hx] at this
    simp at this
    exact ha this
  unfold nysiisFinish
  rw [if_neg hl]
  dsimp only
  have h1 : ¬ c!"S" <:+ w ++ c!"A" := last _ 'S' rfl (by decide)
  have h2 : ¬ (c!"AY" <:+ w ++ c!"A" ∧ w ++ c!"A" ≠ c!"AY") := fun h => last _ 'Y' rfl (by decide) h.1
  have h3 : c!"A" <:+ w ++ c!"A" := ⟨w, rfl⟩
  simp only [if_neg h1, if_neg h2, if_pos h3]
  simp

theorem finish_AY {w : Str} (hw : w ≠ []) : nysiisFinish (w ++ c!"AY") = w ++ c!"Y" := by
  have hl : ¬ byteLen (w ++ c!"AY") ≤ 1 := by
    have := byteLen_ge (w ++ c!"AY")
    simp at *; omega
  have last : ∀ (x v : Str) (a b : Char), x.getLast? = some a → v.getLast? = some b → a ≠ b → ¬ x <:+ v := by
    rintro x v a b hx hv ha ⟨z, rfl⟩
    rw [List.getLast?_append, hx] at hv
    simp at hv
    exact ha hv
  unfold nysiisFinish
  rw [if_neg hl]
  dsimp only
  have h1 : ¬ c!"S" <:+ w ++ c!"AY" := last _ _ 'S' 'Y' rfl (by simp) (by decide)
  have h2 : c!"AY" <:+ w ++ c!"AY" ∧ w ++ c!"AY" ≠ c!"AY" := by
    refine ⟨⟨w, rfl⟩, fun h => hw ?_⟩
    have := congrArg List.length h
    simp at this
    exact this
  have h3 : (w ++ c!"AY").dropLast.dropLast = w := by simp
  have h4 : ¬ c!"A" <:+ w ++ c!"Y" := last _ _ 'A' 'Y' rfl (by simp) (by decide)
  simp only [if_neg h1, if_pos h2, h3, if_neg h4]

theorem nysiis_word (U : Unicode) {code : Str} (h : NysiisCode code) : ∃ s, AsciiStr s ∧ nysiis U s = code := by
  have ex : ∀ s : Str, AsciiStr s → nysiis U s = nysiis .latin1 s := by
    intro s hs
    unfold nysiis
    rw [letters_ascii U hs, letters_ascii .latin1 hs]
  rcases h with rfl | rfl | ⟨c, t, hk, hl, hcode⟩
  · refine ⟨[], by simp [AsciiStr], ?_⟩
    rw [ex _ (by simp [AsciiStr])]; decide +kernel
  · have ha : AsciiStr c!"A" := by decide
    refine ⟨c!"A", ha, ?_⟩
    rw [ex _ ha]; decide +kernel
  · obtain ⟨h1, h2, h3⟩ := (key_iff c t).mp hk
    rcases hcode with rfl | rfl
    · have hr := run_append h3 hl (u := []) trivial
      by_cases ht : t = []
      · subst ht
        -- one letter
        have hcA : c ≠ 'A' := by simpa using hl
        have ha : ∀ c ∈ capitals, c ≠ 'K' → c ≠ 'A' → AsciiStr [c] ∧ nysiis .latin1 [c] = [c] := by decide +kernel
        obtain ⟨ha, he⟩ := ha c h1 h2 hcA
        exact ⟨[c], ha, by rw [ex _ ha, he]⟩
      · have := word_key U h1 h2 hr (Or.inl (by rw [← List.cons_append, List.getLast?_append]; rfl)) (by have := List.length_pos_iff.mpr ht; simp; omega)
        refine ⟨_, this.1, ?_⟩
        rw [this.2]
        exact finish_A (w := c :: t) (by simp)
    · have hy : Run false 'A' c!"Y" := ⟨by decide, by decide, by decide, by decide, trivial⟩
      have hr := run_append h3 hl hy
      have := word_key U h1 h2 hr (Or.inr (by rw [← List.cons_append, List.getLast?_append]; rfl)) (by simp)
      refine ⟨_, this.1, ?_⟩
      rw [this.2]
      exact finish_AY (w := c :: t) (by simp)

end NysiisCodes

open NysiisCodes

/-- C93. The NYSIIS codes of ASCII texts: the full codes, and the strict ones, which are cut to six letters. -/
theorem nysiis_codes (U : Unicode) (code : Str) :
    ((∃ s, AsciiStr s ∧ (Nysiis.new false).encode U s = .ok code) ↔ NysiisCode code) ∧
    ((∃ s, AsciiStr s ∧ (Nysiis.new true).encode U s = .ok code) ↔ ∃ full, NysiisCode full ∧ code = full.take 6) := by
  have spec : ∀ s, AsciiStr s → (Nysiis.new false).encode U s = .ok (nysiis U s) ∧
      (Nysiis.new true).encode U s = .ok ((nysiis U s).take 6) := by
    intro s hs
    obtain ⟨full, h1, h2⟩ := nysiis_strict_prefix U s hs
    have h3 := (nysiis_eq_spec U s).1
    have := Except.ok.inj (h1.symm.trans h3)
    subst this
    exact ⟨h3, h2⟩
  refine ⟨⟨?_, ?_⟩, ⟨?_, ?_⟩⟩
  · rintro ⟨s, hs, h⟩
    have := Except.ok.inj (h.symm.trans (spec s hs).1)
    rw [this]
    exact nysiis_shape U hs
  · intro h
    obtain ⟨s, hs, rfl⟩ := nysiis_word U h
    exact ⟨s, hs, (spec s hs).1⟩
  · rintro ⟨s, hs, h⟩
    have := Except.ok.inj (h.symm.trans (spec s hs).2)
    exact ⟨_, nysiis_shape U hs, this⟩
  · rintro ⟨full, h, rfl⟩
    obtain ⟨s, hs, rfl⟩ := nysiis_word U h
    exact ⟨s, hs, (spec s hs).2⟩

/-- A code that ends in HY, and one that ends in YY. -/
theorem nysiis_codes_example : (Nysiis.new false).encode .latin1 c!"Ahay" = .ok c!"AHY" ∧
    (Nysiis.new false).encode .latin1 c!"Biyay" = .ok c!"BAYY" := by decide +kernel

end Verif.Props
