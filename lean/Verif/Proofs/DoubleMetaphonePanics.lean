import Verif.Proofs.DoubleMetaphoneUnicode
/-!
# Double Metaphone: accents that make it panic
-/

set_option linter.unusedSimpArgs false
set_option linter.unusedSectionVars false
set_option linter.unusedVariables false

namespace Verif
namespace DMProofs
open DoubleMetaphone Spec.DM

/-- Each letter is handled, or covered by a letter before, unless the limit is reached. -/
theorem loop_visits (v : Str) (hv : 0 < byteLen v) (sg : Bool) (rest : Str) :
    ∀ (i skip : Nat) (r r' : DMResult), Good r → loop v sg rest i skip r = .ok r' → r'.isComplete = false →
    ∀ x c y, rest = x ++ c :: y →
      x.length < skip ∨
      (∃ x1 d x2 res, x = x1 ++ d :: x2 ∧ handle v sg ((i + byteLen x1 : Nat) : Int) d = .ok res ∧ x2.length < res.2) ∨
      ∃ res, handle v sg ((i + byteLen x : Nat) : Int) c = .ok res := by
  induction rest with
  | nil => intro i skip r r' _ _ _ x c y h; simp at h
  | cons d rest ih =>
    intro i skip r r' hr h hcomp x c y hx
    cases skip with
    | succ skip =>
      rw [loop] at h
      cases x with
      | nil => left; simp
      | cons e x =>
        rw [List.cons_append] at hx
        injection hx with h1 h2
        subst h1
        have e1 : ∀ z, i + byteLen (d :: z) = i + d.utf8Size + byteLen z := by intro z; simp only [byteLen]; omega
        rcases ih _ _ r r' hr h hcomp x c y h2 with h3 | ⟨x1, f, x2, res, h3, h4, h5⟩ | ⟨res, h3⟩
        · left; simp only [List.length_cons]; omega
        · right; left
          exact ⟨d :: x1, f, x2, res, by rw [h3]; rfl, by rw [e1]; exact h4, h5⟩
        · right; right
          exact ⟨res, by rw [e1]; exact h3⟩
    | zero =>
      rw [loop] at h
      by_cases hc : r.isComplete = true
      · rw [if_pos hc] at h
        injection h with h
        subst h
        rw [hc] at hcomp; cases hcomp
      · rw [if_neg hc] at h
        cases hh : handle v sg i d with
        | error e => rw [hh] at h; cases h
        | ok res =>
          rw [hh] at h
          obtain ⟨calls, k⟩ := res
          obtain ⟨f1, f2, f3⟩ := runAll_eq hr (handle_ok v i sg d hv _ hh)
          simp only [bind, Except.bind] at h
          rw [f1] at h
          simp only at h
          cases x with
          | nil =>
            right; right
            rw [List.nil_append] at hx
            injection hx with h1 h2
            subst h1
            exact ⟨_, hh⟩
          | cons e x =>
            rw [List.cons_append] at hx
            injection hx with h1 h2
            subst h1
            have e1 : ∀ z, i + byteLen (d :: z) = i + d.utf8Size + byteLen z := by intro z; simp only [byteLen]; omega
            rcases ih _ _ _ r' (good_extend hr f2 f3) h hcomp x c y h2 with h3 | ⟨x1, f, x2, res, h3, h4, h5⟩ | ⟨res, h3⟩
            · right; left
              exact ⟨[], d, x, _, rfl, hh, h3⟩
            · right; left
              exact ⟨d :: x1, f, x2, res, by rw [h3]; rfl, by rw [e1]; exact h4, h5⟩
            · right; right
              exact ⟨res, by rw [e1]; exact h3⟩

/-! ## How far a sound reaches -/

/-- Of two covered letters one has a special role, and likewise the middle one of three. -/
def Reach (a : Str) (s : Sound) : Prop :=
  (among c!"CDGPSTWX " a[0]? = false → among c!"CDGPSTW" a[1]? = true → a[2]? ≠ some 'Z' → s.covered ≤ 1) ∧
    (among c!"CDGPSTWX " a[1]? = false → s.covered ≤ 2) ∧ s.covered ≤ 3

/-- Nothing is covered. -/
def Alone (a : Str) (s : Sound) : Prop := among c!"CDGPSTW" a[0]? = true → s.covered = 0

section
variable (w b a : Str)
include w b a

theorem reach_D : Reach a (soundD a) := by
  unfold soundD Reach; (try unfold vowel); dm_atoms []; dm_clear w b a
theorem reach_H : Reach a (soundH b a) := by
  unfold soundH Reach; (try unfold vowel); dm_atoms [List.head?_eq_getElem?]; dm_clear w b a
theorem reach_P : Reach a (soundP a) := by
  unfold soundP Reach; (try unfold vowel); dm_atoms []; dm_clear w b a
theorem reach_T : Reach a (soundT w a) := by
  unfold soundT Reach; (try unfold vowel); dm_atoms []; dm_clear w b a
theorem covered_GH : (soundGH b a).covered ≤ 1 := by
  unfold soundGH vowel; dm_atoms []; dm_clear w b a
theorem covered_CH : (soundCH w b a).covered ≤ 1 := by
  unfold soundCH
  repeat' split
  all_goals simp [same]
theorem covered_CC : (soundCC b a).covered ≤ 2 := by
  unfold soundCC
  repeat' split
  all_goals simp [same]
theorem covered_SC : (soundSC b a).covered ≤ 2 := by
  unfold soundSC
  repeat' split
  all_goals simp [same]
theorem reach_G : Reach a (soundG w b a) := by
  have hgh := covered_GH w b a
  unfold soundG Reach; (try unfold vowel)
  generalize soundGH b a = m at *
  generalize slavoGermanic w = sg at *
  dm_atoms []; dm_clear w b a
theorem reach_C : Reach a (soundC w b a) := by
  have h1 := covered_CH w b a
  have h2 := covered_CC w b a
  unfold soundC Reach; (try unfold vowel)
  generalize soundCH w b a = m1 at *
  generalize soundCC b a = m2 at *
  dm_atoms []; dm_clear w b a
theorem reach_J : Reach a (soundJ w b a) := by
  unfold soundJ Reach; (try unfold vowel)
  generalize slavoGermanic w = sg at *
  dm_atoms []; dm_clear w b a
theorem reach_L : Reach a (soundL w b a) := by
  unfold soundL Reach; (try unfold vowel); dm_atoms []; dm_clear w b a
theorem reach_M : Reach a (soundM b a) := by
  unfold soundM Reach; (try unfold vowel); dm_atoms [only_after a]; dm_clear w b a
theorem reach_R : Reach a (soundR w b a) := by
  unfold soundR Reach; (try unfold vowel)
  generalize slavoGermanic w = sg at *
  dm_atoms []; dm_clear w b a
theorem reach_S : Reach a (soundS w b a) := by
  have h2 := covered_SC w b a
  unfold soundS Reach; (try unfold vowel)
  generalize slavoGermanic w = sg at *
  generalize soundSC b a = m2 at *
  dm_atoms []; dm_clear w b a
theorem reach_W : Reach a (soundW w b a) := by
  unfold soundW Reach; (try unfold vowel); dm_atoms [List.head?_eq_getElem?]; dm_clear w b a
theorem reach_X : Reach a (soundX b a) := by
  unfold soundX Reach; (try unfold vowel); dm_atoms []; dm_clear w b a
theorem reach_Z : Reach a (soundZ w b a) := by
  unfold soundZ Reach; (try unfold vowel)
  generalize slavoGermanic w = sg at *
  dm_atoms []; dm_clear w b a
theorem reach_simple (c : Char) (code : Str) : Reach a (soundSimple a c code) := by
  unfold soundSimple Reach
  split <;> simp [same]
theorem reach_vowel : Reach a (if b.isEmpty then same ['A'] 0 else silent 0) := by
  split <;> simp [Reach, same, silent]

end

theorem reach_sound (w b a : Str) (c : Char) : Reach a (sound w b a c) := by
  unfold sound
  split
  all_goals first
    | exact reach_vowel w b a
    | exact reach_simple w b a _ _
    | exact reach_C w b a
    | exact reach_D w b a
    | exact reach_G w b a
    | exact reach_H w b a
    | exact reach_J w b a
    | exact reach_L w b a
    | exact reach_M w b a
    | exact reach_P w b a
    | exact reach_R w b a
    | exact reach_S w b a
    | exact reach_T w b a
    | exact reach_W w b a
    | exact reach_X w b a
    | exact reach_Z w b a
    | simp [Reach, same, silent]

section
variable (w b a : Str)
include w b a

theorem alone_H : Alone a (soundH b a) := by
  unfold soundH Alone; (try unfold vowel); dm_atoms [List.head?_eq_getElem?]; dm_clear w b a
theorem alone_J : Alone a (soundJ w b a) := by
  unfold soundJ Alone; (try unfold vowel)
  generalize slavoGermanic w = sg at *
  dm_atoms []; dm_clear w b a
theorem alone_L : Alone a (soundL w b a) := by
  unfold soundL Alone; dm_atoms []; dm_clear w b a
theorem alone_M : Alone a (soundM b a) := by
  unfold soundM Alone; dm_atoms [only_after a]; dm_clear w b a
theorem alone_R : Alone a (soundR w b a) := by
  unfold soundR Alone
  generalize slavoGermanic w = sg at *
  dm_atoms []; dm_clear w b a
theorem alone_Z : Alone a (soundZ w b a) := by
  unfold soundZ Alone
  generalize slavoGermanic w = sg at *
  dm_atoms []; dm_clear w b a
theorem alone_simple (c : Char) (code : Str) (h : c!"CDGPSTW".contains c = false) : Alone a (soundSimple a c code) := by
  unfold soundSimple Alone
  intro h1
  have : starts a [[c]] = false := by
    cases a with
    | nil => rfl
    | cons d a =>
      have : (c == d) = false := by
        rw [beq_eq_false_iff_ne]
        rintro rfl
        have h1 : c!"CDGPSTW".contains c = true := h1
        rw [h1] at h; cases h
      simp [starts, List.isPrefixOf, this]
  rw [this]; rfl
theorem alone_vowel : Alone a (if b.isEmpty then same ['A'] 0 else silent 0) := by
  split <;> simp [Alone, same, silent]

theorem alone_sound (c : Char) (h : c!"CDGPSTWX ".contains c = false) : Alone a (sound w b a c) := by
  unfold sound
  split
  all_goals first
    | exact absurd h (by decide)
    | exact alone_vowel w b a
    | exact alone_simple w b a _ _ (by decide)
    | exact alone_H w b a
    | exact alone_J w b a
    | exact alone_L w b a
    | exact alone_M w b a
    | exact alone_R w b a
    | exact alone_Z w b a
    | simp [Alone, same, silent]

end

/-! ## Conditions that are not true -/

theorem orR_nt {x y : Res Bool} (h1 : x ≠ .ok true) (h2 : y ≠ .ok true) : orR x y ≠ .ok true := by
  unfold orR
  cases x with
  | error e => intro h; cases h
  | ok t =>
    cases t with
    | true => exact absurd rfl h1
    | false => exact h2

theorem andR_nt_left {x y : Res Bool} (h1 : x ≠ .ok true) : andR x y ≠ .ok true := by
  unfold andR
  cases x with
  | error e => intro h; cases h
  | ok t =>
    cases t with
    | true => exact absurd rfl h1
    | false => intro h; cases h

theorem andR_nt_right {x y : Res Bool} (h2 : y ≠ .ok true) : andR x y ≠ .ok true := by
  unfold andR
  cases x with
  | error e => intro h; cases h
  | ok t =>
    cases t with
    | true => exact h2
    | false => intro h; cases h

/-- A condition that is not true is passed. -/
theorem pass {α : Type} {c : Res Bool} {x y : Res α} {r : α} (hc : c ≠ .ok true)
    (h : (do if ← c then x else y) = .ok r) : y = .ok r := by
  cases c with
  | error e => cases h
  | ok t =>
    cases t with
    | true => exact absurd rfl hc
    | false => exact h

theorem contains_true {v : Str} {i : Int} {n : Nat} {ws : List Str} (h : contains v i n ws = .ok true) :
    ∃ u x t, x ∈ ws ∧ v = u ++ x ++ t ∧ (byteLen u : Int) = i := by
  unfold contains at h
  split at h
  · cases h
  · next hi =>
    split at h
    · unfold slice at h
      rw [if_pos (by omega)] at h
      cases h1 : splitAtByte i.toNat v with
      | none => rw [h1] at h; cases h
      | some p =>
        obtain ⟨u, q⟩ := p
        rw [h1] at h
        dsimp only at h
        unfold sliceTo at h
        cases h2 : splitAtByte (i.toNat + n - i.toNat) q with
        | none => rw [h2] at h; cases h
        | some p =>
          obtain ⟨x, t⟩ := p
          rw [h2] at h
          obtain ⟨rfl, e1⟩ := splitAtByte_eq_some_iff.mp h1
          obtain ⟨rfl, e2⟩ := splitAtByte_eq_some_iff.mp h2
          simp only [bind, Except.bind, pure, Except.pure, Except.ok.injEq] at h
          refine ⟨u, x, t, by simpa using h, by simp, by omega⟩
    · cases h

/-- A letter of a word is ASCII. -/
def asciiAt (n : Nat) (w : Str) : Bool :=
  match w[n]? with
  | some d => isAscii d
  | none => false

theorem split_at {b r u q : Str} (h : b ++ r = u ++ q) (hu : byteLen u = byteLen b) : b = u ∧ r = q := by
  have h1 := splitAtByte_append b r
  have h2 := splitAtByte_append u q
  rw [← h, hu, h1] at h2
  injection h2 with h2
  injection h2 with h3 h4
  exact ⟨h3, h4⟩

section
variable {b : Str} {c x : Char} {t : Str} (hc : isAscii c = true) (hx : isAscii x = false)
include hc hx

theorem here_nt {n : Nat} {ws : List Str} (hws : ws.all (asciiAt 1) = true) :
    contains (b ++ c :: x :: t) (byteLen b) n ws ≠ .ok true := by
  intro h
  obtain ⟨u, w, t', hw, e, hu⟩ := contains_true h
  rw [List.append_assoc] at e
  obtain ⟨-, e⟩ := split_at e (by omega)
  have := List.all_eq_true.mp hws w hw
  unfold asciiAt at this
  split at this
  · next d hd =>
    have e1 : (w ++ t')[1]? = some d := by
      rw [List.getElem?_append_left (by rcases List.getElem?_eq_some_iff.mp hd with ⟨h, -⟩; exact h)]
      exact hd
    rw [← e] at e1
    simp only [List.getElem?_cons_succ, List.getElem?_cons_zero, Option.some.injEq] at e1
    rw [e1, this] at hx; cases hx
  · cases this

theorem next_nt {n : Nat} {ws : List Str} (hws : ws.all (asciiAt 0) = true) :
    contains (b ++ c :: x :: t) ((byteLen b : Int) + 1) n ws ≠ .ok true := by
  intro h
  obtain ⟨u, w, t', hw, e, hu⟩ := contains_true h
  rw [List.append_assoc, show b ++ c :: x :: t = (b ++ [c]) ++ x :: t by simp] at e
  obtain ⟨-, e⟩ := split_at e (by rw [byteLen_append]; simp only [byteLen, utf8Size_ascii hc]; omega)
  have := List.all_eq_true.mp hws w hw
  unfold asciiAt at this
  split at this
  · next d hd =>
    have e1 : (w ++ t')[0]? = some d := by
      rw [List.getElem?_append_left (by rcases List.getElem?_eq_some_iff.mp hd with ⟨h, -⟩; exact h)]
      exact hd
    rw [← e] at e1
    simp only [List.getElem?_cons_zero, Option.some.injEq] at e1
    rw [e1, this] at hx; cases hx
  · cases this

theorem prev_nt {n : Nat} {ws : List Str} (hws : (ws.all fun w => asciiAt 0 w && asciiAt 2 w) = true) :
    contains (b ++ c :: x :: t) ((byteLen b : Int) - 1) n ws ≠ .ok true := by
  intro h
  obtain ⟨u, w, t', hw, e, hu⟩ := contains_true h
  have := List.all_eq_true.mp hws w hw
  rw [Bool.and_eq_true] at this
  obtain ⟨f1, f2⟩ := this
  cases w with
  | nil => cases f1
  | cons d w =>
    have f1 : isAscii d = true := f1
    rw [List.append_assoc, show u ++ (d :: w ++ t') = (u ++ [d]) ++ (w ++ t') by simp] at e
    obtain ⟨-, e⟩ := split_at e (by rw [byteLen_append]; simp only [byteLen, utf8Size_ascii f1]; omega)
    unfold asciiAt at f2
    split at f2
    · next g hd =>
      rw [List.getElem?_cons_succ] at hd
      have e1 : (w ++ t')[1]? = some g := by
        rw [List.getElem?_append_left (by rcases List.getElem?_eq_some_iff.mp hd with ⟨h, -⟩; exact h)]
        exact hd
      rw [← e] at e1
      simp only [List.getElem?_cons_succ, List.getElem?_cons_zero, Option.some.injEq] at e1
      rw [e1, f2] at hx; cases hx
    · cases f2

theorem wide : 1 < x.utf8Size := by
  have h1 := Char.utf8Size_pos x
  have : ¬ x.utf8Size = 1 := by
    intro h2
    have : AsciiStr [x] := byteLen_eq_length_iff.mp (by simp [byteLen, h2])
    rw [this x (by simp)] at hx
    cases hx
  omega

theorem len_here : byteLen (b ++ c :: x :: t) = byteLen b + 1 + x.utf8Size + byteLen t := by
  rw [byteLen_append]
  simp only [byteLen, utf8Size_ascii hc]
  omega

theorem next_is {d : Char} (hd : isAscii d = true) : isAt (b ++ c :: x :: t) ((byteLen b : Int) + 1) d = .ok false := by
  have hw := wide hc hx
  unfold isAt charAt
  rw [if_pos (by rw [len_here hc hx]; omega), show ((byteLen b : Int) + 1).toNat = byteLen b + 1 by omega]
  unfold sliceFrom
  rw [(splitAtByte_eq_some_iff (a := b ++ [c]) (b := x :: t)).mpr ⟨by simp, by rw [byteLen_append]; simp [byteLen, utf8Size_ascii hc]⟩]
  simp only [bind, Except.bind, pure, Except.pure, List.head?_cons, Except.ok.injEq]
  rw [beq_eq_false_iff_ne]
  intro h
  injection h with h
  rw [h, hd] at hx; cases hx

/-- The next letter cannot be compared with a letter of one byte. -/
theorem next_panics (ws : List Str) : contains (b ++ c :: x :: t) ((byteLen b : Int) + 1) 1 ws = .error .slice := by
  have hw := wide hc hx
  unfold contains
  rw [if_neg (by omega), show ((byteLen b : Int) + 1).toNat = byteLen b + 1 by omega, if_pos (by rw [len_here hc hx]; omega)]
  unfold slice
  rw [if_pos (by omega), (splitAtByte_eq_some_iff (a := b ++ [c]) (b := x :: t)).mpr ⟨by simp, by rw [byteLen_append]; simp [byteLen, utf8Size_ascii hc]⟩]
  dsimp only
  unfold sliceTo splitAtByte
  rw [if_neg (by omega), if_neg (by omega)]
  rfl

theorem here_panics (ws : List Str) : contains (b ++ c :: x :: t) (byteLen b) 2 ws = .error .slice := by
  have hw := wide hc hx
  unfold contains
  rw [if_neg (by omega), show ((byteLen b : Int)).toNat = byteLen b by omega, if_pos (by rw [len_here hc hx]; omega)]
  unfold slice
  rw [if_pos (by omega), splitAtByte_append]
  dsimp only
  unfold sliceTo
  rw [show byteLen b + 2 - byteLen b = 2 by omega]
  unfold splitAtByte
  rw [if_neg (by omega), if_pos (by rw [utf8Size_ascii hc]; omega), utf8Size_ascii hc]
  unfold splitAtByte
  rw [if_neg (by omega), if_neg (by omega)]
  rfl

end

section
variable (b : Str) {x : Char} (t : Str) (hx : isAscii x = false) (sg : Bool) (r : List DMAppend × Nat)
include hx

theorem stop_D : handleD (b ++ 'D' :: x :: t) (byteLen b) ≠ .ok r := by
  intro h
  unfold handleD at h
  rw [here_panics (by decide) hx] at h
  cases h
theorem stop_P : handleP (b ++ 'P' :: x :: t) (byteLen b) ≠ .ok r := by
  intro h
  unfold handleP at h
  rw [next_is (by decide) hx (by decide), next_panics (by decide) hx] at h
  cases h
theorem stop_W : handleW (b ++ 'W' :: x :: t) (byteLen b) ≠ .ok r := by
  intro h
  unfold handleW at h
  rw [here_panics (by decide) hx] at h
  cases h
theorem stop_T : handleT (b ++ 'T' :: x :: t) (byteLen b) ≠ .ok r := by
  intro h
  unfold handleT at h
  replace h := pass (orR_nt (here_nt (by decide) hx (by decide)) (here_nt (by decide) hx (by decide))) h
  rw [here_panics (by decide) hx] at h
  cases h
theorem stop_S : handleS (b ++ 'S' :: x :: t) (byteLen b) sg ≠ .ok r := by
  intro h
  unfold handleS at h
  replace h := pass (andR_nt_right (prev_nt (by decide) hx (by decide))) h
  replace h := pass (andR_nt_right (here_nt (by decide) hx (by decide))) h
  rw [here_panics (by decide) hx] at h
  cases h
theorem stop_C : handleC (b ++ 'C' :: x :: t) (byteLen b) ≠ .ok r := by
  intro h
  unfold handleC at h
  have h0 : conditionC0 (b ++ 'C' :: x :: t) (byteLen b) ≠ .ok true := by
    intro h
    unfold conditionC0 at h
    replace h := pass (here_nt (by decide) hx (by decide)) h
    split at h
    · cases h
    · next h1 =>
      generalize hA : (okR ((byteLen b : Int) < 2) |? vowelAt (b ++ 'C' :: x :: t) ((byteLen b : Int) - 2)) = A at h
      have hB := prev_nt (b := b) (t := t) (c := 'C') (n := 3) (ws := [c!"ACH"]) (by decide) hx (by decide)
      generalize contains (b ++ 'C' :: x :: t) ((byteLen b : Int) - 1) 3 [c!"ACH"] = B at h hB
      have h2 : okR ((byteLen b : Int) > 0) = .ok true := by unfold okR; rw [decide_eq_true]; omega
      rw [h2] at h
      rcases A with _ | _ | _
      · cases h
      · rcases B with _ | _ | _
        · cases h
        · cases h
        · exact hB rfl
      · cases h
  replace h := pass h0 h
  replace h := pass (andR_nt_right (here_nt (by decide) hx (by decide))) h
  rw [here_panics (by decide) hx] at h
  cases h
theorem stop_G : handleG (b ++ 'G' :: x :: t) (byteLen b) sg ≠ .ok r := by
  intro h
  unfold handleG at h
  rw [next_is (by decide) hx (by decide), next_is (by decide) hx (by decide)] at h
  have h0 : conditionG0 (b ++ 'G' :: x :: t) (byteLen b) ≠ .ok true := by
    unfold conditionG0
    have hY : isAt (b ++ 'G' :: x :: t) ((byteLen b : Int) + 1) 'Y' ≠ .ok true := by
      rw [next_is (by decide) hx (by decide)]; simp
    exact orR_nt (andR_nt_right (orR_nt hY (next_nt (by decide) hx (by decide))))
      (andR_nt_left (orR_nt (next_nt (by decide) hx (by decide)) hY))
  simp only [bind, Except.bind, Bool.false_eq_true, if_false] at h
  replace h := pass (andR_nt_left (next_nt (by decide) hx (by decide))) h
  replace h := pass h0 h
  unfold orR at h
  rw [next_panics (by decide) hx] at h
  cases h

end

/-! ## Letters after a letter beyond ASCII -/

theorem split_inside {b : Str} {y : Char} {q : Str} {n : Nat} (h1 : byteLen b < n) (h2 : n < byteLen b + y.utf8Size) :
    splitAtByte n (b ++ y :: q) = none := by
  cases h : splitAtByte n (b ++ y :: q) with
  | none => rfl
  | some p =>
    exfalso
    obtain ⟨u, r⟩ := p
    obtain ⟨e, hu⟩ := splitAtByte_eq_some_iff.mp h
    clear h
    subst hu
    induction b generalizing u with
    | nil =>
      cases u with
      | nil => simp [byteLen] at h1
      | cons d u =>
        simp only [List.nil_append, List.cons_append] at e
        injection e with e1 e2
        subst e1
        simp only [byteLen] at h1 h2
        omega
    | cons d b ih =>
      cases u with
      | nil => simp [byteLen] at h1
      | cons f u =>
        simp only [List.cons_append] at e
        injection e with e1 e2
        subst e1
        simp only [byteLen] at h1 h2
        exact ih u e2 (by omega) (by omega)

theorem wide' {x : Char} (hx : isAscii x = false) : 1 < x.utf8Size := wide (c := 'A') (by decide) hx

section
variable (b : Str) {y : Char} (hy : isAscii y = false) (sg : Bool) (r : List DMAppend × Nat)
include hy

theorem before_panics (q : Str) (n : Nat) (ws : List Str) (hn : n ≤ byteLen q + 1) :
    contains (b ++ y :: q) ((byteLen (b ++ [y]) : Int) - 1) n ws = .error .slice := by
  have hw := wide' hy
  have e1 : byteLen (b ++ [y]) = byteLen b + y.utf8Size := by rw [byteLen_append]; simp [byteLen]
  have e2 : byteLen (b ++ y :: q) = byteLen b + y.utf8Size + byteLen q := by rw [byteLen_append]; simp only [byteLen]; omega
  unfold contains
  rw [if_neg (by omega), if_pos (by omega)]
  unfold slice
  rw [if_pos (by omega), split_inside (by omega) (by omega)]
  rfl

theorem after_stop_H (t : Str) : handleH (b ++ y :: 'H' :: t) (byteLen (b ++ [y])) ≠ .ok r := by
  have hw := wide' hy
  have e1 : byteLen (b ++ [y]) = byteLen b + y.utf8Size := by rw [byteLen_append]; simp [byteLen]
  have e2 : byteLen (b ++ y :: 'H' :: t) = byteLen b + y.utf8Size + byteLen ('H' :: t) := by rw [byteLen_append]; simp only [byteLen]; omega
  intro h
  unfold handleH at h
  have h1 : okR ((byteLen (b ++ [y]) : Int) = 0) = .ok false := by unfold okR; rw [decide_eq_false]; omega
  have h2 : vowelAt (b ++ y :: 'H' :: t) ((byteLen (b ++ [y]) : Int) - 1) = .error .slice := by
    unfold vowelAt charAt
    rw [if_pos (by omega)]
    unfold sliceFrom
    rw [split_inside (by omega) (by omega)]
    rfl
  rw [h1, h2] at h
  cases h

theorem after_stop_S (d : Char) (t : Str) : handleS (b ++ y :: 'S' :: d :: t) (byteLen (b ++ [y])) sg ≠ .ok r := by
  have hw := wide' hy
  have e1 : byteLen (b ++ [y]) = byteLen b + y.utf8Size := by rw [byteLen_append]; simp [byteLen]
  intro h
  unfold handleS at h
  have h1 : okR ((byteLen (b ++ [y]) : Int) > 0) = .ok true := by unfold okR; rw [decide_eq_true]; omega
  rw [h1, before_panics b hy _ _ _ (by
    have := Char.utf8Size_pos d
    have : ('S' : Char).utf8Size = 1 := rfl
    simp only [byteLen]; omega)] at h
  cases h

theorem after_stop_M (d : Char) (t : Str) (hd : d ≠ 'M') :
    handle (b ++ y :: 'M' :: d :: t) sg (byteLen (b ++ [y])) 'M' ≠ .ok r := by
  have hw := wide' hy
  have hp := Char.utf8Size_pos d
  have eM : ('M' : Char).utf8Size = 1 := rfl
  have e1 : byteLen (b ++ [y]) = byteLen b + y.utf8Size := by rw [byteLen_append]; simp [byteLen]
  have e2 : byteLen (b ++ y :: 'M' :: d :: t) = byteLen b + y.utf8Size + (1 + d.utf8Size + byteLen t) := by
    rw [byteLen_append]; simp only [byteLen]; omega
  intro h
  unfold handle at h
  unfold conditionM0 at h
  have h0 : isAt (b ++ y :: 'M' :: d :: t) ((byteLen (b ++ [y]) : Int) + 1) 'M' = .ok false := by
    unfold isAt charAt
    rw [if_pos (by omega)]
    unfold sliceFrom
    rw [show (((byteLen (b ++ [y]) : Int) + 1).toNat) = byteLen (b ++ [y]) + 1 by omega,
      (splitAtByte_eq_some_iff (a := b ++ [y, 'M']) (b := d :: t)).mpr ⟨by simp, by
        rw [byteLen_append, byteLen_append]; simp only [byteLen, eM]; omega⟩]
    simp only [bind, Except.bind, pure, Except.pure, List.head?_cons, Except.ok.injEq]
    rw [beq_eq_false_iff_ne]
    intro h
    injection h with h
    exact hd h
  have h1 : okR ((byteLen (b ++ [y]) : Int) > 0) = .ok true := by unfold okR; rw [decide_eq_true]; omega
  rw [h0, h1, before_panics b hy _ _ _ (by simp only [byteLen]; omega)] at h
  cases h

theorem after_stop_C (d : Char) (t : Str) (hd : c!"HIA".isPrefixOf (d :: t) = false) :
    handleC (b ++ y :: 'C' :: d :: t) (byteLen (b ++ [y])) ≠ .ok r := by
  have hw := wide' hy
  have hp := Char.utf8Size_pos d
  have eC : ('C' : Char).utf8Size = 1 := rfl
  have e1 : byteLen (b ++ [y]) = byteLen b + y.utf8Size := by rw [byteLen_append]; simp [byteLen]
  have e2 : byteLen (b ++ y :: 'C' :: d :: t) = byteLen b + y.utf8Size + (1 + d.utf8Size + byteLen t) := by
    rw [byteLen_append]; simp only [byteLen]; omega
  intro h
  unfold handleC at h
  have h0 : ∀ s, conditionC0 (b ++ y :: 'C' :: d :: t) (byteLen (b ++ [y])) ≠ .ok s := by
    intro s h
    unfold conditionC0 at h
    have hchia : contains (b ++ y :: 'C' :: d :: t) (byteLen (b ++ [y])) 4 [c!"CHIA"] ≠ .ok true := by
      intro h
      obtain ⟨u, w, t', hw, e, hu⟩ := contains_true h
      rw [List.append_assoc, show b ++ y :: 'C' :: d :: t = (b ++ [y]) ++ 'C' :: d :: t by simp] at e
      obtain ⟨-, e⟩ := split_at e (by omega)
      simp only [List.mem_singleton] at hw
      subst hw
      simp only [List.cons_append] at e
      injection e with _ e
      rw [e] at hd
      simp [List.isPrefixOf] at hd
    replace h := pass hchia h
    rw [if_neg (by omega)] at h
    have h2 : okR ((byteLen (b ++ [y]) : Int) < 2) = .ok false := by unfold okR; rw [decide_eq_false]; omega
    have h3 : vowelAt (b ++ y :: 'C' :: d :: t) ((byteLen (b ++ [y]) : Int) - 2) ≠ .ok true := by
      intro h
      unfold vowelAt charAt at h
      rw [if_pos (by omega)] at h
      unfold sliceFrom at h
      by_cases hy2 : y.utf8Size = 2
      · rw [show ((byteLen (b ++ [y]) : Int) - 2).toNat = byteLen b by omega, splitAtByte_append] at h
        simp only [bind, Except.bind, pure, Except.pure, List.head?_cons, Option.map_some, Except.ok.injEq] at h
        have : asciiLower y = y := by
          unfold asciiLower
          rw [if_neg]
          intro hn
          have : isAscii y = true := by
            unfold isAsciiUpper at hn
            unfold isAscii
            simp only [Bool.and_eq_true, decide_eq_true_eq] at hn ⊢
            have h1 := hn.2
            exact Nat.lt_of_le_of_lt h1 (by decide)
          rw [this] at hy; cases hy
        rw [this] at h
        unfold isVowel at h
        simp only [Bool.or_eq_true, Bool.and_eq_true, beq_iff_eq, true_and] at h
        rcases h with ((((h | h) | h) | h) | h) | h <;> (rw [h] at hy; cases hy)
      · rw [split_inside (by omega) (by omega)] at h
        cases h
    generalize vowelAt (b ++ y :: 'C' :: d :: t) ((byteLen (b ++ [y]) : Int) - 2) = A at h h3
    have h4 : okR ((byteLen (b ++ [y]) : Int) > 0) = .ok true := by unfold okR; rw [decide_eq_true]; omega
    rw [h2, h4, before_panics b hy _ _ _ (by simp only [byteLen]; omega)] at h
    rcases A with _ | _ | _
    · cases h
    · cases h
    · exact h3 rfl
  cases hc : conditionC0 (b ++ y :: 'C' :: d :: t) (byteLen (b ++ [y])) with
  | error e => rw [hc] at h; cases h
  | ok s => exact h0 s hc

end

/-! ## The whole text -/

theorem padded_get {t : Str} {k : Nat} (h : ∀ x ∈ t.take k, isAscii x = true) : ∀ j < k + 1, (padded t)[j]? = t[j]? := by
  induction t generalizing k with
  | nil => intro j _; rfl
  | cons d t ih =>
    have e : padded (d :: t) = d :: (List.replicate (d.utf8Size - 1) '\x00' ++ padded t) := by simp [padded]
    intro j hj
    rw [e]
    cases j with
    | zero => rfl
    | succ j =>
      cases k with
      | zero => omega
      | succ k =>
        have hd : isAscii d = true := h d (by simp)
        rw [utf8Size_ascii hd]
        simp only [Nat.sub_self, List.replicate_zero, List.nil_append, List.getElem?_cons_succ]
        exact ih (k := k) (fun x hx => h x (by simp [hx])) j (by omega)

/-- A letter is not covered by what precedes it. -/
def Exposed (x : Str) (c : Char) (y : Str) : Prop :=
  (∀ d, x.getLast? = some d → isAscii d = false) ∨
    ((∀ d, x.getLast? = some d → c!"CDGPSTWX ".contains d = false) ∧ c!"CDGPSTW".contains c = true ∧ y.head? ≠ some 'Z')

theorem exposed_covered {v x1 : Str} {f : Char} {x2 : Str} {c : Char} {y : Str} (hv : v = x1 ++ f :: (x2 ++ c :: y))
    (hU : ∀ x ∈ v, isAsciiLower x = false) {r : List DMAppend × Nat}
    (h : handle v (isSlavoGermanic v) (byteLen x1) f = .ok r) (hx : Exposed (x1 ++ f :: x2) c y) : ¬ x2.length < r.2 := by
  intro hlt
  obtain ⟨k1, k2, k3⟩ := handle_any hv hU h
  have hf : isAscii f = true := by
    apply Decidable.byContradiction
    intro hn
    rw [k2 (by simpa using hn)] at hlt
    omega
  have hr := reach_sound (padded v) (padded x1) (List.replicate (f.utf8Size - 1) '\x00' ++ padded (x2 ++ c :: y)) f
  rw [← k1, utf8Size_ascii hf] at hr
  simp only [Nat.sub_self, List.replicate_zero, List.nil_append] at hr
  have hget := padded_get k3
  obtain ⟨r1, r2, r3⟩ := hr
  have hcov : (soundOf r).covered = r.2 := rfl
  rw [hcov] at r1 r2 r3
  rcases List.eq_nil_or_concat x2 with rfl | ⟨x3, g, rfl⟩
  · rcases hx with hx | ⟨hx, hc, -⟩
    · have := hx f (by simp)
      rw [this] at hf; cases hf
    · have halone := alone_sound (padded v) (padded x1) (List.replicate (f.utf8Size - 1) '\x00' ++ padded ([] ++ c :: y)) f
        (hx f (by simp))
      rw [← k1, utf8Size_ascii hf] at halone
      have := halone (by
        simp only [Nat.sub_self, List.replicate_zero, List.nil_append]
        have a0 := hget 0 (by omega)
        simp only [List.nil_append] at a0
        rw [a0]; exact hc)
      rw [hcov] at this
      rw [this] at hlt
      simp at hlt
  · have hg : (x1 ++ f :: (x3 ++ [g])).getLast? = some g := by
      rw [show x1 ++ f :: (x3 ++ [g]) = (x1 ++ f :: x3) ++ [g] by simp, List.getLast?_append]; simp
    simp only [List.concat_eq_append, List.length_append, List.length_cons, List.length_nil] at hlt k3 hget r1 r2 hx
    rcases hx with hx | ⟨hx, hc, hy⟩
    · have h1 := hx g hg
      have h2 : isAscii g = true := by
        apply k3
        have : g ∈ (x3 ++ [g] ++ c :: y).take (x3 ++ [g]).length := by rw [List.take_left]; simp
        exact (List.take_prefix_take_left (by simp; omega)).subset this
      rw [h1] at h2; cases h2
    · have hvow : among c!"CDGPSTWX " (some g) = false := hx g hg
      match x3, hlt with
      | [], hlt =>
        have a0 := hget 0 (by omega)
        have a1 := hget 1 (by omega)
        have a2 := hget 2 (by simp only [List.length_nil] at hlt; omega)
        rw [a0, a1, a2] at r1
        simp only [List.nil_append, List.cons_append, List.getElem?_cons_zero, List.getElem?_cons_succ] at r1
        have := r1 hvow hc (by rw [← List.head?_eq_getElem?]; exact hy)
        simp only [List.length_nil] at hlt; omega
      | [e], hlt =>
        have a1 := hget 1 (by simp only [List.length_nil, List.length_cons] at hlt; omega)
        rw [a1] at r2
        simp only [List.nil_append, List.cons_append, List.getElem?_cons_zero, List.getElem?_cons_succ] at r2
        have := r2 hvow
        simp only [List.length_nil, List.length_cons] at hlt; omega
      | e :: e' :: x4, hlt =>
        simp only [List.length_cons] at hlt; omega

/-- A letter that cannot be handled and is not covered is not reached. -/
theorem run_stops {v x : Str} {c : Char} {y : Str} (hv : v = x ++ c :: y) (hU : ∀ z ∈ v, isAsciiLower z = false)
    (hx : Exposed x c y) (hskip : ¬ x.length < dmSkip v)
    (hstop : ∀ res, handle v (isSlavoGermanic v) (byteLen x) c ≠ .ok res) (max : Option Nat) (r : DMResult)
    (h : loop v (isSlavoGermanic v) v 0 (dmSkip v) (dmEmpty max) = .ok r) :
    ∃ n, max = some n ∧ r.primary.length = n ∧ r.alternate.length = n := by
  have hcomp : r.isComplete = true := by
    apply Decidable.byContradiction
    intro hn
    have hpos : 0 < byteLen v := byteLen_pos (by rw [hv]; simp)
    rcases loop_visits v hpos _ v 0 (dmSkip v) (dmEmpty max) r (dm_good_new max) h (by simpa using hn) x c y hv with
      h1 | ⟨x1, d, x2, res, h1, h2, h3⟩ | ⟨res, h1⟩
    · exact hskip h1
    · rw [Nat.zero_add] at h2
      subst h1
      exact exposed_covered (by rw [hv]; simp) hU h2 hx h3
    · rw [Nat.zero_add] at h1
      exact hstop res h1
  have hr := run_any v hU max r h
  unfold DMResult.isComplete at hcomp
  cases max with
  | none => rw [hr] at hcomp; cases hcomp
  | some n =>
    have hg : Good r ∧ r.maxLength = some n := by
      have hpos : 0 < byteLen v := byteLen_pos (by rw [hv]; simp)
      have := dm_loop_limit _ hpos _ n _ 0 _ (dmEmpty (some n)) r (by rintro m ⟨⟩; exact Nat.le_refl _) (dm_good_new _) h
      exact ⟨this.2.1, this.2.2.2.2⟩
    rw [hg.2] at hcomp
    simp only [Bool.and_eq_true, decide_eq_true_eq, byteLen_ascii hg.1.primary, byteLen_ascii hg.1.alternate] at hcomp
    have h1 := hg.1.fitsP n hg.2
    have h2 := hg.1.fitsA n hg.2
    exact ⟨n, rfl, by omega, by omega⟩

end DMProofs
end Verif
