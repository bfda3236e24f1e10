import Verif.Proofs.DoubleMetaphone
import Verif.Spec.DoubleMetaphone
/-!
# The Double Metaphone model against the specification of the codes
-/

set_option linter.unusedSimpArgs false
set_option linter.unusedSectionVars false
set_option linter.unusedVariables false

namespace Verif
namespace DMProofs
open DoubleMetaphone Spec.DM

/-! ## Comparisons in terms of the neighbours of a letter -/

/-- `x` occurs `k` characters before a letter `c`, whose predecessors, nearest first, are `r` and whose successors are `a`. -/
def matchAt (r : Str) (c : Char) (a : Str) : Nat → Str → Bool
  | 0, x => x.isPrefixOf (c :: a)
  | _ + 1, [] => true
  | k + 1, x :: xs => r[k]? == some x && matchAt r c a k xs

theorem isPrefixOf_back (b : Str) (c : Char) (a : Str) : ∀ (k : Nat) (x : Str), k ≤ b.length →
    x.isPrefixOf ((b ++ c :: a).drop (b.length - k)) = matchAt b.reverse c a k x := by
  intro k
  induction k with
  | zero => intro x _; simp [matchAt]
  | succ k ih =>
    intro x hk
    cases x with
    | nil => simp [matchAt]
    | cons y ys =>
      have hlt : b.length - (k + 1) < (b ++ c :: a).length := by simp; omega
      rw [List.drop_eq_getElem_cons hlt]
      simp only [List.isPrefixOf, matchAt]
      have e1 : b.length - (k + 1) + 1 = b.length - k := by omega
      rw [e1, ih ys (by omega)]
      have e2 : b.reverse[k]? = some ((b ++ c :: a)[b.length - (k + 1)]) := by
        rw [List.getElem?_reverse (by omega), List.getElem_append_left (by omega)]
        have e3 : b.length - 1 - k = b.length - (k + 1) := by omega
        rw [e3]
        exact List.getElem?_eq_getElem _
      rw [e2]
      congr 1
      rw [Bool.eq_iff_iff]
      simp only [beq_iff_eq, Option.some.injEq]
      exact ⟨Eq.symm, Eq.symm⟩

theorem contains_at {w : Str} (hA : AsciiStr w) (start n : Nat) (crit : List Str) :
    contains w (start : Int) n crit = 
      .ok (decide (start + n ≤ w.length) && crit.any fun x => x.length == n && x.isPrefixOf (w.drop start)) := by
  unfold contains
  rw [if_neg (by omega), byteLen_ascii hA]
  simp only [Int.toNat_natCast]
  by_cases h : start + n ≤ w.length
  · rw [if_pos h, slice_ascii hA (by omega) h]
    simp only [bind, Except.bind, pure, Except.pure, h, decide_true, Bool.true_and]
    congr 1
    rw [Bool.eq_iff_iff]
    simp only [List.contains_eq_mem, decide_eq_true_eq, List.any_eq_true, Bool.and_eq_true, beq_iff_eq,
      List.isPrefixOf_iff_prefix]
    constructor
    · intro hm
      refine ⟨_, hm, ?_, ?_⟩
      · simp; omega
      · rw [Nat.add_sub_cancel_left]; exact List.take_prefix _ _
    · rintro ⟨x, hm, hl, hp⟩
      rw [Nat.add_sub_cancel_left, ← hl, ← List.prefix_iff_eq_take.mp hp]
      exact hm
  · rw [if_neg h]; simp [h]


theorem contains_at' {w : Str} (hA : AsciiStr w) (start n : Nat) (hn : 0 < n) (crit : List Str) :
    contains w (start : Int) n crit =
      .ok (crit.any fun x => x.length == n && x.isPrefixOf (w.drop start)) := by
  rw [contains_at hA]
  congr 1
  by_cases h : start + n ≤ w.length
  · simp [h]
  · simp only [h, decide_false, Bool.false_and]
    symm
    rw [List.any_eq_false]
    intro x _ hx
    simp only [Bool.and_eq_true, beq_iff_eq, List.isPrefixOf_iff_prefix] at hx
    have := hx.2.length_le
    simp only [List.length_drop] at this
    omega

/-- A word around a letter. -/
structure Here (w b : Str) (c : Char) (a : Str) : Prop where
  word : w = b ++ c :: a
  ascii : AsciiStr w
  upper : ∀ x ∈ w, isAsciiLower x = false

section
variable {w b : Str} {c : Char} {a : Str} (h : Here w b c a)
include h

theorem contains_fwd (k n : Nat) (hn : 0 < n) (crit : List Str) :
    contains w ((b.length : Int) + (k : Nat)) n crit =
      .ok (crit.any fun x => x.length == n && x.isPrefixOf ((c :: a).drop k)) := by
  have e : ((b.length : Int) + (k : Nat)) = ((b.length + k : Nat) : Int) := by omega
  rw [e, contains_at' h.ascii _ _ hn]
  have e2 : w.drop (b.length + k) = (c :: a).drop k := by rw [h.word]; simp
  rw [e2]

theorem contains_back (k n : Nat) (hn : 0 < n) (crit : List Str) :
    contains w ((b.length : Int) - (k : Nat)) n crit =
      .ok (crit.any fun x => x.length == n && matchAt b.reverse c a k x) := by
  by_cases hk : k ≤ b.length
  · have e : ((b.length : Int) - (k : Nat)) = ((b.length - k : Nat) : Int) := by omega
    rw [e, contains_at' h.ascii _ _ hn]
    congr 2
    funext x
    rw [h.word, isPrefixOf_back _ _ _ _ _ hk]
  · unfold contains
    rw [if_pos (by omega)]
    congr 1
    symm
    rw [List.any_eq_false]
    intro x _ hx
    simp only [Bool.and_eq_true, beq_iff_eq] at hx
    obtain ⟨j, rfl⟩ : ∃ j, k = j + 1 := ⟨k - 1, by omega⟩
    cases x with
    | nil => simp at hx; omega
    | cons y ys =>
      have := hx.2
      simp only [matchAt, Bool.and_eq_true, beq_iff_eq] at this
      have := (List.getElem?_eq_some_iff.mp this.1).1
      simp at this
      omega

theorem contains_start (n : Nat) (hn : 0 < n) (crit : List Str) :
    contains w 0 n crit = .ok (crit.any fun x => x.length == n && x.isPrefixOf w) := by
  have := contains_at' h.ascii 0 n hn crit
  simpa using this

theorem charAt_at (k : Nat) : charAt w (k : Int) = .ok w[k]? := by
  unfold charAt
  rw [byteLen_ascii h.ascii]
  by_cases hk : k < w.length
  · rw [if_pos (by omega), Int.toNat_natCast, sliceFrom_ascii h.ascii (by omega)]
    simp [bind, Except.bind, pure, Except.pure]
  · rw [if_neg (by omega), List.getElem?_eq_none (by omega)]

theorem get_fwd (k : Nat) : w[b.length + k]? = (c :: a)[k]? := by
  rw [h.word, List.getElem?_append_right (by omega), Nat.add_sub_cancel_left]

theorem charAt_fwd (k : Nat) : charAt w ((b.length : Int) + (k : Nat)) = .ok (c :: a)[k]? := by
  have e : ((b.length : Int) + (k : Nat)) = ((b.length + k : Nat) : Int) := by omega
  rw [e, charAt_at h, get_fwd h]

theorem charAt_back (k : Nat) : charAt w ((b.length : Int) - ((k + 1 : Nat) : Int)) = .ok b.reverse[k]? := by
  by_cases hk : k < b.length
  · have e : ((b.length : Int) - ((k + 1 : Nat) : Int)) = ((b.length - (k + 1) : Nat) : Int) := by omega
    rw [e, charAt_at h, h.word, List.getElem?_append_left (by omega), List.getElem?_reverse (by omega)]
    congr 2
    omega
  · unfold charAt
    rw [if_neg (by omega), List.getElem?_eq_none (by simp; omega)]

theorem mem_upper (o : Option Char) (ho : ∀ x, o = some x → x ∈ w) :
    isVowel (o.map asciiLower) true = vowel o := by
  cases o with
  | none => rfl
  | some x =>
    have hx := ho x rfl
    have key : ∀ x, isAscii x = true → isAsciiLower x = false → isVowel (some (asciiLower x)) true = vowel (some x) := by
      apply forall_ascii; decide +kernel
    exact key x (h.ascii x hx) (h.upper x hx)

theorem vowelAt_of {i : Int} {o : Option Char} (he : charAt w i = .ok o) (ho : ∀ x, o = some x → x ∈ w) :
    vowelAt w i = .ok (vowel o) := by
  unfold vowelAt
  rw [he]
  simp only [bind, Except.bind, pure, Except.pure]
  rw [mem_upper h o ho]

theorem vowelAt_fwd (k : Nat) : vowelAt w ((b.length : Int) + (k : Nat)) = .ok (vowel (c :: a)[k]?) :=
  vowelAt_of h (charAt_fwd h k) fun x hx => by
    rw [h.word]; exact List.mem_append_right _ (List.mem_of_getElem? hx)

theorem vowelAt_back (k : Nat) : vowelAt w ((b.length : Int) - ((k + 1 : Nat) : Int)) = .ok (vowel b.reverse[k]?) :=
  vowelAt_of h (charAt_back h k) fun x hx => by
    rw [h.word]; exact List.mem_append_left _ (List.mem_reverse.mp (List.mem_of_getElem? hx))

theorem vowelAt_at (k : Nat) : vowelAt w (k : Int) = .ok (vowel w[k]?) :=
  vowelAt_of h (charAt_at h k) fun x hx => List.mem_of_getElem? hx

theorem isAt_of {i : Int} {o : Option Char} (he : charAt w i = .ok o) (ch : Char) :
    isAt w i ch = .ok (o == some ch) := by
  unfold isAt
  rw [he]; rfl

/-! The instances that occur in the code. -/

theorem c0 (n : Nat) (hn : 0 < n) (crit : List Str) : contains w (b.length : Int) n crit =
      .ok (crit.any fun x => x.length == n && x.isPrefixOf (c :: a)) := contains_fwd h 0 n hn crit
theorem c1 (n : Nat) (hn : 0 < n) (crit : List Str) : contains w ((b.length : Int) + 1) n crit =
      .ok (crit.any fun x => x.length == n && x.isPrefixOf a) := contains_fwd h 1 n hn crit
theorem c2 (n : Nat) (hn : 0 < n) (crit : List Str) : contains w ((b.length : Int) + 2) n crit =
      .ok (crit.any fun x => x.length == n && x.isPrefixOf (a.drop 1)) := contains_fwd h 2 n hn crit
theorem c3 (n : Nat) (hn : 0 < n) (crit : List Str) : contains w ((b.length : Int) + 3) n crit =
      .ok (crit.any fun x => x.length == n && x.isPrefixOf (a.drop 2)) := contains_fwd h 3 n hn crit
theorem cm1 (n : Nat) (hn : 0 < n) (crit : List Str) : contains w ((b.length : Int) - 1) n crit =
      .ok (crit.any fun x => x.length == n && matchAt b.reverse c a 1 x) := contains_back h 1 n hn crit
theorem cm2 (n : Nat) (hn : 0 < n) (crit : List Str) : contains w ((b.length : Int) - 2) n crit =
      .ok (crit.any fun x => x.length == n && matchAt b.reverse c a 2 x) := contains_back h 2 n hn crit
theorem cm3 (n : Nat) (hn : 0 < n) (crit : List Str) : contains w ((b.length : Int) - 3) n crit =
      .ok (crit.any fun x => x.length == n && matchAt b.reverse c a 3 x) := contains_back h 3 n hn crit
theorem cm4 (n : Nat) (hn : 0 < n) (crit : List Str) : contains w ((b.length : Int) - 4) n crit =
      .ok (crit.any fun x => x.length == n && matchAt b.reverse c a 4 x) := contains_back h 4 n hn crit
theorem i1 (ch : Char) : isAt w ((b.length : Int) + 1) ch = .ok (a[0]? == some ch) :=
  (isAt_of h (charAt_fwd h 1) ch).trans (by simp)
theorem i2 (ch : Char) : isAt w ((b.length : Int) + 2) ch = .ok (a[1]? == some ch) := 
  (isAt_of h (charAt_fwd h 2) ch).trans (by simp)
theorem i4 (ch : Char) : isAt w ((b.length : Int) + 4) ch = .ok (a[3]? == some ch) :=
  (isAt_of h (charAt_fwd h 4) ch).trans (by simp)
theorem im1 (ch : Char) : isAt w ((b.length : Int) - 1) ch = .ok (b.reverse[0]? == some ch) := isAt_of h (charAt_back h 0) ch
theorem v1 : vowelAt w ((b.length : Int) + 1) = .ok (vowel a[0]?) := (vowelAt_fwd h 1).trans (by simp)
theorem vm1 : vowelAt w ((b.length : Int) - 1) = .ok (vowel b.reverse[0]?) := vowelAt_back h 0
theorem vm2 : vowelAt w ((b.length : Int) - 2) = .ok (vowel b.reverse[1]?) := vowelAt_back h 1
theorem len : byteLen w = b.length + 1 + a.length := by
  rw [byteLen_ascii h.ascii, h.word]; simp; omega

end

/-! ## Conditions that cannot panic here -/

theorem orR_ok (x y : Bool) : (Except.ok x |? Except.ok y) = .ok (x || y) := by cases x <;> rfl
theorem andR_ok (x y : Bool) : (Except.ok x &? Except.ok y) = .ok (x && y) := by cases x <;> rfl
theorem notR_ok (x : Bool) : (!? (Except.ok x)) = .ok (!x) := rfl
theorem bind_ok {α β : Type} (x : α) (f : α → Res β) : (Except.ok x >>= f) = f x := rfl
theorem okR_eq (p : Prop) [Decidable p] : okR p = .ok (decide p) := rfl
theorem pure_ok {α : Type} (x : α) : (pure x : Res α) = .ok x := rfl

/-! ## Characters of the neighbourhood -/

theorem pre_cons (x : Char) (xs : Str) (a : Str) :
    (x :: xs).isPrefixOf a = (a[0]? == some x && xs.isPrefixOf (a.drop 1)) := by
  cases a with
  | nil => rfl
  | cons y ys =>
    simp only [List.isPrefixOf, List.getElem?_cons_zero, List.drop_succ_cons, List.drop_zero]
    congr 1
    rw [Bool.eq_iff_iff]
    simp only [beq_iff_eq, Option.some.injEq]
    exact ⟨Eq.symm, Eq.symm⟩

theorem pre_nil (a : Str) : List.isPrefixOf [] a = true := by simp

theorem ite_ok (p : Prop) [Decidable p] (x y : Bool) :
    (if p then (Except.ok x : Res Bool) else Except.ok y) = .ok (if p then x else y) := by split <;> rfl
theorem ite_calls (p : Prop) [Decidable p] (x y : List DMAppend) :
    (if p then (Except.ok x : Res (List DMAppend)) else Except.ok y) = .ok (if p then x else y) := by split <;> rfl

/-- What a handler contributes. -/
def soundOf (r : List DMAppend × Nat) : Sound := ⟨(appendedAll r.1).1, (appendedAll r.1).2, r.2⟩

theorem map_ite (f : List DMAppend × Nat → Sound) (p : Prop) [Decidable p] (x y : Res (List DMAppend × Nat)) :
    Except.map f (if p then x else y) = if p then Except.map f x else Except.map f y := by
  split <;> rfl
theorem map_ok (f : List DMAppend × Nat → Sound) (x : List DMAppend × Nat) :
    Except.map f (Except.ok x : Res (List DMAppend × Nat)) = .ok (f x) := rfl

theorem ends_eq (b : Str) (ws : List Str) :
    ends b ws = ws.any fun x => x.reverse.isPrefixOf b.reverse := rfl

/-! Lengths, in terms of the characters. -/

theorem len_zero (b : Str) : ((b.length : Int) = 0) = (b.reverse[0]? = none) := by
  rw [eq_iff_iff, List.getElem?_eq_none_iff, List.length_reverse]; omega
theorem len_one (b : Str) : ((b.length : Int) = 1) = (b.reverse[0]? ≠ none ∧ b.reverse[1]? = none) := by
  rw [eq_iff_iff, ne_eq, List.getElem?_eq_none_iff, List.getElem?_eq_none_iff, List.length_reverse]; omega
theorem len_gt0 (b : Str) : ((b.length : Int) > 0) = (b.reverse[0]? ≠ none) := by
  rw [eq_iff_iff, ne_eq, List.getElem?_eq_none_iff, List.length_reverse]; omega
theorem len_gt1 (b : Str) : ((b.length : Int) > 1) = (b.reverse[1]? ≠ none) := by
  rw [eq_iff_iff, ne_eq, List.getElem?_eq_none_iff, List.length_reverse]; omega
theorem len_gt2 (b : Str) : ((b.length : Int) > 2) = (b.reverse[2]? ≠ none) := by
  rw [eq_iff_iff, ne_eq, List.getElem?_eq_none_iff, List.length_reverse]; omega
theorem len_gt3 (b : Str) : ((b.length : Int) > 3) = (b.reverse[3]? ≠ none) := by
  rw [eq_iff_iff, ne_eq, List.getElem?_eq_none_iff, List.length_reverse]; omega
theorem len_lt1 (b : Str) : ((b.length : Int) < 1) = (b.reverse[0]? = none) := by
  rw [eq_iff_iff, List.getElem?_eq_none_iff, List.length_reverse]; omega
theorem len_lt2 (b : Str) : ((b.length : Int) < 2) = (b.reverse[1]? = none) := by
  rw [eq_iff_iff, List.getElem?_eq_none_iff, List.length_reverse]; omega
theorem len_ge2 (b : Str) : (b.length ≥ 2) = (b.reverse[1]? ≠ none) := by
  rw [eq_iff_iff, ne_eq, List.getElem?_eq_none_iff, List.length_reverse]; omega
theorem len_ge4 (b : Str) : (b.length ≥ 4) = (b.reverse[3]? ≠ none) := by
  rw [eq_iff_iff, ne_eq, List.getElem?_eq_none_iff, List.length_reverse]; omega
theorem len_beq1 (b : Str) : (b.length == 1) = (b.reverse[0]? != none && b.reverse[1]? == none) := by
  rw [Bool.eq_iff_iff]
  simp only [beq_iff_eq, Bool.and_eq_true, bne_iff_ne, ne_eq, List.getElem?_eq_none_iff, List.length_reverse]
  omega
theorem len_after1 (a : Str) : (a.length == 1) = (a[0]? != none && a[1]? == none) := by
  rw [Bool.eq_iff_iff]
  simp only [beq_iff_eq, Bool.and_eq_true, bne_iff_ne, ne_eq, List.getElem?_eq_none_iff]
  omega
theorem len_after2 (a : Str) : (a.length == 2) = (a[1]? != none && a[2]? == none) := by
  rw [Bool.eq_iff_iff]
  simp only [beq_iff_eq, Bool.and_eq_true, bne_iff_ne, ne_eq, List.getElem?_eq_none_iff]
  omega
theorem only_after (a : Str) (x : Char) : (a == [x]) = (a[0]? == some x && a[1]? == none) := by
  rcases a with _ | ⟨y, _ | ⟨z, a⟩⟩ <;> simp
theorem empty_eq (b : Str) : b.isEmpty = (b.reverse[0]? == none) := by
  cases b with
  | nil => rfl
  | cons x b => simp
theorem empty_after (a : Str) : a.isEmpty = (a[0]? == none) := by
  cases a <;> rfl
theorem only (b : Str) (x : Char) : (b == [x]) = (b.reverse[0]? == some x && b.reverse[1]? == none) := by
  rw [Bool.eq_iff_iff]
  simp only [beq_iff_eq, Bool.and_eq_true, List.getElem?_eq_none_iff, List.length_reverse]
  constructor
  · rintro rfl; simp
  · intro h
    have : b.length = 1 := by
      have := (List.getElem?_eq_some_iff.mp h.1).1
      simp at this; omega
    obtain ⟨y, rfl⟩ := List.length_eq_one_iff.mp this
    simp at h; simp [h]
theorem among_cons (x : Char) (xs : Str) (o : Option Char) : among (x :: xs) o = (o == some x || among xs o) := by
  cases o with
  | none => rfl
  | some y => simp only [among, List.contains_cons]; rfl
theorem among_nil (o : Option Char) : among [] o = false := by cases o <;> rfl
/-- Where there is no letter, there is none further on. -/
theorem further (s : Str) : (s[0]? = none → s[1]? = none) ∧ (s[1]? = none → s[2]? = none) ∧
    (s[2]? = none → s[3]? = none) ∧ (s[3]? = none → s[4]? = none) := by
  simp only [List.getElem?_eq_none_iff]; omega

/-- The characters of the word, for a letter that is the first or the second one. -/
theorem places {w b : Str} {c : Char} {a : Str} (h : Here w b c a) :
    (b.reverse[0]? = none → w[0]? = some c ∧ w[1]? = a[0]? ∧ w[2]? = a[1]? ∧ w[3]? = a[2]? ∧ w[4]? = a[3]?) ∧
    (b.reverse[0]? ≠ none → b.reverse[1]? = none → w[0]? = b.reverse[0]?) := by
  rw [h.word]
  rcases b with _ | ⟨x, _ | ⟨y, b⟩⟩
  · simp
  · simp
  · refine ⟨by simp, fun _ h => ?_⟩
    rw [List.getElem?_eq_none_iff] at h
    simp at h

theorem vowel_first {w b : Str} {c : Char} {a : Str} (h : Here w b c a) : vowelAt w 0 = .ok (vowel w[0]?) :=
  vowelAt_at h 0
theorem vowel_fourth {w b : Str} {c : Char} {a : Str} (h : Here w b c a) : vowelAt w 3 = .ok (vowel w[3]?) :=
  vowelAt_at h 3
theorem is_first {w b : Str} {c : Char} {a : Str} (h : Here w b c a) (ch : Char) : isAt w 0 ch = .ok (w[0]? == some ch) :=
  isAt_of h (charAt_at h 0) ch
theorem is_fourth {w b : Str} {c : Char} {a : Str} (h : Here w b c a) (ch : Char) : isAt w 3 ch = .ok (w[3]? == some ch) :=
  isAt_of h (charAt_at h 3) ch

/-- The letter, its neighbours and the conditions become equations between characters. -/
macro "dm_atoms" "[" ls:Lean.Parser.Tactic.simpLemma,* "]" : tactic => `(tactic|
  simp only [Nat.reduceLT, orR_ok, andR_ok, notR_ok, bind_ok, okR_eq, pure_ok, List.any_cons, List.any_nil,
    List.length_cons, List.length_nil, starts, ends_eq, around, among_cons, among_nil, back, pre_cons, pre_nil, List.drop_drop,
    List.getElem?_drop, Nat.reduceAdd, Nat.reduceSub, matchAt,
    Nat.reduceBEq, Bool.true_and, Bool.false_and, Bool.or_false, Bool.and_true, map_ite, map_ok, soundOf, appendedAll, appended,
    same, silent, List.getElem?_cons_zero, List.drop_succ_cons, List.drop_zero, beq_self_eq_true, Option.getD,
    ne_eq, ite_ok, len_zero, len_one, len_gt0, len_gt1, len_gt2, len_gt3, len_lt1, len_lt2, len_ge2, len_ge4,
    List.isSuffixOf, List.reverse_cons, List.reverse_nil, List.nil_append, List.cons_append, $ls,*])

/-- The characters become variables. -/
macro "dm_finish" h:ident w:ident b:ident a:ident : tactic => `(tactic| (
  have hfb := further (List.reverse $b)
  have hfa := further $a
  have hp := places $h
  clear $h
  generalize (List.reverse $b)[0]? = r0 at *
  generalize (List.reverse $b)[1]? = r1 at *
  generalize (List.reverse $b)[2]? = r2 at *
  generalize (List.reverse $b)[3]? = r3 at *
  generalize (List.reverse $b)[4]? = r4 at *
  generalize ($a)[0]? = a0 at *
  generalize ($a)[1]? = a1 at *
  generalize ($a)[2]? = a2 at *
  generalize ($a)[3]? = a3 at *
  generalize ($a)[4]? = a4 at *
  generalize ($w)[0]? = w0 at *
  generalize ($w)[1]? = w1 at *
  generalize ($w)[2]? = w2 at *
  generalize ($w)[3]? = w3 at *
  generalize ($w)[4]? = w4 at *
  generalize ($w)[5]? = w5 at *
  grind (splits := 60) -verbose only))

theorem handleD_spec {w b a : Str} (h : Here w b 'D' a) :
    (handleD w b.length).map soundOf = .ok (soundD a) := by
  unfold handleD soundD
  dm_atoms [c0 h, c2 h]
  dm_finish h w b a

theorem handleH_spec {w b a : Str} (h : Here w b 'H' a) :
    (handleH w b.length).map soundOf = .ok (soundH b a) := by
  unfold handleH soundH
  dm_atoms [v1 h, vm1 h, empty_eq b, List.head?_eq_getElem?]
  dm_finish h w b a

theorem handleP_spec {w b a : Str} (h : Here w b 'P' a) :
    (handleP w b.length).map soundOf = .ok (soundP a) := by
  unfold handleP soundP
  dm_atoms [c1 h, i1 h]
  dm_finish h w b a

theorem handleT_spec {w b a : Str} (h : Here w b 'T' a) :
    (handleT w b.length).map soundOf = .ok (soundT w a) := by
  unfold handleT soundT
  dm_atoms [c0 h, c1 h, c2 h, contains_start h]
  dm_finish h w b a

theorem handleGh_spec {w b a : Str} (h : Here w b 'G' a) (ha : a[0]? = some 'H') :
    (handleGh w b.length).map soundOf = .ok (soundGH b a) := by
  unfold handleGh soundGH
  dm_atoms [c0 h, c1 h, c2 h, contains_start h, vm1 h, im1 h, cm2 h, cm3 h, cm4 h, i2 h, empty_eq b]
  dm_finish h w b a


theorem handleG_spec {w b a : Str} (h : Here w b 'G' a) :
    (handleG w b.length (slavoGermanic w)).map soundOf = .ok (soundG w b a) := by
  unfold handleG soundG
  have hgh : a[0]? = some 'H' → _ := handleGh_spec h
  generalize handleGh w b.length = m1 at *
  generalize soundGH b a = m2 at *
  unfold conditionG0 esEpEb
  dm_atoms [c1 h, c2 h, i1 h, contains_start h, vm1 h, im1 h, cm1 h, vowel_first h, empty_eq b, len_beq1 b]
  generalize slavoGermanic w = sg at *
  dm_finish h w b a

theorem handleSc_spec {w b a : Str} (h : Here w b 'S' a) (ha : a[0]? = some 'C') :
    (handleSc w b.length).map soundOf = .ok (soundSC b a) := by
  unfold handleSc soundSC
  dm_atoms [c1 h, c2 h, c3 h, i1 h, i2 h, vowel_fourth h, is_fourth h, empty_eq b]
  dm_finish h w b a

theorem handleCc_spec {w b a : Str} (h : Here w b 'C' a) (ha : a[0]? = some 'C') :
    (handleCc w b.length).map soundOf = .ok (soundCC b a) := by
  unfold handleCc soundCC
  dm_atoms [c1 h, c2 h, c3 h, cm1 h, i1 h, i2 h, im1 h, empty_eq b, only b]
  dm_finish h w b a

theorem last_eq {w b : Str} {c : Char} {a : Str} (h : Here w b c a) :
    ((b.length : Int) = (byteLen w : Int) - 1) = (a[0]? = none) := by
  rw [len h, eq_iff_iff, List.getElem?_eq_none_iff]; omega
theorem usub_eq {w b : Str} {c : Char} {a : Str} (h : Here w b c a) :
    usub (byteLen w) 1 = .ok (b.length + a.length) := by
  rw [len h]; unfold usub; rw [if_pos (by omega)]; congr 1; omega
theorem last_but_one {w b : Str} {c : Char} {a : Str} (h : Here w b c a) :
    ((b.length : Int).toNat + 1 = b.length + a.length) = (a[0]? ≠ none ∧ a[1]? = none) := by
  rw [eq_iff_iff, ne_eq, List.getElem?_eq_none_iff, List.getElem?_eq_none_iff]; omega
theorem last' {w b : Str} {c : Char} {a : Str} (h : Here w b c a) :
    ((b.length : Int).toNat = b.length + a.length) = (a[0]? = none) := by
  rw [eq_iff_iff, List.getElem?_eq_none_iff]; omega

theorem handleCh_spec {w b a : Str} (h : Here w b 'C' a) (ha : a[0]? = some 'H') :
    (handleCh w b.length).map soundOf = .ok (soundCH w b a) := by
  unfold handleCh soundCH conditionCh0 conditionCh1 lrnmbhfvwSpace
  dm_atoms [c0 h, c1 h, c2 h, c3 h, cm1 h, cm2 h, i1 h, i2 h, im1 h, contains_start h, empty_eq b, only b, usub_eq h,
    last_but_one h, len_after1 a]
  dm_finish h w b a

theorem charAt2 {w b : Str} {c : Char} {a : Str} (h : Here w b c a) : charAt w ((b.length : Int) + 2) = .ok a[1]? :=
  (charAt_fwd h 2).trans (by simp)

theorem handleC_spec {w b a : Str} (h : Here w b 'C' a) :
    (handleC w b.length).map soundOf = .ok (soundC w b a) := by
  have hh := handleCh_spec h
  have hc := handleCc_spec h
  unfold handleC soundC conditionC0
  generalize handleCh w b.length = m1 at *
  generalize soundCH w b a = m2 at *
  generalize handleCc w b.length = m3 at *
  generalize soundCC b a = m4 at *
  dm_atoms [c0 h, c1 h, c2 h, c3 h, cm1 h, cm2 h, i1 h, i2 h, im1 h, vm2 h, contains_start h, empty_eq b, only b, 
    charAt2 h, is_first h, bne]
  dm_finish h w b a

theorem last_but_two {w b : Str} {c : Char} {a : Str} (h : Here w b c a) :
    (3 ≤ byteLen w ∧ (b.length : Int).toNat = byteLen w - 3) = (a[1]? ≠ none ∧ a[2]? = none) := by
  rw [len h, eq_iff_iff, ne_eq, List.getElem?_eq_none_iff, List.getElem?_eq_none_iff]; omega

theorem contains_end {w b : Str} {c : Char} {a : Str} (h : Here w b c a) (n : Nat) (hn : 0 < n) (crit : List Str) :
    contains w ((byteLen w : Int) - (n : Nat)) n crit = .ok (crit.any fun x => x.length == n && x.isSuffixOf w) := by
  rw [byteLen_ascii h.ascii]
  by_cases hk : n ≤ w.length
  · have e : ((w.length : Int) - (n : Nat)) = ((w.length - n : Nat) : Int) := by omega
    rw [e, contains_at' h.ascii _ _ hn]
    congr 2
    funext x
    by_cases hx : x.length = n
    · simp only [hx, beq_self_eq_true, Bool.true_and]
      rw [Bool.eq_iff_iff]
      simp only [List.isPrefixOf_iff_prefix, List.isSuffixOf_iff_suffix]
      rw [List.prefix_iff_eq_take, List.suffix_iff_eq_drop, hx, List.take_of_length_le (by rw [List.length_drop]; omega)]
    · have hx' : (x.length == n) = false := by rw [beq_eq_false_iff_ne]; exact hx
      rw [hx', Bool.false_and, Bool.false_and]
  · unfold contains
    rw [if_pos (by omega)]
    congr 1
    symm
    rw [List.any_eq_false]
    intro x _ hx
    simp only [Bool.and_eq_true, beq_iff_eq, List.isSuffixOf_iff_suffix] at hx
    have := hx.2.length_le
    omega

theorem e1 {w b : Str} {c : Char} {a : Str} (h : Here w b c a) (crit : List Str) :
    contains w ((byteLen w : Int) - 1) 1 crit = .ok (crit.any fun x => x.length == 1 && x.isSuffixOf w) :=
  contains_end h 1 (by decide) crit
theorem e2 {w b : Str} {c : Char} {a : Str} (h : Here w b c a) (crit : List Str) :
    contains w ((byteLen w : Int) - 2) 2 crit = .ok (crit.any fun x => x.length == 2 && x.isSuffixOf w) :=
  contains_end h 2 (by decide) crit

theorem handleL_spec {w b a : Str} (h : Here w b 'L' a) :
    (handleL w b.length).map soundOf = .ok (soundL w b a) := by
  have hl : w.reverse[1]? ≠ none → byteLen w > 1 := by
    rw [byteLen_ascii h.ascii, ne_eq, List.getElem?_eq_none_iff, List.length_reverse]; omega
  have hne : w ≠ [] := by rw [h.word]; simp
  have h2 := last_but_two h
  unfold handleL soundL conditionL0
  dm_atoms [i1 h, e1 h, e2 h, cm1 h, empty_eq b, only b, len_after2 a, hne, not_false_eq_true, decide_true, not_true]
  generalize w.reverse[0]? = z0 at *
  generalize w.reverse[1]? = z1 at *
  generalize (byteLen w) = l at *
  dm_finish h w b a

theorem handleM_spec {w b a : Str} (sg : Bool) (h : Here w b 'M' a) :
    (handle w sg b.length 'M').map soundOf = .ok (soundM b a) := by
  have e : ((b.length : Int) + 1 = (byteLen w : Int) - 1) = (a[0]? ≠ none ∧ a[1]? = none) := by
    rw [len h, eq_iff_iff, ne_eq, List.getElem?_eq_none_iff, List.getElem?_eq_none_iff]; omega
  unfold handle soundM conditionM0
  dm_atoms [i1 h, cm1 h, c2 h, e, empty_eq b, only_after a]
  dm_finish h w b a

theorem handleR_spec {w b a : Str} (h : Here w b 'R' a) :
    (handleR w b.length (slavoGermanic w)).map soundOf = .ok (soundR w b a) := by
  unfold handleR soundR handleR'
  generalize slavoGermanic w = sg
  dm_atoms [i1 h, cm2 h, cm4 h, last_eq h, empty_after a, ite_calls]
  dm_finish h w b a

theorem handleS_spec {w b a : Str} (h : Here w b 'S' a) :
    (handleS w b.length (slavoGermanic w)).map soundOf = .ok (soundS w b a) := by
  have hh := handleSc_spec h
  unfold handleS soundS handleS'
  generalize slavoGermanic w = sg
  generalize handleSc w b.length = m1 at *
  generalize soundSC b a = m2 at *
  dm_atoms [c0 h, c1 h, i1 h, cm1 h, cm2 h, last_eq h, empty_after a, empty_eq b, ite_calls]
  dm_finish h w b a

theorem handleW_spec {w b a : Str} (h : Here w b 'W' a) :
    (handleW w b.length).map soundOf = .ok (soundW w b a) := by
  unfold handleW soundW
  dm_atoms [c0 h, c1 h, i1 h, cm1 h, cm2 h, vm1 h, v1 h, contains_start h, last_eq h, empty_after a, empty_eq b, ite_calls,
    List.head?_eq_getElem?]
  dm_finish h w b a

theorem handleX_spec {w b a : Str} (h : Here w b 'X' a) :
    (handleX w b.length).map soundOf = .ok (soundX b a) := by
  unfold handleX soundX handleX'
  dm_atoms [c0 h, c1 h, i1 h, cm1 h, cm2 h, cm3 h, last_eq h, empty_after a, empty_eq b, ite_calls]
  dm_finish h w b a

theorem handleZ_spec {w b a : Str} (h : Here w b 'Z' a) :
    (handleZ w b.length (slavoGermanic w)).map soundOf = .ok (soundZ w b a) := by
  unfold handleZ soundZ handleZ'
  generalize slavoGermanic w = sg
  dm_atoms [c0 h, c1 h, i1 h, im1 h, empty_after a, empty_eq b, ite_calls]
  dm_finish h w b a

theorem handleJ_spec {w b a : Str} (h : Here w b 'J' a) :
    (handleJ w b.length (slavoGermanic w)).map soundOf = .ok (soundJ w b a) := by
  have hl : (byteLen w = 4) = (w[3]? ≠ none ∧ w[4]? = none) := by
    rw [byteLen_ascii h.ascii, eq_iff_iff, ne_eq, List.getElem?_eq_none_iff, List.getElem?_eq_none_iff]; omega
  have hl' : (w.length == 4) = (w[3]? != none && w[4]? == none) := by
    rw [Bool.eq_iff_iff]
    simp only [beq_iff_eq, Bool.and_eq_true, bne_iff_ne, ne_eq, List.getElem?_eq_none_iff]
    omega
  unfold handleJ soundJ handleJ' ltksnmbz
  generalize slavoGermanic w = sg
  dm_atoms [c0 h, c1 h, i1 h, i4 h, cm1 h, im1 h, vm1 h, contains_start h, hl, hl', usub_eq h, last' h, empty_after a,
     empty_eq b, ite_calls]
  dm_finish h w b a

theorem simple_spec {w b a : Str} {c : Char} (h : Here w b c a) (code : Char) :
    (simple w b.length c code).map soundOf = .ok (soundSimple a c [code]) := by
  unfold simple soundSimple
  dm_atoms [i1 h]
  dm_finish h w b a

theorem vowel_spec {w b a : Str} {c : Char} (h : Here w b c a) :
    Except.map soundOf (Except.ok (if (b.length : Int) = 0 then [DMAppend.char 'A' none] else [], 0) : Res _) =
      .ok (if b.isEmpty then same ['A'] 0 else silent 0) := by
  cases b with
  | nil => rfl
  | cons x b => rw [if_neg (by simp only [List.length_cons]; omega)]; rfl

theorem handle_spec {w b a : Str} {c : Char} (h : Here w b c a) :
    (handle w (slavoGermanic w) b.length c).map soundOf = .ok (sound w b a c) := by
  have hc : isAscii c = true := h.ascii c (by rw [h.word]; simp)
  unfold handle
  split
  all_goals first
    | exact vowel_spec h
    | exact simple_spec h _
    | exact handleC_spec h
    | exact handleD_spec h
    | exact handleG_spec h
    | exact handleH_spec h
    | exact handleJ_spec h
    | exact handleL_spec h
    | exact handleM_spec (slavoGermanic w) h
    | exact handleP_spec h
    | exact handleR_spec h
    | exact handleS_spec h
    | exact handleT_spec h
    | exact handleW_spec h
    | exact handleX_spec h
    | exact handleZ_spec h
    | (exfalso; revert hc; decide)
    | skip
  unfold sound
  split
  all_goals first
    | rfl
    | (exact absurd rfl (by assumption))

theorem strContains_cz (w : Str) : strContains w c!"CZ" = true → slavoGermanic w = true := by
  induction w with
  | nil => simp [strContains]
  | cons c w ih =>
    intro h
    simp only [strContains, Bool.or_eq_true] at h
    simp only [slavoGermanic, Bool.or_eq_true, Bool.and_eq_true, beq_iff_eq]
    rcases h with h | h
    · cases w with
      | nil => simp [List.isPrefixOf] at h
      | cons d w =>
        simp only [List.isPrefixOf, Bool.and_eq_true, beq_iff_eq, Bool.and_true] at h
        exact .inl (.inr ⟨h.1.symm, by simp [h.2.symm]⟩)
    · exact .inr (ih h)

theorem slavo_of_mem (w : Str) (c : Char) (hc : c = 'W' ∨ c = 'K') (h : c ∈ w) : slavoGermanic w = true := by
  induction w with
  | nil => cases h
  | cons d w ih =>
    simp only [slavoGermanic, Bool.or_eq_true, beq_iff_eq]
    rcases List.mem_cons.mp h with rfl | h
    · rcases hc with rfl | rfl <;> simp
    · exact .inr (ih h)

theorem mem_of_strContains (w x : Str) (c : Char) (hc : c ∈ x) : strContains w x = true → c ∈ w := by
  induction w with
  | nil => 
    intro h
    simp only [strContains, List.isEmpty_iff] at h
    rw [h] at hc; cases hc
  | cons d w ih =>
    intro h
    simp only [strContains, Bool.or_eq_true, List.isPrefixOf_iff_prefix] at h
    rcases h with h | h
    · exact h.subset hc
    · exact List.mem_cons_of_mem _ (ih h)

theorem isSlavoGermanic_eq (w : Str) : isSlavoGermanic w = slavoGermanic w := by
  have fwd : isSlavoGermanic w = true → slavoGermanic w = true := by
    intro h
    simp only [isSlavoGermanic, Bool.or_eq_true, List.any_eq_true, beq_iff_eq] at h
    rcases h with (⟨c, h1, h2⟩ | h) | h
    · exact slavo_of_mem w c h2 h1
    · exact strContains_cz w h
    · exact slavo_of_mem w 'W' (.inl rfl) (mem_of_strContains w _ 'W' (by simp) h)
  have bwd : slavoGermanic w = true → isSlavoGermanic w = true := by
    clear fwd
    induction w with
    | nil => intro h; cases h
    | cons d w ih =>
      intro h
      simp only [slavoGermanic, Bool.or_eq_true, beq_iff_eq, Bool.and_eq_true] at h
      simp only [isSlavoGermanic, Bool.or_eq_true, List.any_cons, beq_iff_eq, strContains] at ih ⊢
      rcases h with ((h | h) | h) | h
      · exact .inl (.inl (.inl (.inl h)))
      · exact .inl (.inl (.inl (.inr h)))
      · refine .inl (.inr (.inl ?_))
        cases w with
        | nil => simp at h
        | cons e w => simp at h; simp [List.isPrefixOf, h]
      · rcases ih h with (h | h) | h
        · exact .inl (.inl (.inr h))
        · exact .inl (.inr (.inr h))
        · exact .inr (.inr h)
  rw [Bool.eq_iff_iff]
  exact ⟨fwd, bwd⟩

theorem loop_spec (w : Str) (hA : AsciiStr w) (hU : ∀ x ∈ w, isAsciiLower x = false) (rest : Str) :
    ∀ (b : Str) (skip : Nat) (r : DMResult), w = b ++ rest → Good r → r.maxLength = none →
    loop w (slavoGermanic w) rest b.length skip r =
      .ok { r with primary := r.primary ++ (soundsFrom w b skip rest).flatMap Sound.primary,
                   alternate := r.alternate ++ (soundsFrom w b skip rest).flatMap Sound.alternate } := by
  induction rest with
  | nil => intro b skip r _ _ _; simp [loop, soundsFrom]
  | cons c rest ih =>
    intro b skip r hw hr hm
    have hc : isAscii c = true := hA c (by rw [hw]; simp)
    have e1 : b.length + c.utf8Size = (b ++ [c]).length := by
      have := byteLen_ascii (s := [c]) (fun x hx => by simp only [List.mem_singleton] at hx; rw [hx]; exact hc)
      simp [byteLen] at this
      simp [this]
    have e2 : w = (b ++ [c]) ++ rest := by rw [hw]; simp
    cases skip with
    | succ skip =>
      unfold loop soundsFrom
      rw [e1]
      exact ih _ _ _ e2 hr hm
    | zero =>
      unfold loop soundsFrom
      have hcomp : r.isComplete = false := by unfold DMResult.isComplete; rw [hm]
      rw [hcomp, if_neg (by simp)]
      have hs := handle_spec (w := w) (b := b) (a := rest) (c := c) ⟨hw, hA, hU⟩
      have hne : 0 < byteLen w := byteLen_pos (by rw [hw]; simp)
      cases hh : handle w (slavoGermanic w) b.length c with
      | error e => rw [hh] at hs; cases hs
      | ok res =>
        rw [hh] at hs
        obtain ⟨calls, k⟩ := res
        have hok := handle_ok w b.length (slavoGermanic w) c hne _ hh
        obtain ⟨f1, f2, f3⟩ := runAll_eq hr hok
        simp only [bind, Except.bind]
        rw [f1]
        simp only [map_ok, Except.ok.injEq] at hs
        rw [e1, ← hs]
        simp only [soundOf]
        rw [ih _ _ _ e2 (good_extend hr f2 f3) hm]
        simp only [extend, hm, cut, List.flatMap_cons, List.append_assoc]

/-! ## Texts without English consonants -/

/-- What a character contributes there. -/
def other (index : Nat) (c : Char) : Str :=
  if vowel (some c) then (if index = 0 then c!"A" else []) else if c == 'Ç' then c!"S" else if c == 'Ñ' then c!"N" else []

theorem handle_vocalic (w : Str) (sg : Bool) (index : Nat) (c : Char) (h : c ∉ c!"BCDFGHJKLMNPQRSTVWXZ") (r : DMResult)
    (hm : r.maxLength = none) :
    ∃ calls, handle w sg index c = .ok (calls, 0) ∧
      DMAppend.runAll r calls = .ok { r with primary := r.primary ++ other index c, alternate := r.alternate ++ other index c } := by
  obtain ⟨p, a, m⟩ := r
  simp only at hm
  subst hm
  unfold handle
  split
  all_goals first
    | exact absurd (by decide) h
    | exact ⟨_, rfl, rfl⟩
    | skip
  all_goals first
    | (refine ⟨_, rfl, ?_⟩
       cases index with
       | zero => rfl
       | succ n => rw [if_neg (by omega)]; simp [DMAppend.runAll, other]; done)
    | skip
  refine ⟨_, rfl, ?_⟩
  have e : other index c = [] := by
    unfold other
    rw [if_neg, if_neg, if_neg]
    · simp only [beq_iff_eq]; intro h; contradiction
    · simp only [beq_iff_eq]; intro h; contradiction
    · simp only [vowel, among_cons, among_nil, Bool.or_eq_true, beq_iff_eq, Option.some.injEq, Bool.or_false]
      rintro (h | h | h | h | h | h) <;> contradiction
  rw [e, List.append_nil, List.append_nil]
  rfl

theorem loop_others (w : Str) (sg : Bool) (rest : Str) (h : ∀ c ∈ rest, c ∉ c!"BCDFGHJKLMNPQRSTVWXZ") :
    ∀ (index : Nat) (r : DMResult), r.maxLength = none → 0 < index →
    loop w sg rest index 0 r = .ok { r with primary := r.primary ++ rest.flatMap (other 1),
                                            alternate := r.alternate ++ rest.flatMap (other 1) } := by
  induction rest with
  | nil => intro index r _ _; simp [loop]
  | cons c rest ih =>
    intro index r hm hi
    obtain ⟨calls, h1, h2⟩ := handle_vocalic w sg index c (h c (by simp)) r hm
    unfold loop
    have hcomp : r.isComplete = false := by unfold DMResult.isComplete; rw [hm]
    rw [hcomp, if_neg (by simp), h1]
    simp only [bind, Except.bind]
    rw [h2]
    dsimp only
    rw [ih (fun x hx => h x (by simp [hx])) (index + c.utf8Size)
      { r with primary := r.primary ++ other index c, alternate := r.alternate ++ other index c } hm (by omega)]
    have e : other index c = other 1 c := by
      have h0 : (index = 0) = (1 = 0) := by rw [eq_iff_iff]; omega
      unfold other
      simp only [h0]
    simp only [e, List.flatMap_cons, List.append_assoc]

theorem other_eq (c : Char) : other 1 c = if c == 'Ç' then c!"S" else if c == 'Ñ' then c!"N" else [] := by
  unfold other
  by_cases h : vowel (some c) = true
  · rw [if_pos h]
    simp only [vowel, among_cons, among_nil, Bool.or_eq_true, beq_iff_eq, Option.some.injEq, Bool.or_false] at h
    rcases h with h | h | h | h | h | h <;> subst h <;> rfl
  · rw [if_neg h]

theorem loop_vocalic (w : Str) (h : ∀ c ∈ w, c ∉ c!"BCDFGHJKLMNPQRSTVWXZ") :
    loop w (isSlavoGermanic w) w 0 (dmSkip w) (dmEmpty none) =
      .ok { primary := vocalic w, alternate := vocalic w, maxLength := none } := by
  have hskip : dmSkip w = 0 := by
    unfold dmSkip
    rw [if_neg]
    intro hs
    cases w with
    | nil => simp [silentStart, List.isPrefixOf] at hs
    | cons c w =>
      have hc := h c (by simp)
      simp only [silentStart, List.any_cons, List.any_nil, List.isPrefixOf, Bool.or_eq_true, Bool.and_eq_true, beq_iff_eq,
        Bool.or_false] at hs
      rcases hs with ⟨h, -⟩ | ⟨h, -⟩ | ⟨h, -⟩ | ⟨h, -⟩ | ⟨h, -⟩ <;> subst h <;> exact hc (by decide)
  rw [hskip]
  generalize isSlavoGermanic w = sg
  cases hw : w with
  | nil => rfl
  | cons c rest =>
    rw [hw] at h
    obtain ⟨calls, h1, h2⟩ := handle_vocalic (c :: rest) sg 0 c (h c (by simp)) (dmEmpty none) rfl
    unfold loop
    rw [if_neg (by decide)]
    simp only [bind, Except.bind]
    rw [Int.natCast_zero] at *
    rw [h1]
    simp only
    rw [h2]
    simp only
    have hpos : 0 < 0 + c.utf8Size := by have := Char.utf8Size_pos c; omega
    rw [loop_others _ sg rest (fun x hx => h x (by simp [hx])) _ _ rfl hpos]
    have e : (dmEmpty none).primary ++ other 0 c ++ rest.flatMap (other 1) = vocalic (c :: rest) := by
      have hf : (fun d => other 1 d) = (fun d => if d == 'Ç' then c!"S" else if d == 'Ñ' then c!"N" else []) :=
        funext other_eq
      rw [show other 1 = fun d => other 1 d from rfl, hf]
      simp only [dmEmpty, vocalic, List.nil_append, List.flatMap_cons, ← List.append_assoc]
      congr 1
      rw [← other_eq c]
      unfold other
      by_cases hv : vowel (some c) = true
      · rw [if_pos hv, if_pos hv, if_pos hv]; rfl
      · rw [if_neg hv, if_neg hv, if_neg hv]; rfl
    have e' : (dmEmpty none).alternate ++ other 0 c ++ rest.flatMap (other 1) = vocalic (c :: rest) := e
    simp only [e, e']
    rfl

end DMProofs
end Verif
