import Verif.Props.CaverphoneSpec
/-!
# The beginning of a word decides the beginning of its Caverphone code (C99)
-/

set_option linter.unusedSimpArgs false
set_option linter.unusedVariables false

namespace Verif.Props
open Spec

namespace CavBeginning
open Spec.Caverphone

theorem sound_append (v : Version) (before after u : Str) (c : Char) (h : 2 ≤ after.length) :
    sound v before (after ++ u) c = sound v before after c := by
  rcases after with _ | ⟨a1, _ | ⟨a2, rest⟩⟩
  · simp at h
  · simp at h
  clear h
  have hst : ∀ x (ws : List Str), (∀ w ∈ ws, w.length ≤ 2) → starts (a1 :: a2 :: x) ws = starts [a1, a2] ws := by
    intro x ws hw
    unfold starts
    induction ws with
    | nil => rfl
    | cons w ws ih =>
      rw [List.any_cons, List.any_cons, ih fun y hy => hw y (List.mem_cons_of_mem _ hy)]
      have := hw w List.mem_cons_self
      rcases w with _ | ⟨b1, _ | ⟨b2, _ | ⟨b3, w⟩⟩⟩
      · rfl
      · rfl
      · rfl
      · simp at this
  have hst1 : ∀ x (ws : List Str), (∀ w ∈ ws, w.length ≤ 1) → starts (a2 :: x) ws = starts [a2] ws := by
    intro x ws hw
    unfold starts
    induction ws with
    | nil => rfl
    | cons w ws ih =>
      rw [List.any_cons, List.any_cons, ih fun y hy => hw y (List.mem_cons_of_mem _ hy)]
      have := hw w List.mem_cons_self
      rcases w with _ | ⟨b1, _ | ⟨b2, w⟩⟩
      · rfl
      · rfl
      · simp at this
  have hv : ∀ x, vowelAhead v (a1 :: a2 :: x) = vowelAhead v [a1, a2] := fun x => hst x _ (by cases v <;> decide)
  have hv1 : ∀ x, vowelAhead v (a2 :: x) = vowelAhead v [a2] := fun x => hst1 x _ (by cases v <;> decide)
  have key : ∀ x, sound v before (a1 :: a2 :: x) c = sound v before (a1 :: a2 :: [0 |> Char.ofNat]) c := by
    intro x
    have hL : soundL v (a1 :: a2 :: x) = soundL v (a1 :: a2 :: [0 |> Char.ofNat]) := by
      unfold soundL; simp [hv, hst x _ (show ∀ w ∈ [c!"y"], w.length ≤ 2 by decide), hst [Char.ofNat 0] _ (show ∀ w ∈ [c!"y"], w.length ≤ 2 by decide)]
    have hR : soundR v (a1 :: a2 :: x) = soundR v (a1 :: a2 :: [0 |> Char.ofNat]) := by
      unfold soundR; simp [hv, hst x _ (show ∀ w ∈ [c!"y"], w.length ≤ 2 by decide), hst [Char.ofNat 0] _ (show ∀ w ∈ [c!"y"], w.length ≤ 2 by decide)]
    have hW : soundW v (a1 :: a2 :: x) = soundW v (a1 :: a2 :: [0 |> Char.ofNat]) := by
      unfold soundW
      simp only [hv, hv1, List.drop_succ_cons, List.drop_zero, reduceCtorEq, and_false, if_false]
      rfl
    have hY : soundY v before (a1 :: a2 :: x) = soundY v before (a1 :: a2 :: [0 |> Char.ofNat]) := by
      unfold soundY; rfl
    have hG : soundGH v before (a1 :: a2 :: x) = soundGH v before (a1 :: a2 :: [0 |> Char.ofNat]) := by
      unfold soundGH
      simp only [hv1, List.drop_succ_cons, List.drop_zero]
    unfold sound
    rw [hL, hR, hW, hY, hG]
    simp only [reduceCtorEq, false_and, if_false]
    rfl
  rw [List.cons_append, List.cons_append, key, key rest]

theorem soundsFrom_length (v : Version) (after : Str) : ∀ before, (soundsFrom v before after).length = after.length := by
  induction after with
  | nil => intro before; rfl
  | cons c after ih => intro before; simp [soundsFrom, ih]

theorem soundsFrom_append (v : Version) (u after : Str) : ∀ before, ∃ L Q Q', soundsFrom v before after = L ++ Q ∧
    soundsFrom v before (after ++ u) = L ++ Q' ∧ Q.length ≤ 2 := by
  induction after with
  | nil => intro before; exact ⟨[], [], _, rfl, rfl, by simp⟩
  | cons c after ih =>
    intro before
    by_cases h : 2 ≤ after.length
    · obtain ⟨L, Q, Q', k1, k2, k3⟩ := ih (before ++ [c])
      refine ⟨sound v before after c :: L, Q, Q', ?_, ?_, k3⟩
      · simp only [soundsFrom, k1, List.cons_append]
      · simp only [List.cons_append, soundsFrom, sound_append v before after u c h, k2]
    · refine ⟨[], soundsFrom v before (c :: after), _, rfl, rfl, ?_⟩
      rw [soundsFrom_length]
      simp; omega

theorem once_length (l : List Sound) : (once l).length ≤ l.length := by
  fun_induction once l with
  | case1 a b rest h ih => simp at ih ⊢; omega
  | case2 a b rest h ih => simp at ih ⊢; omega
  | case3 => exact Nat.le_refl _

theorem once_append (L : List Sound) (a : Sound) : ∃ pre, ∀ Q, once (L ++ a :: Q) = pre ++ once (a :: Q) := by
  induction L with
  | nil => exact ⟨[], fun Q => rfl⟩
  | cons x L ih =>
    obtain ⟨pre, hp⟩ := ih
    cases L with
    | nil =>
      by_cases h : x = a ∧ x ∈ c!"STPKFMN".map Sound.letter
      · refine ⟨[], fun Q => ?_⟩
        simp only [List.cons_append, List.nil_append, once]
        rw [if_pos h]
      · refine ⟨[x], fun Q => ?_⟩
        simp only [List.cons_append, List.nil_append, once]
        rw [if_neg h]
    | cons y L =>
      by_cases h : x = y ∧ x ∈ c!"STPKFMN".map Sound.letter
      · refine ⟨pre, fun Q => ?_⟩
        simp only [List.cons_append, once]
        rw [if_pos h]
        exact hp Q
      · refine ⟨x :: pre, fun Q => ?_⟩
        simp only [List.cons_append, once]
        rw [if_neg h]
        exact congrArg _ (hp Q)

theorem once_head (Q : List Sound) : ∀ a, ∃ tail, once (a :: Q) = a :: tail ∧ tail.length ≤ Q.length := by
  induction Q with
  | nil => intro a; exact ⟨[], rfl, by simp⟩
  | cons b Q ih =>
    intro a
    obtain ⟨tail, h1, h2⟩ := ih b
    by_cases h : a = b ∧ a ∈ c!"STPKFMN".map Sound.letter
    · refine ⟨tail, ?_, by simp; omega⟩
      simp only [once]
      rw [if_pos h, h1, h.1]
    · refine ⟨b :: tail, ?_, by simp; omega⟩
      simp only [once]
      rw [if_neg h, h1]

/-- What is heard of a word and of a longer one. -/
theorem heard_append (v : Version) (w u : Str) : ∃ P Q R, once (soundsFrom v [] w) = P ++ Q ∧
    once (soundsFrom v [] (w ++ u)) = P ++ R ∧ Q.length ≤ 2 := by
  obtain ⟨L, Q, Q', k1, k2, k3⟩ := soundsFrom_append v u w []
  rw [k1, k2]
  obtain ⟨L', rfl⟩ : ∃ l, L = l.reverse := ⟨L.reverse, by simp⟩
  cases L' with
  | nil => exact ⟨[], _, _, rfl, rfl, Nat.le_trans (once_length _) (by simp; omega)⟩
  | cons a L' =>
    obtain ⟨pre, hp⟩ := once_append L'.reverse a
    obtain ⟨tail, h1, h2⟩ := once_head Q a
    obtain ⟨tail', h1', h2'⟩ := once_head Q' a
    refine ⟨pre ++ [a], tail, tail', ?_, ?_, Nat.le_trans h2 k3⟩
    · rw [List.append_assoc, List.singleton_append, ← h1, ← hp]; simp
    · rw [List.append_assoc, List.singleton_append, ← h1', ← hp]; simp

theorem written_length (l : List Sound) : (l.flatMap written).length ≤ l.length := by
  induction l with
  | nil => simp
  | cons x l ih =>
    rw [List.flatMap_cons, List.length_append, List.length_cons]
    have : (written x).length ≤ 1 := by cases x <;> simp [written]
    omega

theorem code1_append (w u : Str) : ∃ p q r, code .v1 w = p ++ q ∧ code .v1 (w ++ u) = p ++ r ∧ q.length ≤ 2 := by
  obtain ⟨P, Q, R, k1, k2, k3⟩ := heard_append .v1 w u
  refine ⟨P.flatMap written, Q.flatMap written, R.flatMap written, ?_, ?_, Nat.le_trans (written_length _) k3⟩
  · show (once _).flatMap written = _
    rw [k1, List.flatMap_append]
  · show (once _).flatMap written = _
    rw [k2, List.flatMap_append]

/-- A word without its final e. -/
def withoutE (w : Str) : Str := if w.getLast? = some 'e' then w.dropLast else w

theorem withoutE_append (w u : Str) : ∃ x, withoutE (w ++ u) = withoutE w ++ x := by
  have h1 : withoutE w <+: w := by
    unfold withoutE
    split
    · exact List.dropLast_prefix _
    · exact List.prefix_refl _
  cases hu : u with
  | nil => exact ⟨[], by simp⟩
  | cons c cs =>
    have h2 : w <+: withoutE (w ++ c :: cs) := by
      unfold withoutE
      split
      · rw [List.dropLast_append_of_ne_nil (by simp)]
        exact List.prefix_append _ _
      · exact List.prefix_append _ _
    obtain ⟨x, hx⟩ := h1.trans h2
    exact ⟨x, hx.symm⟩

theorem code2_append (w u : Str) : ∃ p q r, code .v2 w = p ++ q ∧ code .v2 (w ++ u) = p ++ r ∧ q.length ≤ 2 := by
  obtain ⟨x, hx⟩ := withoutE_append w u
  obtain ⟨P, Q, R, k1, k2, k3⟩ := heard_append .v2 (withoutE w) x
  rw [← hx] at k2
  have e : ∀ w, code .v2 w = ((once (soundsFrom .v2 [] (withoutE w))).filter (· ≠ .silent)).flatMap written ++
    if ((once (soundsFrom .v2 [] (withoutE w))).filter (· ≠ .silent)).getLast? = some .vowel then c!"A" else [] := fun w => rfl
  have hQ : (Q.filter (· ≠ .silent)).length ≤ 2 := Nat.le_trans (List.length_filter_le _ _) k3
  generalize hq : Q.filter (· ≠ .silent) = Q1 at hQ
  refine ⟨(P.filter (· ≠ .silent)).flatMap written, Q1.flatMap written ++
      (if (P.filter (· ≠ .silent) ++ Q1).getLast? = some .vowel then c!"A" else []), ?_, ?_, ?_, ?_⟩
  rotate_left
  · rw [e, k1, List.filter_append, hq, List.flatMap_append, List.append_assoc]
  · rw [e, k2, List.filter_append, List.flatMap_append, List.append_assoc]
  · rw [List.length_append]
    obtain ⟨l, rfl⟩ : ∃ l, Q1 = l.reverse := ⟨Q1.reverse, by simp⟩
    cases l with
    | nil => split <;> simp
    | cons a l =>
      have := written_length l.reverse
      simp only [List.length_reverse, List.length_cons] at hQ this
      simp only [List.reverse_cons, List.flatMap_append, List.length_append]
      split
      · rename_i h
        rw [← List.append_assoc, List.getLast?_append] at h
        simp at h
        subst h
        have h0 : ([Sound.vowel].flatMap written).length = 0 := rfl
        rw [h0]
        simp only [List.length_cons, List.length_nil]; omega
      · have h1 : (written a).length ≤ 1 := by cases a <;> simp [written]
        simp only [List.flatMap_cons, List.flatMap_nil, List.append_nil, List.length_nil]; omega

theorem cutOrFill_append {n : Nat} {p q r : Str} (hq : q.length ≤ 2) : ∃ (p' q' r' : Str) (k : Nat),
    cutOrFill n (p ++ q) = p' ++ q' ++ List.replicate k '1' ∧ cutOrFill n (p ++ r) = p' ++ r' ∧ q'.length ≤ 2 := by
  unfold cutOrFill
  refine ⟨p.take n, q.take (n - p.length), (r ++ List.replicate n '1').take (n - p.length), n - p.length - q.length, ?_, ?_, ?_⟩
  · rw [List.append_assoc p, List.take_append, List.take_append, List.take_replicate, List.append_assoc]
    congr 3
    omega
  · rw [List.append_assoc p, List.take_append]
  · rw [List.length_take]; omega

end CavBeginning

open CavBeginning

/-- C99: letters appended to a word change at most the last two characters of its Caverphone codes before the ones that
fill them up; everything before is the beginning of the code of the longer word. -/
theorem caverphone_extends (U : Unicode) (s t : Str) (hs : AsciiStr s) (ht : AsciiStr t) :
    (∃ (p q r : Str) (k : Nat), Caverphone1.encode U s = .ok (p ++ q ++ List.replicate k '1') ∧
      Caverphone1.encode U (s ++ t) = .ok (p ++ r) ∧ q.length ≤ 2) ∧
    ∃ (p q r : Str) (k : Nat), Caverphone2.encode U s = .ok (p ++ q ++ List.replicate k '1') ∧
      Caverphone2.encode U (s ++ t) = .ok (p ++ r) ∧ q.length ≤ 2 := by
  have hst : AsciiStr (s ++ t) := fun c hc => (List.mem_append.mp hc).elim (hs c) (ht c)
  obtain ⟨a1, a2⟩ := caverphone_spec_ascii U s hs
  obtain ⟨b1, b2⟩ := caverphone_spec_ascii U (s ++ t) hst
  have e : (asciiLetters (s ++ t)).map asciiLower = (asciiLetters s).map asciiLower ++ (asciiLetters t).map asciiLower := by
    simp [asciiLetters]
  rw [e] at b1 b2
  rw [a1, a2, b1, b2]
  constructor
  · obtain ⟨p, q, r, k1, k2, k3⟩ := code1_append ((asciiLetters s).map asciiLower) ((asciiLetters t).map asciiLower)
    rw [k1, k2]
    obtain ⟨p', q', r', k, j1, j2, j3⟩ := cutOrFill_append (n := 6) (p := p) (r := r) k3
    exact ⟨p', q', r', k, by rw [j1], by rw [j2], j3⟩
  · obtain ⟨p, q, r, k1, k2, k3⟩ := code2_append ((asciiLetters s).map asciiLower) ((asciiLetters t).map asciiLower)
    rw [k1, k2]
    obtain ⟨p', q', r', k, j1, j2, j3⟩ := cutOrFill_append (n := 10) (p := p) (r := r) k3
    exact ⟨p', q', r', k, by rw [j1], by rw [j2], j3⟩

/-- C99, sharp and not vacuous: two characters can change. -/
example : Caverphone1.encode .latin1 c!"patc" = .ok c!"PTK111" ∧ Caverphone1.encode .latin1 c!"patch" = .ok c!"PK1111" ∧
    Caverphone2.encode .latin1 c!"Patc" = .ok c!"PTK1111111" ∧
    Caverphone2.encode .latin1 c!"Patchworkshop" = .ok c!"PKWKSP1111" := by decide +kernel

end Verif.Props
