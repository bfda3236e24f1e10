import Verif.Proofs.Interchange
/-!
# Letters that may be written twice (C101)
-/

set_option linter.unusedSimpArgs false
set_option linter.unusedVariables false

namespace Verif.Props
open Spec
namespace DoubledProofs
open InterchangeProofs

/-! ## Caverphone -/

section
open Spec.Caverphone

/-- Letters that may be doubled, with the condition on what stands before. -/
def cavAgain (v : Version) (x : Str) (c : Char) : Prop :=
  match v with
  | .v1 => c ∈ c!"fjklmqsvwxyz" ∨ (x ≠ [] ∧ c = 'r')
  | .v2 => c ∈ c!"fklmqsvxz"

theorem cavAgain_cases {v : Version} {x : Str} {c : Char} (h : cavAgain v x c) :
    c ∈ c!"fjklmqsvwxyz" ∨ (x ≠ [] ∧ c = 'r') := by
  cases v with
  | v1 => exact h
  | v2 =>
    left
    have : ∀ c ∈ c!"fklmqsvxz", c ∈ c!"fjklmqsvwxyz" := by decide
    exact this c h

theorem cavAgain_ne {v : Version} {x : Str} {c : Char} (h : cavAgain v x c) :
    c ≠ 'i' ∧ c ≠ 'c' ∧ c ≠ 'h' ∧ c ≠ 'g' ∧ c ≠ 'e' ∧ (vocal v).contains c = false ∧ (v = .v2 → c ≠ 'w' ∧ c ≠ 'r') := by
  cases v with
  | v1 =>
    have : ∀ c ∈ c!"fjklmqsvwxyzr", c ≠ 'i' ∧ c ≠ 'c' ∧ c ≠ 'h' ∧ c ≠ 'g' ∧ c ≠ 'e' ∧ (vocal .v1).contains c = false ∧
      (Version.v1 = .v2 → c ≠ 'w' ∧ c ≠ 'r') := by decide
    rcases cavAgain_cases h with h | h
    · apply this
      simp only [List.mem_cons] at h ⊢
      grind
    · exact this c (by rw [h.2]; decide)
  | v2 =>
    have : ∀ c ∈ c!"fklmqsvxz", c ≠ 'i' ∧ c ≠ 'c' ∧ c ≠ 'h' ∧ c ≠ 'g' ∧ c ≠ 'e' ∧ (vocal .v2).contains c = false ∧
      (Version.v2 = .v2 → c ≠ 'w' ∧ c ≠ 'r') := by decide
    exact this c h

theorem isPrefix_again {w : Str} {c : Char} (hw : c ∉ w.dropLast) (x y : Str) :
    w.isPrefixOf (x ++ c :: c :: y) = w.isPrefixOf (x ++ c :: y) := by
  induction x generalizing w with
  | nil =>
    match w, hw with
    | [], _ => simp [List.isPrefixOf]
    | [d], _ => simp [List.isPrefixOf]
    | d :: e :: w, hw =>
      have : (d == c) = false := by
        rw [beq_eq_false_iff_ne]
        intro h
        apply hw
        simp [List.dropLast, h]
      simp [List.isPrefixOf, this]
  | cons a x ih =>
    match w, hw with
    | [], _ => simp [List.isPrefixOf]
    | [d], _ => simp [List.isPrefixOf]
    | d :: e :: w, hw =>
      have : c ∉ (e :: w).dropLast := fun h => hw (by simp [List.dropLast] at h ⊢; exact .inr h)
      simp only [List.cons_append, List.isPrefixOf, ← ih this]

theorem starts_again {c : Char} (x y : Str) (words : List Str) (hw : ∀ w ∈ words, c ∉ w.dropLast) :
    starts (x ++ c :: c :: y) words = starts (x ++ c :: y) words := by
  unfold starts
  induction words with
  | nil => rfl
  | cons w words ih =>
    simp only [List.any_cons, isPrefix_again (hw w (by simp)), ih fun w h => hw w (by simp [h])]

theorem vowelAhead_again (v : Version) {c : Char} (x y : Str) :
    vowelAhead v (x ++ c :: c :: y) = vowelAhead v (x ++ c :: y) := by
  unfold vowelAhead
  apply starts_again
  intro w hw
  obtain ⟨d, _, rfl⟩ := List.mem_map.mp hw
  simp

/-- The sounds of the letters before. -/
theorem sound_before {v : Version} {x0 : Str} {c : Char} (h : cavAgain v x0 c) (b x y : Str) (d : Char) :
    sound v b (x ++ c :: c :: y) d = sound v b (x ++ c :: y) d := by
  obtain ⟨n1, n2, n3, n4, n5, n6, n7⟩ := cavAgain_ne h
  have s1 : ∀ words : List Str, (∀ w ∈ words, w.length ≤ 1) → starts (x ++ c :: c :: y) words = starts (x ++ c :: y) words := by
    intro words hw
    apply starts_again
    intro w h
    have := hw w h
    match w, this with
    | [], _ => simp
    | [a], _ => simp
  have s2 : ∀ (p q : Char) , p ≠ c → starts (x ++ c :: c :: y) [[p, q]] = starts (x ++ c :: y) [[p, q]] := by
    intro p q hp
    apply starts_again
    intro w h
    simp only [List.mem_singleton] at h
    subst h
    simp [List.dropLast, Ne.symm hp]
  have s3 : starts (x ++ c :: c :: y) [c!"io", c!"ia"] = starts (x ++ c :: y) [c!"io", c!"ia"] := by
    apply starts_again
    intro w h
    simp only [List.mem_cons, List.not_mem_nil, or_false] at h
    rcases h with rfl | rfl <;> simp [List.dropLast, n1]
  have va := vowelAhead_again v (c := c) x y
  have nil1 : (x ++ c :: c :: y = []) = False := by simp
  have nil2 : (x ++ c :: y = []) = False := by simp
  have vh : starts (x ++ c :: y) [c!"h"] = true → vowelAhead v ((x ++ c :: c :: y).drop 1) = vowelAhead v ((x ++ c :: y).drop 1) := by
    intro hs
    cases x with
    | nil =>
      simp [starts, List.isPrefixOf] at hs
      exact absurd hs.symm n3
    | cons a x => exact vowelAhead_again v x y
  have ex : ∀ k : Char, v = .v2 → (k = 'w' ∨ k = 'r') → ((x ++ c :: c :: y = [k]) = False ∧ (x ++ c :: y = [k]) = False) := by
    intro k hv hk
    have := n7 hv
    constructor
    · simp only [eq_iff_iff, iff_false]
      intro h
      have := congrArg List.length h
      simp at this
      omega
    · simp only [eq_iff_iff, iff_false]
      intro h
      cases x with
      | nil =>
        simp at h
        rcases hk with rfl | rfl
        · exact this.1 h.1
        · exact this.2 h.1
      | cons a x =>
        have := congrArg List.length h
        simp at this
  unfold sound
  have eGH : starts (x ++ c :: y) [c!"h"] = true → soundGH v b (x ++ c :: c :: y) = soundGH v b (x ++ c :: y) := by
    intro hs
    unfold soundGH
    rw [vh hs]
  have eW : soundW v (x ++ c :: c :: y) = soundW v (x ++ c :: y) := by
    unfold soundW
    rw [va, s1 [c!"y"] (by decide), s1 [c!"h"] (by decide), s2 'h' 'y' (Ne.symm n3)]
    simp only [nil1, nil2]
    cases hs : starts (x ++ c :: y) [c!"h"] with
    | false => simp
    | true => rw [vh hs]
  have eR : soundR v (x ++ c :: c :: y) = soundR v (x ++ c :: y) := by
    unfold soundR
    rw [va, s1 [c!"y"] (by decide)]
    simp only [nil1, nil2]
    cases v with
    | v1 => simp
    | v2 => simp only [(ex 'w' rfl (.inl rfl)).1, (ex 'w' rfl (.inl rfl)).2]
  have eL : soundL v (x ++ c :: c :: y) = soundL v (x ++ c :: y) := by
    unfold soundL
    rw [va, s1 [c!"y"] (by decide)]
    simp only [nil1, nil2]
    cases v with
    | v1 => simp
    | v2 => simp only [(ex 'w' rfl (.inl rfl)).1, (ex 'w' rfl (.inl rfl)).2, (ex 'r' rfl (.inr rfl)).1, (ex 'r' rfl (.inr rfl)).2]
  have eY : soundY v b (x ++ c :: c :: y) = soundY v b (x ++ c :: y) := by
    unfold soundY
    rw [s1 [c!"a", c!"e", c!"i", c!"o", c!"u"] (by decide)]
  rw [eW, eR, eL, eY, s1 [c!"q"] (by decide), s1 [c!"i", c!"e", c!"y"] (by decide), s1 [c!"g"] (by decide),
    s1 [c!"n"] (by decide), s1 [c!"h"] (by decide), s2 'c' 'h' (Ne.symm n2), s3]
  simp only [nil1, nil2]
  cases hs : starts (x ++ c :: y) [c!"h"] with
  | false => rfl
  | true => rw [eGH hs]

/-- The words after which gh is special never contain a letter that may be doubled. -/
theorem tough_again {v : Version} {x : Str} {c : Char} (h : cavAgain v x c) (z : Str) :
    (tough v).contains (x ++ c :: z) = false ∧ ((tough v).map (· ++ c!"g")).contains (x ++ c :: z) = false := by
  have key : ∀ words : List Str, (∀ w ∈ words, ∀ c ∈ c!"fklmqsvxz", c ∉ w) →
      (v = .v1 → ∀ w ∈ words, (∀ c ∈ c!"fjklmqsvwxyz", c ∉ w) ∧ 'r' ∉ w.drop 1) → words.contains (x ++ c :: z) = false := by
    intro words h2 h1
    rw [Bool.eq_false_iff]
    intro hm
    rw [List.contains_iff_mem] at hm
    cases v with
    | v2 => exact h2 _ hm c h (by simp)
    | v1 =>
      rcases h with h | ⟨hx, rfl⟩
      · exact (h1 rfl _ hm).1 c h (by simp)
      · refine (h1 rfl _ hm).2 ?_
        cases x with
        | nil => exact absurd rfl hx
        | cons a x => simp
  constructor
  · exact key _ (by cases v <;> decide) (by intro hv; subst hv; decide)
  · exact key _ (by cases v <;> decide) (by intro hv; subst hv; decide)

theorem hardAfter_other (v : Version) (x y z : Char) (w : Str) (hn : ¬ (y = 'h' ∧ z = 'g')) :
    hardAfter v (x :: y :: z :: w) = (vocal v).contains x := by
  rw [hardAfter]
  intro w' h1 h2
  simp only [List.cons.injEq] at h2
  exact hn ⟨h1, h2.1⟩

theorem hardAfter_two (v : Version) (x y : Char) : hardAfter v [x, y] = (vocal v).contains x := by
  rw [hardAfter]
  intro w' h1 h2
  cases h2

theorem hardAfter_again {v : Version} {q : Str} {c : Char} (h : cavAgain v q.reverse c) (n : Nat) : ∀ p : Str, p.length ≤ n →
    hardAfter v (p ++ c :: c :: q) = hardAfter v (p ++ c :: q) := by
  obtain ⟨n1, n2, n3, n4, n5, n6, n7⟩ := cavAgain_ne h
  have short : ∀ p : Str, p.length ≤ 2 → hardAfter v (p ++ c :: c :: q) = hardAfter v (p ++ c :: q) := by
    intro p hp
    match p, hp with
    | [], _ =>
      have e1 : hardAfter v (c :: c :: q) = false := by
        cases q with
        | nil => rw [hardAfter_two, n6]
        | cons d q => rw [hardAfter_other _ _ _ _ _ (fun h => n3 h.1), n6]
      have e2 : hardAfter v (c :: q) = false := by
        match q with
        | [] => rfl
        | [d] => rw [hardAfter_two, n6]
        | d :: e :: q =>
          by_cases hd : d = 'h' ∧ e = 'g'
          · obtain ⟨rfl, rfl⟩ := hd
            simp only [hardAfter, n6, Bool.false_and]
          · rw [hardAfter_other _ _ _ _ _ hd, n6]
      show hardAfter v (c :: c :: q) = hardAfter v (c :: q)
      rw [e1, e2]
    | [a], _ =>
      show hardAfter v (a :: c :: c :: q) = hardAfter v (a :: c :: q)
      rw [hardAfter_other _ _ _ _ _ (fun h => n3 h.1)]
      cases q with
      | nil => rw [hardAfter_two]
      | cons d q => rw [hardAfter_other _ _ _ _ _ (fun h => n3 h.1)]
    | [a, b], _ =>
      show hardAfter v (a :: b :: c :: c :: q) = hardAfter v (a :: b :: c :: q)
      rw [hardAfter_other _ _ _ _ _ (fun h => n4 h.2), hardAfter_other _ _ _ _ _ (fun h => n4 h.2)]
  induction n with
  | zero => intro p hp; exact short p (by omega)
  | succ n ih =>
    intro p hp
    match p, hp with
    | [], _ => exact short _ (by simp)
    | [a], _ => exact short _ (by simp)
    | [a, b], _ => exact short _ (by simp)
    | a :: b :: d :: p, hp =>
      simp only [List.length_cons] at hp
      simp only [List.cons_append]
      by_cases hd : b = 'h' ∧ d = 'g'
      · obtain ⟨rfl, rfl⟩ := hd
        have t1 := (tough_again h (c :: p.reverse)).1
        have t2 := (tough_again h p.reverse).1
        have r1 : (p ++ c :: c :: q).reverse = q.reverse ++ c :: c :: p.reverse := by simp
        have r2 : (p ++ c :: q).reverse = q.reverse ++ c :: p.reverse := by simp
        simp only [hardAfter, ih p (by omega), r1, r2, t1, t2]
      · rw [hardAfter_other _ _ _ _ _ hd, hardAfter_other _ _ _ _ _ hd]

/-- The sounds of the letters after. -/
theorem sound_after {v : Version} {x : Str} {c : Char} (h : cavAgain v x c) (z after : Str) (d : Char) :
    sound v (x ++ c :: c :: z) after d = sound v (x ++ c :: z) after d := by
  have nil1 : (x ++ c :: c :: z = []) = False := by simp
  have nil2 : (x ++ c :: z = []) = False := by simp
  have gl : (x ++ c :: c :: z).getLast? = (x ++ c :: z).getLast? := by
    cases z <;> simp [List.getLast?_append, List.getLast?_cons]
  have t1 := tough_again h (c :: z)
  have t2 := tough_again h z
  have hh : hardAfter v (x ++ c :: c :: z).reverse = hardAfter v (x ++ c :: z).reverse := by
    have e1 : (x ++ c :: c :: z).reverse = z.reverse ++ c :: c :: x.reverse := by simp
    have e2 : (x ++ c :: z).reverse = z.reverse ++ c :: x.reverse := by simp
    rw [e1, e2]
    exact hardAfter_again (by rw [List.reverse_reverse]; exact h) _ _ (Nat.le_refl _)
  have eY : soundY v (x ++ c :: c :: z) after = soundY v (x ++ c :: z) after := by
    unfold soundY
    simp only [nil1, nil2]
  have eGH : soundGH v (x ++ c :: c :: z) after = soundGH v (x ++ c :: z) after := by
    unfold soundGH
    rw [hh, t1.1, t2.1]
  have nb1 : decide (x ++ c :: c :: z = []) = decide (x ++ c :: z = []) := by simp
  unfold sound
  rw [eY, eGH, gl, t1.2, t2.2]
  simp only [nil1, nil2]

theorem sounds_after {v : Version} {x : Str} {c : Char} (h : cavAgain v x c) (y : Str) : ∀ z : Str,
    soundsFrom v (x ++ c :: c :: z) y = soundsFrom v (x ++ c :: z) y := by
  induction y with
  | nil => intro z; rfl
  | cons d y ih =>
    intro z
    have := ih (z ++ [d])
    simp only [soundsFrom, sound_after h]
    congr 1
    simpa using this

/-- The sounds of all letters, with one more for the doubled letter. -/
theorem sounds_again {v : Version} {x : Str} {c : Char} (h : cavAgain v x c) (y : Str) : ∃ P Q,
    soundsFrom v [] (x ++ c :: c :: y) = P ++ sound v x (c :: y) c :: sound v (x ++ [c]) y c :: Q ∧
    soundsFrom v [] (x ++ c :: y) = P ++ sound v x y c :: Q := by
  have gen : ∀ t b : Str, b ++ t = x → ∃ P Q,
      soundsFrom v b (t ++ c :: c :: y) = P ++ sound v x (c :: y) c :: sound v (x ++ [c]) y c :: Q ∧
      soundsFrom v b (t ++ c :: y) = P ++ sound v x y c :: Q := by
    intro t
    induction t with
    | nil =>
      intro b hb
      rw [List.append_nil] at hb
      subst hb
      refine ⟨[], soundsFrom v (b ++ [c]) y, ?_, rfl⟩
      have := sounds_after h y []
      simp only [List.nil_append, soundsFrom, List.append_assoc, List.cons_append]
      rw [this]
    | cons a t ih =>
      intro b hb
      obtain ⟨P, Q, h1, h2⟩ := ih (b ++ [a]) (by simpa using hb)
      refine ⟨sound v b (t ++ c :: y) a :: P, Q, ?_, ?_⟩
      · simp only [List.cons_append, soundsFrom, h1, sound_before h]
      · simp only [List.cons_append, soundsFrom, h2]
  exact gen x [] rfl

/-- A letter that may be doubled is heard twice as the same consonant, or the first one is silent. -/
theorem sound_twice {v : Version} {x : Str} {c : Char} (h : cavAgain v x c) (y : Str) :
    sound v (x ++ [c]) y c = sound v x y c ∧
    ((sound v x (c :: y) c = sound v x y c ∧ sound v x y c ∈ (c!"STPKFMN").map Sound.letter) ∨
     (sound v x (c :: y) c = .silent ∧ sound v x y c ∉ (c!"STPKFMN").map Sound.letter)) := by
  have simple : ∀ k : Char, (∀ b a : Str, sound v b a c = .letter k) → k ∈ c!"STPKFMN" →
      sound v (x ++ [c]) y c = sound v x y c ∧
    ((sound v x (c :: y) c = sound v x y c ∧ sound v x y c ∈ (c!"STPKFMN").map Sound.letter) ∨
     (sound v x (c :: y) c = .silent ∧ sound v x y c ∉ (c!"STPKFMN").map Sound.letter)) := by
    intro k hk hm
    rw [hk, hk, hk]
    exact ⟨rfl, .inl ⟨rfl, List.mem_map.mpr ⟨k, hm, rfl⟩⟩⟩
  have other : ∀ (f : Str → Sound), (∀ b a : Str, sound v b a c = f a) → f (c :: y) = .silent →
      (∀ a, f a ∉ (c!"STPKFMN").map Sound.letter) →
      sound v (x ++ [c]) y c = sound v x y c ∧
    ((sound v x (c :: y) c = sound v x y c ∧ sound v x y c ∈ (c!"STPKFMN").map Sound.letter) ∨
     (sound v x (c :: y) c = .silent ∧ sound v x y c ∉ (c!"STPKFMN").map Sound.letter)) := by
    intro f h1 h2 h3
    rw [h1, h1, h1]
    exact ⟨rfl, .inr ⟨h2, h3 _⟩⟩
  have hL : c = 'l' → sound v (x ++ [c]) y c = sound v x y c ∧
    ((sound v x (c :: y) c = sound v x y c ∧ sound v x y c ∈ (c!"STPKFMN").map Sound.letter) ∨
     (sound v x (c :: y) c = .silent ∧ sound v x y c ∉ (c!"STPKFMN").map Sound.letter)) := by
    rintro rfl
    refine other (soundL v) (fun _ _ => rfl) ?_ ?_
    · cases v <;> simp [soundL, vowelAhead, vocal, starts, List.isPrefixOf]
    · intro a
      unfold soundL
      repeat' split
      all_goals decide
  cases v with
  | v2 =>
    have h : c ∈ c!"fklmqsvxz" := h
    simp only [List.mem_cons, List.not_mem_nil, or_false] at h
    rcases h with rfl | rfl | rfl | rfl | rfl | rfl | rfl | rfl | rfl
    · exact simple 'F' (fun _ _ => rfl) (by decide)
    · exact simple 'K' (fun _ _ => rfl) (by decide)
    · exact hL rfl
    · exact simple 'M' (fun _ _ => rfl) (by decide)
    · exact simple 'K' (fun _ _ => rfl) (by decide)
    · exact simple 'S' (fun _ _ => rfl) (by decide)
    · exact simple 'F' (fun _ _ => rfl) (by decide)
    · exact simple 'K' (fun _ _ => rfl) (by decide)
    · exact simple 'S' (fun _ _ => rfl) (by decide)
  | v1 =>
    have hY : ∀ c, (∀ b a : Str, sound .v1 b a c = soundY .v1 b a) → c ∈ c!"jy" →
        sound .v1 (x ++ [c]) y c = sound .v1 x y c ∧
        ((sound .v1 x (c :: y) c = sound .v1 x y c ∧ sound .v1 x y c ∈ (c!"STPKFMN").map Sound.letter) ∨
         (sound .v1 x (c :: y) c = .silent ∧ sound .v1 x y c ∉ (c!"STPKFMN").map Sound.letter)) := by
      intro c hc hm
      rw [hc, hc, hc]
      refine ⟨rfl, .inr ⟨?_, ?_⟩⟩
      · simp only [List.mem_cons, List.not_mem_nil, or_false] at hm
        rcases hm with rfl | rfl <;> simp [soundY, starts, List.isPrefixOf]
      · unfold soundY
        dsimp only
        split <;> decide
    rcases h with h | ⟨_, rfl⟩
    · simp only [List.mem_cons, List.not_mem_nil, or_false] at h
      rcases h with rfl | rfl | rfl | rfl | rfl | rfl | rfl | rfl | rfl | rfl | rfl | rfl
      · exact simple 'F' (fun _ _ => rfl) (by decide)
      · exact hY _ (fun _ _ => rfl) (by decide)
      · exact simple 'K' (fun _ _ => rfl) (by decide)
      · exact hL rfl
      · exact simple 'M' (fun _ _ => rfl) (by decide)
      · exact simple 'K' (fun _ _ => rfl) (by decide)
      · exact simple 'S' (fun _ _ => rfl) (by decide)
      · exact simple 'F' (fun _ _ => rfl) (by decide)
      · refine other (soundW .v1) (fun _ _ => rfl) ?_ ?_
        · simp [soundW, vowelAhead, vocal, starts, List.isPrefixOf]
        · intro a
          unfold soundW
          repeat' split
          all_goals decide
      · exact simple 'K' (fun _ _ => rfl) (by decide)
      · exact hY _ (fun _ _ => rfl) (by decide)
      · exact simple 'S' (fun _ _ => rfl) (by decide)
    · refine other (soundR .v1) (fun _ _ => rfl) ?_ ?_
      · simp [soundR, vowelAhead, vocal, starts, List.isPrefixOf]
      · intro a
        unfold soundR
        repeat' split
        all_goals decide

theorem once_same (s : Sound) (hs : s ∈ (c!"STPKFMN").map Sound.letter) (P Q : List Sound) :
    once (P ++ s :: s :: Q) = once (P ++ s :: Q) := by
  induction P with
  | nil =>
    show once (s :: s :: Q) = once (s :: Q)
    rw [once, if_pos ⟨rfl, hs⟩]
  | cons a P ih =>
    cases P with
    | nil =>
      show once (a :: s :: s :: Q) = once (a :: s :: Q)
      rw [once, once, if_pos (c := s = s ∧ _) ⟨rfl, hs⟩]
      conv => rhs; rw [once]
    | cons b P =>
      simp only [List.cons_append] at ih ⊢
      rw [once, ih]
      conv => rhs; rw [once]

theorem once_silent (s : Sound) (hs : s ∉ (c!"STPKFMN").map Sound.letter) (P Q : List Sound) :
    (once (P ++ .silent :: s :: Q)).filter (· ≠ .silent) = (once (P ++ s :: Q)).filter (· ≠ .silent) := by
  have e0 : once (.silent :: s :: Q) = .silent :: once (s :: Q) := by
    rw [once, if_neg]
    rintro ⟨_, h⟩
    revert h; decide
  induction P with
  | nil =>
    show (once (.silent :: s :: Q)).filter _ = _
    rw [e0]
    simp
  | cons a P ih =>
    cases P with
    | nil =>
      show (once (a :: .silent :: s :: Q)).filter _ = (once (a :: s :: Q)).filter _
      have e1 : once (a :: .silent :: s :: Q) = a :: .silent :: once (s :: Q) := by
        rw [once, if_neg, e0]
        rintro ⟨rfl, h⟩
        revert h; decide
      have e2 : once (a :: s :: Q) = a :: once (s :: Q) := by
        rw [once, if_neg]
        rintro ⟨rfl, h⟩
        exact hs h
      rw [e1, e2]
      simp [List.filter_cons]
    | cons b P =>
      simp only [List.cons_append] at ih ⊢
      rw [once]
      conv => rhs; rw [once]
      split
      · exact ih
      · rw [List.filter_cons, List.filter_cons, ih]

theorem written_filter (l : List Sound) : (l.filter (· ≠ .silent)).flatMap written = l.flatMap written := by
  induction l with
  | nil => rfl
  | cons a l ih =>
    rw [List.filter_cons]
    by_cases h : a = .silent
    · subst h; simpa [Caverphone.written] using ih
    · simp only [ne_eq, h, not_false_eq_true, decide_true, if_true, List.flatMap_cons, ih]

theorem heard_again {v : Version} {x : Str} {c : Char} (h : cavAgain v x c) (y : Str) :
    (once (soundsFrom v [] (x ++ c :: c :: y))).filter (· ≠ .silent) =
      (once (soundsFrom v [] (x ++ c :: y))).filter (· ≠ .silent) := by
  obtain ⟨P, Q, h1, h2⟩ := sounds_again h y
  obtain ⟨t1, t2⟩ := sound_twice h y
  rw [h1, h2, t1]
  rcases t2 with ⟨t2, t3⟩ | ⟨t2, t3⟩
  · rw [t2, once_same _ t3]
  · rw [t2]
    exact once_silent _ t3 P Q

theorem code_again {v : Version} {x : Str} {c : Char} (h : cavAgain v x c) (y : Str) :
    code v (x ++ c :: c :: y) = code v (x ++ c :: y) := by
  cases v with
  | v1 =>
    show (once (soundsFrom .v1 [] (x ++ c :: c :: y))).flatMap Caverphone.written =
      (once (soundsFrom .v1 [] (x ++ c :: y))).flatMap Caverphone.written
    rw [← written_filter, heard_again h, written_filter]
  | v2 =>
    have he := (cavAgain_ne h).2.2.2.2.1
    have cut : ∀ z : Str, (if (z ++ c :: y).getLast? = some 'e' then (z ++ c :: y).dropLast else z ++ c :: y) =
        z ++ c :: (if y.getLast? = some 'e' then y.dropLast else y) := by
      intro z
      cases y with
      | nil => simp [List.getLast?_append, List.getLast?_cons, he]
      | cons d y =>
        have e1 : (z ++ c :: d :: y).getLast? = (d :: y).getLast? := by
          simp [List.getLast?_append, List.getLast?_cons]
        have e2 : (z ++ c :: d :: y).dropLast = z ++ c :: (d :: y).dropLast := by
          rw [List.dropLast_append_of_ne_nil (by simp)]
          rfl
        rw [e1, e2]
        split <;> rfl
    unfold code
    have c1 := cut (x ++ [c])
    have c2 := cut x
    simp only [List.append_assoc, List.cons_append, List.nil_append] at c1
    simp only [c1, c2, heard_again h]

end

theorem cav_doubled (U : Unicode) (u v : Str) (hu : withoutSigma u) (hv : withoutSigma v) {c : Char} (hc : c ∈ allLetters) :
    (c ∈ c!"FJKLMQSVWXYZ" ∨ (hasLetter u ∧ c = 'R') → Caverphone1.encode U (u ++ c :: c :: v) = Caverphone1.encode U (u ++ c :: v)) ∧
    (c ∈ c!"FKLMQSVXZ" → Caverphone2.encode U (u ++ c :: c :: v) = Caverphone2.encode U (u ++ c :: v)) := by
  have hs : ∀ {a : Char}, a ∈ allLetters → ∀ {w : Str}, withoutSigma w → withoutSigma (a :: w) := by
    intro a ha w hw h
    rcases List.mem_cons.mp h with h | h
    · have : 'Σ' ∉ allLetters := by decide
      exact this (h ▸ ha)
    · exact hw h
  have e2 := cav_word U u v hu hv hc
  have e1 := cav_word U u (c :: v) hu (hs hc hv) hc
  have e3 : ((c :: v).flatMap U.toLower).filter U.isLowercase = asciiLower c :: (v.flatMap U.toLower).filter U.isLowercase := by
    have h1 : isAscii (asciiLower c) = true ∧ isAsciiLower (asciiLower c) = true := by
      have : ∀ a ∈ allLetters, isAscii (asciiLower a) = true ∧ isAsciiLower (asciiLower a) = true := by decide
      exact this c hc
    rw [List.flatMap_cons, U.toLower_ascii c (cap_ascii hc), List.filter_append, List.filter_cons, U.isLowercase_ascii _ h1.1, h1.2]
    rfl
  rw [e3] at e1
  constructor
  · intro h
    rw [caverphone1_spec, caverphone1_spec, e1, e2, code_again]
    rcases h with h | ⟨⟨a, ha, hl⟩, rfl⟩
    · left
      have : ∀ c ∈ c!"FJKLMQSVWXYZ", asciiLower c ∈ c!"fjklmqsvwxyz" := by decide
      exact this c h
    · right
      refine ⟨?_, by decide⟩
      have haa : isAscii a = true := by
        unfold isAsciiAlpha isAsciiLower isAsciiUpper at hl
        unfold isAscii
        simp only [Bool.or_eq_true, Bool.and_eq_true, decide_eq_true_eq] at hl
        simp only [decide_eq_true_eq]
        omega
      have fact : ∀ c, isAscii c = true → isAsciiAlpha c = true → isAscii (asciiLower c) = true ∧ isAsciiLower (asciiLower c) = true := by
        apply forall_ascii; decide +kernel
      obtain ⟨f1, f2⟩ := fact a haa hl
      apply List.ne_nil_of_mem (a := asciiLower a)
      rw [List.mem_filter, U.isLowercase_ascii _ f1]
      exact ⟨List.mem_flatMap.mpr ⟨a, ha, by rw [U.toLower_ascii a haa]; simp⟩, f2⟩
  · intro h
    rw [caverphone2_spec, caverphone2_spec, e1, e2, code_again]
    have : ∀ c ∈ c!"FKLMQSVXZ", asciiLower c ∈ c!"fklmqsvxz" := by decide
    exact this c h

end DoubledProofs
end Verif.Props
