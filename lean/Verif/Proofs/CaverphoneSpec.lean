import Verif.Proofs.Caverphone
import Verif.Spec.Caverphone
/-!
# Caverphone: the replacements as substitutions of single letters

A text is read as a function from positions to letters.  Every replacement before the compaction exchanges letters
that are recognised by what surrounds them (`Sub`).
-/

set_option linter.unusedSimpArgs false

namespace Verif.CavSpec

/-- The letter at a position. -/
def g (t : Str) (i : Int) : Option Char := if i < 0 then none else t[i.toNat]?

theorem g_nat (t : Str) (n : Nat) : g t n = t[n]? := by
  unfold g; rw [if_neg (by omega)]; rfl

theorem g_neg (t : Str) {i : Int} (h : i < 0) : g t i = none := by
  unfold g; rw [if_pos h]

theorem g_succ (t : Str) (n : Nat) : g t ((n : Int) + 1) = t[n + 1]? := g_nat t (n + 1)

/-- Every `p` whose position satisfies `ctx` becomes `r`. -/
def Sub (f f' : Int → Option Char) (p r : Char) (ctx : Int → Prop) : Prop :=
  ∀ i, f' i = some r ∧ f i = some p ∧ ctx i ∨ f' i = f i ∧ ¬ (f i = some p ∧ ctx i)

namespace Sub
variable {f f' : Int → Option Char} {p r : Char} {ctx : Int → Prop} (h : Sub f f' p r ctx)
include h

theorem other {x : Char} (hp : x ≠ p) (hr : x ≠ r) (i : Int) : f' i = some x ↔ f i = some x := by
  rcases h i with ⟨h1, h2, _⟩ | ⟨h1, _⟩
  · rw [h1, h2]; simp [Ne.symm hp, Ne.symm hr]
  · rw [h1]

theorem old (hpr : p ≠ r) (i : Int) : f' i = some p ↔ f i = some p ∧ ¬ ctx i := by
  rcases h i with ⟨h1, h2, h3⟩ | ⟨h1, h2⟩
  · rw [h1, h2]; simp [Ne.symm hpr, h3]
  · rw [h1]; constructor
    · exact fun e => ⟨e, fun c => h2 ⟨e, c⟩⟩
    · exact fun e => e.1

theorem new (_ : p ≠ r) (i : Int) : f' i = some r ↔ f i = some r ∨ f i = some p ∧ ctx i := by
  rcases h i with ⟨h1, h2, h3⟩ | ⟨h1, h2⟩
  · rw [h1, h2]; simp [h3]
  · rw [h1]; constructor
    · exact fun e => Or.inl e
    · rintro (e | e)
      · exact e
      · exact absurd e h2

theorem none_iff (i : Int) : f' i = none ↔ f i = none := by
  rcases h i with ⟨h1, h2, h3⟩ | ⟨h1, h2⟩
  · rw [h1, h2]; simp
  · rw [h1]

end Sub

/-- A substitution proved position by position. -/
theorem sub_of_nat {t t' : Str} {p r : Char} {ctx : Int → Prop}
    (h : ∀ n : Nat, t'[n]? = some r ∧ t[n]? = some p ∧ ctx n ∨ t'[n]? = t[n]? ∧ ¬ (t[n]? = some p ∧ ctx n)) :
    Sub (g t) (g t') p r ctx := by
  intro i
  by_cases hi : i < 0
  · right; rw [g_neg _ hi, g_neg _ hi]; simp
  · obtain ⟨n, rfl⟩ : ∃ n : Nat, i = n := ⟨i.toNat, by omega⟩
    rw [g_nat, g_nat]; exact h n

theorem sub_congr {f f' : Int → Option Char} {p r : Char} {ctx ctx' : Int → Prop} (h : Sub f f' p r ctx)
    (hc : ∀ i, f i = some p → (ctx i ↔ ctx' i)) : Sub f f' p r ctx' := by
  intro i
  rcases h i with ⟨h1, h2, h3⟩ | ⟨h1, h2⟩
  · exact Or.inl ⟨h1, h2, (hc i h2).1 h3⟩
  · exact Or.inr ⟨h1, fun e => h2 ⟨e.1, (hc i e.1).2 e.2⟩⟩

/-- Replacing one letter everywhere. -/
theorem sub_char (t : Str) (p r : Char) : Sub (g t) (g (replaceAll t [p] [r])) p r (fun _ => True) := by
  apply sub_of_nat
  intro n
  rw [replaceAll_single_char, List.getElem?_map]
  cases t[n]? with
  | none => simp
  | some c => by_cases h : c = p <;> simp [h]

theorem replaceAll_skip {qs rest pat to : Str} {p : Char} (h : p ∉ qs) :
    replaceAll (qs ++ rest) (p :: pat) to = qs ++ replaceAll rest (p :: pat) to := by
  induction qs with
  | nil => rfl
  | cons q qs ih =>
    simp only [List.mem_cons, not_or] at h
    rw [List.cons_append, replaceAll_cons _ _ _ _ (by simp), if_neg, ih h.2, List.cons_append]
    simp [List.isPrefixOf, h.1]

theorem replaceAll_head {c p r : Char} {cs ps : Str} (h : p ∉ ps) :
    replaceAll (c :: cs) (p :: ps) (r :: ps) =
      (if c = p ∧ ps <+: cs then r else c) :: replaceAll cs (p :: ps) (r :: ps) := by
  rw [replaceAll_cons _ _ _ _ (by simp)]
  by_cases hc : c = p ∧ ps <+: cs
  · obtain ⟨rfl, rest, rfl⟩ := hc
    rw [if_pos (by simp), if_pos (by simp), replaceAll_skip h]
    simp
  · rw [if_neg, if_neg hc]
    simp only [List.isPrefixOf, Bool.and_eq_true, beq_iff_eq, List.isPrefixOf_iff_prefix]
    exact fun e => hc ⟨e.1.symm, e.2⟩

theorem replaceAll_head_get {p r : Char} {ps : Str} (h : p ∉ ps) (t : Str) (n : Nat) :
    (replaceAll t (p :: ps) (r :: ps))[n]? = some r ∧ t[n]? = some p ∧ ps <+: t.drop (n + 1) ∨
    (replaceAll t (p :: ps) (r :: ps))[n]? = t[n]? ∧ ¬ (t[n]? = some p ∧ ps <+: t.drop (n + 1)) := by
  induction t generalizing n with
  | nil => simp [replaceAll_nil]
  | cons c cs ih =>
    rw [replaceAll_head h]
    cases n with
    | zero =>
      simp only [List.getElem?_cons_zero, List.drop_succ_cons, List.drop_zero, Option.some.injEq]
      by_cases hc : c = p ∧ ps <+: cs
      · exact Or.inl ⟨by rw [if_pos hc], hc⟩
      · exact Or.inr ⟨by rw [if_neg hc], hc⟩
    | succ n => simpa using ih n

theorem prefix_one (t : Str) (n : Nat) (a : Char) : [a] <+: t.drop n ↔ t[n]? = some a := by
  rw [← List.isPrefixOf_iff_prefix]
  induction t generalizing n with
  | nil => simp [List.isPrefixOf]
  | cons c cs ih => cases n with
    | zero => simp only [List.isPrefixOf, List.drop_zero, Bool.and_true, beq_iff_eq, List.getElem?_cons_zero, Option.some.injEq]; exact ⟨Eq.symm, Eq.symm⟩
    | succ n => simpa using ih n

theorem prefix_two (t : Str) (n : Nat) (a b : Char) : [a, b] <+: t.drop n ↔ t[n]? = some a ∧ t[n + 1]? = some b := by
  induction t generalizing n with
  | nil => simp
  | cons c cs ih => cases n with
    | zero =>
      rw [← List.isPrefixOf_iff_prefix]
      cases cs with
      | nil => simp [List.isPrefixOf]
      | cons d ds =>
        simp only [List.isPrefixOf, List.drop_zero, Bool.and_true, Bool.and_eq_true, beq_iff_eq, List.getElem?_cons_zero,
          List.getElem?_cons_succ, Option.some.injEq]
        exact ⟨fun e => ⟨e.1.symm, e.2.symm⟩, fun e => ⟨e.1.symm, e.2.symm⟩⟩
    | succ n => simpa using ih n

/-- Replacing a letter before another one. -/
theorem sub_next (t : Str) {p r a : Char} (h : p ≠ a) :
    Sub (g t) (g (replaceAll t [p, a] [r, a])) p r (fun i => g t (i + 1) = some a) := by
  apply sub_of_nat
  intro n
  rw [g_succ, ← prefix_one t (n + 1)]
  exact replaceAll_head_get (ps := [a]) (by simpa using h) t n

/-- Replacing a letter before two other ones. -/
theorem sub_next2 (t : Str) {p r a b : Char} (h : p ≠ a) (h' : p ≠ b) :
    Sub (g t) (g (replaceAll t [p, a, b] [r, a, b])) p r
      (fun i => g t (i + 1) = some a ∧ g t (i + 2) = some b) := by
  apply sub_of_nat
  intro n
  have e : g t ((n : Int) + 2) = t[n + 1 + 1]? := g_nat t (n + 2)
  rw [g_succ, e, ← prefix_two t (n + 1)]
  exact replaceAll_head_get (ps := [a, b]) (by simp [h, h']) t n

theorem g_cons_succ (c : Char) (cs : Str) (n : Nat) : g (c :: cs) ((n : Int) + 1) = g cs n := by
  rw [g_succ, g_nat]; simp

/-- Two adjacent letters, both replaced or not. -/
theorem pair_get {a p x r : Char} (h : p ≠ a) (t : Str) (n : Nat) (prev : Option Char) (hp : ¬ (prev = some a ∧ t.head? = some p)) :
    (replaceAll t [a, p] [x, r])[n]? =
      if t[n]? = some a ∧ t[n + 1]? = some p then some x
      else if t[n]? = some p ∧ (if n = 0 then prev else t[n - 1]?) = some a then some r
      else t[n]? := by
  induction hn : t.length using Nat.strongRecOn generalizing t n prev with
  | ind k ih =>
    cases t with
    | nil => simp [replaceAll_nil]
    | cons c cs =>
      rw [replaceAll_cons _ _ _ _ (by simp)]
      by_cases hc : c = a ∧ cs.head? = some p
      · obtain ⟨rfl, hd⟩ := hc
        cases cs with
        | nil => simp at hd
        | cons d ds =>
          simp only [List.head?_cons, Option.some.injEq] at hd
          subst hd
          rw [if_pos (by simp [List.isPrefixOf])]
          match n with
          | 0 => simp
          | 1 =>
            have : ¬ (d = c) := h
            simp [this]
          | n + 2 =>
            have := ih ds.length (by subst hn; simp; omega) ds n (some d) (by simp [h]) rfl
            simp only [List.drop_succ_cons, List.length_cons, List.length_nil, List.drop_zero,
              List.cons_append, List.nil_append, List.getElem?_cons_succ, Nat.zero_add] at this ⊢
            rw [this]
            cases n with
            | zero => simp
            | succ n => simp
      · rw [if_neg]
        · cases n with
          | zero =>
            simp only [List.getElem?_cons_zero, Option.some.injEq, Nat.zero_add, List.getElem?_cons_succ]
            rw [if_neg, if_neg]
            · simp only [List.head?_cons, Option.some.injEq] at hp
              simp only [if_true]
              exact fun e => hp ⟨e.2, e.1⟩
            · rw [List.head?_eq_getElem?] at hc; exact hc
          | succ n =>
            have := ih cs.length (by subst hn; simp) cs n (some c) (by
              simpa using hc) rfl
            simp only [List.getElem?_cons_succ, this]
            cases n with
            | zero => simp
            | succ n => simp
        · intro e
          rw [List.isPrefixOf_iff_prefix] at e
          have e1 := (prefix_two (c :: cs) 0 a p).1 (by simpa using e)
          simp only [List.getElem?_cons_zero, Option.some.injEq, Nat.zero_add, List.getElem?_cons_succ] at e1
          exact hc ⟨e1.1, by rw [List.head?_eq_getElem?]; exact e1.2⟩

theorem g_pred (t : Str) (n : Nat) : (if n = 0 then none else t[n - 1]?) = g t ((n : Int) - 1) := by
  cases n with
  | zero => rw [g_neg _ (by simp)]; rfl
  | succ n =>
    have : ((n + 1 : Nat) : Int) - 1 = n := by omega
    rw [this, g_nat]; simp

/-- Replacing a letter after another one. -/
theorem sub_prev (t : Str) {p r a : Char} (h : p ≠ a) :
    Sub (g t) (g (replaceAll t [a, p] [a, r])) p r (fun i => g t (i - 1) = some a) := by
  apply sub_of_nat
  intro n
  have := pair_get (x := a) (r := r) h t n none (by simp)
  rw [g_pred] at this
  rw [this]
  by_cases h1 : t[n]? = some a
  · have : ¬ a = p := Ne.symm h
    simp [h1, this]
  · by_cases h2 : t[n]? = some p ∧ g t ((n : Int) - 1) = some a
    · simp [h2, h]
    · right; rw [if_neg (fun e => h1 e.1), if_neg h2]; exact ⟨rfl, h2⟩

/-- Replacing two adjacent letters. -/
theorem sub_pair (t : Str) {p a x r : Char} (h : p ≠ a) (hx : x ≠ p) :
    ∃ f, Sub (g t) f a x (fun i => g t (i + 1) = some p) ∧
      Sub f (g (replaceAll t [a, p] [x, r])) p r (fun i => g t (i - 1) = some a) := by
  refine ⟨fun i => if g t i = some a ∧ g t (i + 1) = some p then some x else g t i, ?_, ?_⟩
  · intro i
    by_cases hc : g t i = some a ∧ g t (i + 1) = some p
    · exact Or.inl ⟨by simp only [hc, and_self, if_true], hc⟩
    · exact Or.inr ⟨by simp only [if_neg hc], hc⟩
  · intro i
    by_cases hi : i < 0
    · right; simp [g_neg _ hi]
    · obtain ⟨n, rfl⟩ : ∃ n : Nat, i = n := ⟨i.toNat, by omega⟩
      have := pair_get (x := x) (r := r) h t n none (by simp)
      rw [g_pred, ← g_nat, ← g_nat t n, ← g_succ] at this
      simp only [this]
      by_cases h1 : g t n = some a ∧ g t ((n : Int) + 1) = some p
      · simp [h1, hx]
      · simp only [if_neg h1]
        by_cases h2 : g t n = some p ∧ g t ((n : Int) - 1) = some a
        · simp [h2]
        · simp only [if_neg h2]; exact Or.inr ⟨trivial, h2⟩

/-- Replacing the last letter. -/
theorem sub_end (t : Str) (p r : Char) : Sub (g t) (g (replaceEnd t [p] [r])) p r (fun i => g t (i + 1) = none) := by
  apply sub_of_nat
  intro n
  rw [g_succ]
  unfold replaceEnd
  rcases List.eq_nil_or_concat t with rfl | ⟨l, c, rfl⟩
  · right
    have : endsWith ([] : Str) [p] = false := rfl
    rw [this]; simp
  · rw [List.concat_eq_append]
    by_cases hc : c = p
    · subst hc
      rw [if_pos (by simp [endsWith])]
      rw [show (l ++ [c]).length - [c].length = l.length by simp, List.take_left']
      · by_cases hn : n < l.length
        · right
          rw [List.getElem?_append_left hn, List.getElem?_append_left hn]
          refine ⟨rfl, ?_⟩
          rintro ⟨_, e⟩
          have := List.getElem?_eq_none_iff.1 e
          simp at this; omega
        · by_cases hn : n = l.length
          · subst hn; left; simp
          · right
            rw [List.getElem?_append_right (by omega), List.getElem?_append_right (by omega)]
            have : n - l.length ≠ 0 := by omega
            obtain ⟨m, hm⟩ := Nat.exists_eq_succ_of_ne_zero this
            rw [hm]; simp
      · rfl
    · rw [if_neg]
      · refine Or.inr ⟨rfl, ?_⟩
        rintro ⟨h1, h2⟩
        have h3 : n < (l ++ [c]).length := by
          rw [List.getElem?_eq_some_iff] at h1; exact h1.1
        have h4 : (l ++ [c]).length ≤ n + 1 := List.getElem?_eq_none_iff.1 h2
        have : n = l.length := by simp at h3 h4; omega
        subst this
        simp at h1; exact hc h1
      · simp only [endsWith, List.isSuffixOf_iff_suffix]
        rintro ⟨m, hm⟩
        have := (List.append_inj' hm rfl).2
        simp at this; exact hc this.symm

/-- Replacing the last of two letters at the end. -/
theorem sub_end2 (t : Str) {q p r : Char} :
    Sub (g t) (g (replaceEnd t [q, p] [q, r])) p r (fun i => g t (i + 1) = none ∧ g t (i - 1) = some q) := by
  by_cases hs : [q, p] <:+ t
  · obtain ⟨l, rfl⟩ := hs
    have e1 : replaceEnd (l ++ [q, p]) [q, p] [q, r] = replaceEnd (l ++ [q, p]) [p] [r] := by
      unfold replaceEnd
      have h1 : endsWith (l ++ [q, p]) [q, p] = true := by simp [endsWith]
      have h2 : endsWith (l ++ [q, p]) [p] = true := by
        simp only [endsWith, List.isSuffixOf_iff_suffix]; exact ⟨l ++ [q], by simp⟩
      rw [if_pos h1, if_pos h2]
      rw [show (l ++ [q, p]).length - [q, p].length = l.length by simp,
        show (l ++ [q, p]).length - [p].length = (l ++ [q]).length by simp]
      rw [List.take_left' rfl, show l ++ [q, p] = (l ++ [q]) ++ [p] by simp, List.take_left' rfl]
      simp
    rw [e1]
    refine sub_congr (sub_end _ p r) ?_
    intro i hi
    constructor
    · intro h
      refine ⟨h, ?_⟩
      by_cases hi0 : i < 0
      · rw [g_neg _ hi0] at hi; simp at hi
      · obtain ⟨n, rfl⟩ : ∃ n : Nat, i = n := ⟨i.toNat, by omega⟩
        rw [g_nat] at hi
        rw [g_succ] at h
        have h3 : n < (l ++ [q, p]).length := by
          rw [List.getElem?_eq_some_iff] at hi; exact hi.1
        have h4 : (l ++ [q, p]).length ≤ n + 1 := List.getElem?_eq_none_iff.1 h
        have : n = l.length + 1 := by simp at h3 h4; omega
        subst this
        rw [← g_pred]; simp
    · exact fun h => h.1
  · have e1 : replaceEnd t [q, p] [q, r] = t := by
      unfold replaceEnd
      rw [if_neg]
      simpa only [endsWith, List.isSuffixOf_iff_suffix] using hs
    rw [e1]
    intro i
    refine Or.inr ⟨rfl, ?_⟩
    rintro ⟨h1, h2, h3⟩
    by_cases hi0 : i < 1
    · rw [g_neg _ (by omega)] at h3; simp at h3
    · obtain ⟨n, rfl⟩ : ∃ n : Nat, i = (n : Int) + 1 := ⟨i.toNat - 1, by omega⟩
      have e2 : (n : Int) + 1 - 1 = n := by omega
      have e3 : (n : Int) + 1 + 1 = (n + 2 : Nat) := by omega
      rw [e2, g_nat] at h3
      rw [g_succ] at h1
      rw [e3, g_nat] at h2
      apply hs
      have h4 : t.length ≤ n + 2 := List.getElem?_eq_none_iff.1 h2
      have h5 := (prefix_two t n q p).2 ⟨h3, h1⟩
      obtain ⟨k, hk⟩ := h5
      have hk0 : k = [] := by
        have := congrArg List.length hk
        simp at this
        apply List.eq_nil_of_length_eq_zero; omega
      subst hk0
      exact ⟨t.take n, by rw [show [q, p] = t.drop n by simpa using hk]; exact List.take_append_drop n t⟩

/-- Replacing the first letter. -/
theorem sub_start (t : Str) (p r : Char) : Sub (g t) (g (replaceStart t [p] [r])) p r (fun i => i = 0) := by
  apply sub_of_nat
  intro n
  unfold replaceStart
  cases t with
  | nil => simp [startsWith]
  | cons c cs =>
    by_cases hc : c = p
    · subst hc
      rw [if_pos (by simp [startsWith])]
      cases n with
      | zero => simp
      | succ n => right; simp; intro _; omega
    · rw [if_neg (by simp [startsWith, List.isPrefixOf, Ne.symm hc])]
      cases n with
      | zero => simp [hc]
      | succ n => right; simp; intro _; omega

/-- Replacing the first letter before another one. -/
theorem sub_start2 (t : Str) (p r a : Char) :
    Sub (g t) (g (replaceStart t [p, a] [r, a])) p r (fun i => i = 0 ∧ g t (i + 1) = some a) := by
  by_cases hs : ∃ cs, t = p :: a :: cs
  · obtain ⟨cs, rfl⟩ := hs
    have e1 : replaceStart (p :: a :: cs) [p, a] [r, a] = replaceStart (p :: a :: cs) [p] [r] := by
      simp [replaceStart, startsWith]
    rw [e1]
    refine sub_congr (sub_start _ p r) ?_
    intro i hi
    constructor
    · rintro rfl
      exact ⟨rfl, by rw [show (0 : Int) + 1 = (1 : Nat) from rfl, g_nat]; rfl⟩
    · exact fun h => h.1
  · have e1 : replaceStart t [p, a] [r, a] = t := by
      unfold replaceStart
      rw [if_neg]
      simp only [startsWith, List.isPrefixOf_iff_prefix]
      rintro ⟨cs, rfl⟩
      exact hs ⟨cs, by simp⟩
    rw [e1]
    intro i
    refine Or.inr ⟨rfl, ?_⟩
    rintro ⟨h1, rfl, h3⟩
    apply hs
    rw [show (0 : Int) + 1 = (1 : Nat) from rfl, g_nat] at h3
    rw [show (0 : Int) = (0 : Nat) from rfl, g_nat] at h1
    match t, h1, h3 with
    | c :: d :: cs, h1, h3 =>
      simp at h1 h3
      exact ⟨cs, by rw [h1, h3]⟩

end Verif.CavSpec
