import Verif.Model.Order
import Verif.Spec.Orders
import Verif.Proofs.BMSets
import Verif.Props.Display
import Verif.Props.DoubleMetaphone
/-!
# C113: comparing values
-/
namespace Verif.Props
open Verif.Spec BM BMProofs DMProofs

namespace OrderProofs

theorem nat_total : TotalOrder natCmp where
  eq_iff a b := by unfold natCmp; exact Nat.compare_eq_eq
  swap a b := by unfold natCmp; exact (Nat.compare_swap a b).symm
  trans a b c := by unfold natCmp; simp only [Nat.compare_eq_lt]; omega

theorem str_total : TotalOrder strCmp where
  eq_iff := strCmp_eq
  swap := strCmp_swap
  trans a b c := by
    rw [strCmp_lt, strCmp_lt, strCmp_lt]
    exact fun h1 h2 => List.lt_trans h1 h2

theorem option_total {α : Type} {cmp : α → α → Ordering} (h : TotalOrder cmp) : TotalOrder (optionCmp cmp) where
  eq_iff a b := by cases a <;> cases b <;> simp [optionCmp, h.eq_iff]
  swap a b := by cases a <;> cases b <;> simp [optionCmp, Ordering.swap] <;> exact h.swap _ _
  trans a b c := by
    cases a <;> cases b <;> cases c <;> simp [optionCmp]
    exact h.trans _ _ _

theorem lex_total {α β γ : Type} {c : β → β → Ordering} {d : γ → γ → Ordering} (hc : TotalOrder c) (hd : TotalOrder d)
    (f : α → β) (g : α → γ) (inj : ∀ x y, f x = f y → g x = g y → x = y) :
    TotalOrder (fun x y => (c (f x) (f y)).then (d (g x) (g y))) where
  eq_iff x y := by
    rw [Ordering.then_eq_eq, hc.eq_iff, hd.eq_iff]
    exact ⟨fun h => inj x y h.1 h.2, fun h => by subst h; exact ⟨rfl, rfl⟩⟩
  swap x y := by
    rw [hc.swap (f x) (f y), hd.swap (g x) (g y), Ordering.swap_then]
  trans x y z := by
    simp only [Ordering.then_eq_lt]
    rintro (h1 | ⟨h1, h1'⟩) (h2 | ⟨h2, h2'⟩)
    · exact .inl (hc.trans _ _ _ h1 h2)
    · rw [(hc.eq_iff _ _).mp h2] at h1; exact .inl h1
    · rw [(hc.eq_iff _ _).mp h1]; exact .inl h2
    · rw [(hc.eq_iff _ _).mp h1]; exact .inr ⟨h2, hd.trans _ _ _ h1' h2'⟩

theorem set_total {α : Type} {cmp : α → α → Ordering} (h : TotalOrder cmp) : TotalOrder (setCmp cmp) where
  eq_iff a := by
    induction a with
    | nil => intro b; cases b <;> simp [setCmp]
    | cons x a ih =>
      intro b
      cases b with
      | nil => simp [setCmp]
      | cons y b => rw [setCmp, Ordering.then_eq_eq, h.eq_iff, ih b]; simp
  swap a := by
    induction a with
    | nil => intro b; cases b <;> rfl
    | cons x a ih =>
      intro b
      cases b with
      | nil => rfl
      | cons y b => rw [setCmp, setCmp, h.swap x y, ih b, Ordering.swap_then]
  trans a := by
    induction a with
    | nil => intro b c; cases b <;> cases c <;> simp [setCmp]
    | cons x a ih =>
      intro b c
      cases b with
      | nil => simp [setCmp]
      | cons y b =>
        cases c with
        | nil => simp [setCmp]
        | cons z c =>
          simp only [setCmp, Ordering.then_eq_lt]
          rintro (h1 | ⟨h1, h1'⟩) (h2 | ⟨h2, h2'⟩)
          · exact .inl (h.trans _ _ _ h1 h2)
          · rw [(h.eq_iff _ _).mp h2] at h1; exact .inl h1
          · rw [(h.eq_iff _ _).mp h1]; exact .inl h2
          · rw [(h.eq_iff _ _).mp h1]; exact .inr ⟨h2, ih _ _ h1' h2'⟩

end OrderProofs

open OrderProofs

/-- C113. The derived comparisons of results, sequences, sets of languages and parse errors are total orders that agree with
`==`. -/
theorem orders_total : TotalOrder CharSequence.cmp ∧ TotalOrder DMResult.cmp ∧ TotalOrder LanguageSet.cmp ∧
    TotalOrder ParseError.cmp := by
  refine ⟨?_, ?_, ?_, ?_⟩
  · exact lex_total str_total nat_total CharSequence.inner CharSequence.lenInChar
      (by rintro ⟨a, b⟩ ⟨c, d⟩ h1 h2; cases h1; cases h2; rfl)
  · have h1 := lex_total str_total (option_total nat_total) (fun p : Str × Option Nat => p.1) (fun p => p.2)
      (by rintro ⟨a, b⟩ ⟨c, d⟩ h1 h2; cases h1; cases h2; rfl)
    exact lex_total str_total h1 DMResult.primary (fun r => (r.alternate, r.maxLength))
      (by rintro ⟨a, b, c⟩ ⟨d, e, f⟩ h1 h2; cases h1; cases h2; rfl)
  · have hs := set_total str_total
    refine ⟨?_, ?_, ?_⟩
    · intro a b
      cases a <;> cases b <;> simp [LanguageSet.cmp, hs.eq_iff]
    · intro a b
      cases a <;> cases b <;> simp [LanguageSet.cmp, Ordering.swap] <;> exact hs.swap _ _
    · intro a b c
      cases a <;> cases b <;> cases c <;> simp [LanguageSet.cmp]
      exact hs.trans _ _ _
  · have h1 := lex_total str_total str_total (fun p : Str × Str => p.1) (fun p => p.2)
      (by rintro ⟨a, b⟩ ⟨c, d⟩ h1 h2; cases h1; cases h2; rfl)
    have h2 := lex_total (option_total str_total) h1 (fun p : Option Str × Str × Str => p.1) (fun p => p.2)
      (by rintro ⟨a, b⟩ ⟨c, d⟩ h1 h2; cases h1; cases h2; rfl)
    exact lex_total nat_total h2 ParseError.lineNumber (fun r => (r.filename, r.lineContent, r.description))
      (by rintro ⟨a, b, c, d⟩ ⟨a', b', c', d'⟩ h1 h2; cases h1; cases h2; rfl)

/-- C113. A `CharSequence` is equal to, below, or above another as its text is, and gives its text back. -/
theorem charSequence_order (s t : Str) :
    (CharSequence.ofStr s = CharSequence.ofStr t ↔ s = t) ∧
    ((CharSequence.ofStr s).cmp (CharSequence.ofStr t) = .lt ↔ s < t) ∧
    ((CharSequence.ofStr s).cmp (CharSequence.ofStr t) = .gt ↔ t < s) ∧
    (CharSequence.ofStr s).display = s ∧ (CharSequence.ofStr s).intoStr = s := by
  have key : (CharSequence.ofStr s).cmp (CharSequence.ofStr t) = strCmp s t := by
    unfold CharSequence.cmp CharSequence.ofStr
    cases h : strCmp s t with
    | lt => rfl
    | gt => rfl
    | eq =>
      rw [strCmp_eq] at h
      subst h
      simp [natCmp, Ordering.then]
  refine ⟨⟨fun h => congrArg CharSequence.inner h, fun h => by rw [h]⟩, ?_, ?_, rfl, rfl⟩
  · rw [key, strCmp_lt]
  · rw [key, strCmp_gt]

/-- C113. A result of Double Metaphone remembers the limit of its encoder: it is equal to another result exactly if the limits
and the codes are equal, and results are ordered by their primary codes, then by their alternate codes, then by the limits. -/
theorem double_metaphone_result_order (U V : Unicode) (m n : Option Nat) (s t : Str) (r q : DMResult)
    (h : (DoubleMetaphone.new m).doubleMetaphone U s = .ok r) (h' : (DoubleMetaphone.new n).doubleMetaphone V t = .ok q) :
    (r = q ↔ m = n ∧ r.getPrimary = q.getPrimary ∧ r.getAlternate = q.getAlternate) ∧
    (r.cmp q = .lt ↔ r.getPrimary < q.getPrimary ∨ r.getPrimary = q.getPrimary ∧ (r.getAlternate < q.getAlternate ∨
      r.getAlternate = q.getAlternate ∧ limitBelow m n)) := by
  have lim : ∀ (U : Unicode) (m : Option Nat) (s : Str) (r : DMResult), (DoubleMetaphone.new m).doubleMetaphone U s = .ok r →
      r.maxLength = m := by
    intro U m s r h
    exact (dm_run U m 0 (fun _ _ => Nat.zero_le _) (by decide) s r h).2.2
  have e1 := lim U m s r h
  have e2 := lim V n t q h'
  obtain ⟨p, a, l⟩ := r
  obtain ⟨p', a', l'⟩ := q
  simp only at e1 e2
  subst e1 e2
  refine ⟨?_, ?_⟩
  · show DMResult.mk p a l = DMResult.mk p' a' l' ↔ l = l' ∧ p = p' ∧ a = a'
    rw [DMResult.mk.injEq]
    exact ⟨fun h => ⟨h.2.2, h.1, h.2.1⟩, fun h => ⟨h.2.1, h.2.2, h.1⟩⟩
  · show (strCmp p p').then ((strCmp a a').then (optionCmp natCmp l l')) = .lt ↔
      p < p' ∨ p = p' ∧ (a < a' ∨ a = a' ∧ limitBelow l l')
    have : optionCmp natCmp l l' = .lt ↔ limitBelow l l' := by
      cases l <;> cases l' <;> simp [optionCmp, limitBelow, natCmp, Nat.compare_eq_lt]
    rw [Ordering.then_eq_lt, Ordering.then_eq_lt, strCmp_lt, strCmp_lt, strCmp_eq, strCmp_eq, this]

/-- C113. So results with the same codes and the same printed form can be unequal. -/
theorem double_metaphone_result_unequal : ∃ r q, (DoubleMetaphone.new (some 4)).doubleMetaphone .latin1 c!"Lee" = .ok r ∧
    (DoubleMetaphone.new none).doubleMetaphone .latin1 c!"Lee" = .ok q ∧ r.getPrimary = q.getPrimary ∧
    r.getAlternate = q.getAlternate ∧ r.display = q.display ∧ r ≠ q := by
  refine ⟨⟨c!"L", c!"L", some 4⟩, ⟨c!"L", c!"L", none⟩, by decide +kernel, by decide +kernel, rfl, rfl, rfl, by decide⟩

/-- C113. `Any` is the smallest set of languages, `NoLanguages` the next; sets of names are ordered like words, element by
element. -/
theorem languageSet_order (a b : StrSet) (s : LanguageSet) :
    (LanguageSet.any.cmp s = .lt ↔ s ≠ .any) ∧
    (s.cmp .noLanguages = .lt ↔ s = .any) ∧
    ((LanguageSet.someLanguages a).cmp (.someLanguages b) = .lt ↔
      ∃ common rest rest', a = common ++ rest ∧ b = common ++ rest' ∧
        ((rest = [] ∧ rest' ≠ []) ∨ ∃ x y, rest.head? = some x ∧ rest'.head? = some y ∧ x < y)) := by
  refine ⟨by cases s <;> simp [LanguageSet.cmp], by cases s <;> simp [LanguageSet.cmp], ?_⟩
  show setCmp strCmp a b = .lt ↔ _
  induction a generalizing b with
  | nil =>
    cases b with
    | nil =>
      simp only [setCmp]
      constructor
      · intro h; cases h
      · rintro ⟨c, r, r', h1, h2, h⟩
        obtain ⟨rfl, rfl⟩ := List.append_eq_nil_iff.mp h1.symm
        have := List.append_eq_nil_iff.mp h2.symm
        rcases h with ⟨-, h⟩ | ⟨x, y, h, -⟩
        · exact absurd this.2 h
        · cases h
    | cons y b => exact ⟨fun _ => ⟨[], [], y :: b, rfl, rfl, .inl ⟨rfl, by simp⟩⟩, fun _ => rfl⟩
  | cons x a ih =>
    cases b with
    | nil =>
      simp only [setCmp]
      constructor
      · intro h; cases h
      · rintro ⟨c, r, r', h1, h2, h⟩
        obtain ⟨rfl, rfl⟩ := List.append_eq_nil_iff.mp h2.symm
        rcases h with ⟨-, h⟩ | ⟨x, y, -, h, -⟩
        · exact absurd rfl h
        · cases h
    | cons y b =>
      rw [setCmp, Ordering.then_eq_lt, strCmp_lt, strCmp_eq, ih b]
      constructor
      · rintro (h | ⟨rfl, c, r, r', h1, h2, h⟩)
        · exact ⟨[], x :: a, y :: b, rfl, rfl, .inr ⟨x, y, rfl, rfl, h⟩⟩
        · exact ⟨x :: c, r, r', by rw [h1]; rfl, by rw [h2]; rfl, h⟩
      · rintro ⟨c, r, r', h1, h2, h⟩
        cases c with
        | nil =>
          simp only [List.nil_append] at h1 h2
          subst h1 h2
          rcases h with ⟨h, -⟩ | ⟨u, v, hu, hv, h⟩
          · cases h
          · injection hu with hu; injection hv with hv
            subst hu hv; exact .inl h
        | cons z c =>
          injection h1 with h1 h1'
          injection h2 with h2 h2'
          exact .inr ⟨h1.trans h2.symm, c, r, r', h1', h2', h⟩

/-- C113. Parse errors of the same file come in the order of their lines. -/
theorem parseError_order (a b : ParseError) :
    (a.lineNumber < b.lineNumber → a.cmp b = .lt) ∧ (a.cmp b = .lt → a.lineNumber ≤ b.lineNumber) := by
  constructor
  · intro h
    unfold ParseError.cmp natCmp
    rw [Nat.compare_eq_lt.mpr h]
    rfl
  · intro h
    unfold ParseError.cmp at h
    rw [Ordering.then_eq_lt] at h
    rcases h with h | ⟨h, -⟩
    · exact Nat.le_of_lt (Nat.compare_eq_lt.mp h)
    · exact Nat.le_of_eq (Nat.compare_eq_eq.mp h)

/-! Beside C113: concrete comparisons. -/

example : (CharSequence.ofStr c!"aé").cmp (CharSequence.ofStr c!"az") = .gt := by decide
example : (LanguageSet.someLanguages [c!"french"]).cmp (.someLanguages [c!"french", c!"welsh"]) = .lt := by decide
example : (LanguageSet.someLanguages [c!"english", c!"welsh"]).cmp (.someLanguages [c!"french"]) = .lt := by decide
example : ∃ r q, (DoubleMetaphone.new none).doubleMetaphone .latin1 c!"Smith" = .ok r ∧
    (DoubleMetaphone.new none).doubleMetaphone .latin1 c!"Schmidt" = .ok q ∧ r.cmp q = .lt :=
  ⟨⟨c!"SM0", c!"XMT", none⟩, ⟨c!"XMT", c!"SMT", none⟩, by decide +kernel, by decide +kernel, by decide⟩

end Verif.Props
