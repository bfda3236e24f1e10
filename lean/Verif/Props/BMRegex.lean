import Verif.Proofs.Str
import Verif.Model.BMRule
import Verif.Spec.BMRegex
/-!
# Properties of the optimised regular expressions (C43)
-/

namespace Verif.Props
open BM Spec

/-- A byte offset at the end of a part. -/
theorem sliceFrom_one (c : Char) (s : Str) (h : c.utf8Size = 1) : sliceFrom (c :: s) 1 = .ok s := by
  have := sliceFrom_append [c] s
  simpa [byteLen, h] using this

theorem sliceTo_last (s : Str) (c : Char) (h : c.utf8Size = 1) :
    usub (byteLen (s ++ [c])) 1 = .ok (byteLen s) ∧ sliceTo (s ++ [c]) (byteLen s) = .ok s := by
  have e : byteLen (s ++ [c]) = byteLen s + 1 := by rw [byteLen_append]; simp [byteLen, h]
  rw [e]
  exact ⟨by simp [usub], sliceTo_append s [c]⟩

theorem slice_middle (a : Char) (s : Str) (c : Char) (ha : a.utf8Size = 1) (h : c.utf8Size = 1) :
    usub (byteLen (a :: s ++ [c])) 1 = .ok (byteLen s + 1) ∧
      slice (a :: s ++ [c]) 1 (byteLen s + 1) = .ok s := by
  have e : byteLen (a :: s ++ [c]) = byteLen s + 2 := by
    rw [byteLen_append]; simp [byteLen, h, ha]; omega
  rw [e]
  refine ⟨by simp [usub], ?_⟩
  unfold slice
  rw [if_pos (by omega)]
  have := splitAtByte_append [a] (s ++ [c])
  simp only [byteLen, ha, Nat.add_zero, List.singleton_append] at this
  rw [List.cons_append, this]
  simpa using sliceTo_append s [c]

theorem startsWith_char (c : Char) (x : Str) : startsWith x [c] = (x.head? == some c) := by
  cases x with
  | nil => rfl
  | cons y ys =>
    rw [Bool.eq_iff_iff]
    simp only [startsWith, List.isPrefixOf_iff_prefix, List.head?_cons, beq_iff_eq, Option.some.injEq]
    constructor
    · rintro ⟨z, hz⟩; cases hz; rfl
    · rintro rfl; exact ⟨ys, rfl⟩

theorem endsWith_char (c : Char) (x : Str) : endsWith x [c] = (x.getLast? == some c) := by
  rw [Bool.eq_iff_iff]
  simp only [endsWith, List.isSuffixOf_iff_suffix, beq_iff_eq]
  rw [List.getLast?_eq_some_iff]
  exact ⟨fun ⟨y, hy⟩ => ⟨y, hy.symm⟩, fun ⟨y, hy⟩ => ⟨y, hy.symm⟩⟩

theorem content_print (st en : Bool) (b : Str) (h1 : b.head? ≠ some '^')
    (h2 : b.getLast? ≠ some '$') :
    let t := (if st then ['^'] else []) ++ b ++ (if en then ['$'] else [])
    startsWith t c!"^" = st ∧ endsWith t c!"$" = en ∧ OptimizedRegex.content t st en = .ok b := by
  intro t
  rw [startsWith_char, endsWith_char]
  cases st <;> cases en
  · simp only [t, Bool.false_eq_true, if_false, List.nil_append, List.append_nil] at *
    refine ⟨by simpa using h1, by simpa using h2, rfl⟩
  · simp only [t, Bool.false_eq_true, if_false, if_true, List.nil_append] at *
    refine ⟨?_, by simp, ?_⟩
    · cases b <;> simp_all
    · have := sliceTo_last b '$' rfl
      simp only [OptimizedRegex.content, this.1]
      exact this.2
  · simp only [t, Bool.false_eq_true, if_false, if_true, List.append_nil] at *
    refine ⟨by simp, ?_, sliceFrom_one '^' b rfl⟩
    cases b with
    | nil => rfl
    | cons y ys => simpa [List.getLast?_cons_cons] using h2
  · have e : t = '^' :: b ++ ['$'] := by simp [t]
    rw [e]
    refine ⟨by simp, by rw [List.getLast?_append]; simp, ?_⟩
    have := slice_middle '^' b '$' rfl rfl
    simp only [OptimizedRegex.content]
    rw [this.1]
    exact this.2

theorem contains_print (st en : Bool) (b : Str) :
    ((if st then ['^'] else []) ++ b ++ (if en then ['$'] else [])).contains '[' = b.contains '[' := by
  cases st <;> cases en <;> simp

theorem ofStr_literal (st en : Bool) (s : Str) (hs : ∀ c ∈ s, isMeta c = false) :
    OptimizedRegex.ofStr (SimpleRegex.print ⟨st, .literal s, en⟩) = .ok (
      if st && en then (if s.isEmpty then some .isEmpty else some (.equals s))
      else if (st || en) && s.isEmpty then some .allStrings
      else if st then some (.startsWith s) else if en then some (.endsWith s) else none) := by
  have h1 : s.head? ≠ some '^' := by
    cases s with
    | nil => simp
    | cons c cs =>
      intro h
      simp only [List.head?_cons, Option.some.injEq] at h
      have := hs c (by simp)
      rw [h] at this
      exact absurd this (by decide)
  have h2 : s.getLast? ≠ some '$' := by
    intro h
    have := hs '$' (List.mem_of_getLast? h)
    exact absurd this (by decide)
  have h3 : s.contains '[' = false := by
    rw [List.contains_eq_mem, decide_eq_false_iff_not]
    intro h
    exact absurd (hs '[' h) (by decide)
  obtain ⟨e1, e2, e3⟩ := content_print st en s h1 h2
  have e4 := contains_print st en s
  unfold OptimizedRegex.ofStr SimpleRegex.print SimpleBody.print
  dsimp only
  rw [e1, e2, e3, e4, h3]
  cases st <;> cases en <;> cases s <;> rfl

theorem ofStr_oneOf (st en neg : Bool) (chars : Str) (hne : chars ≠ [])
    (hs : ∀ c ∈ chars, isClassMeta c = false) :
    OptimizedRegex.ofStr (SimpleRegex.print ⟨st, .oneOf neg chars, en⟩) = .ok (
      if st && en then some (.equalsChar chars (!neg))
      else if st then some (.startsWithChar chars (!neg))
      else if en then some (.endsWithChar chars (!neg)) else none) := by
  let inner := (if neg then ['^'] else []) ++ chars
  have eb : SimpleBody.print (.oneOf neg chars) = '[' :: inner ++ [']'] := by
    simp [SimpleBody.print, inner]
  obtain ⟨e1, e2, e3⟩ := content_print st en ('[' :: inner ++ [']']) (by simp)
    (by rw [List.getLast?_append]; simp)
  have e4 := contains_print st en ('[' :: inner ++ [']'])
  have e5 : ('[' :: inner ++ [']']).contains '[' = true := by simp
  have e6 : startsWith ('[' :: inner ++ [']']) c!"[" = true := by rw [startsWith_char]; simp
  have e7 : endsWith ('[' :: inner ++ [']']) c!"]" = true := by
    rw [endsWith_char, List.getLast?_append]; simp
  obtain ⟨s1, s2⟩ := slice_middle '[' inner ']' rfl rfl
  have h3 : chars.contains '[' = false := by
    rw [List.contains_eq_mem, decide_eq_false_iff_not]
    intro h
    exact absurd (hs '[' h) (by decide)
  have e8 : inner.contains '[' = false := by
    rw [List.contains_eq_mem, decide_eq_false_iff_not] at h3 ⊢
    cases neg <;> simpa [inner] using h3
  have hh : chars.head? ≠ some '^' := by
    cases chars with
    | nil => simp
    | cons c cs =>
      intro h
      simp only [List.head?_cons, Option.some.injEq] at h
      have := hs c (by simp)
      rw [h] at this
      exact absurd this (by decide)
  have e9 : startsWith inner c!"^" = neg := by
    rw [startsWith_char]
    cases neg <;> simp [inner, hh]
  unfold OptimizedRegex.ofStr SimpleRegex.print
  dsimp only
  rw [eb, e1, e2, e3, e4, e5]
  simp only [bind, Except.bind, Bool.not_true, Bool.false_eq_true, if_false]
  rw [e6, e7, s1]
  simp only [Bool.and_self, if_true]
  rw [s2]
  simp only [e8, Bool.not_false, if_true]
  rw [e9]
  cases neg
  · cases st <;> cases en <;> rfl
  · have e10 : sliceFrom inner 1 = .ok chars := sliceFrom_one '^' chars rfl
    rw [if_pos rfl, e10]
    cases st <;> cases en <;> rfl

theorem finds_literal (st en : Bool) (s text : Str) (h : st = true ∨ en = true) :
    SimpleRegex.Finds ⟨st, .literal s, en⟩ text ↔
      if st && en then text = s else if st then s <+: text else s <:+ text := by
  unfold SimpleRegex.Finds
  cases st <;> cases en
  · simp at h
  · simp only [SimpleBody.Matches, Bool.false_eq_true, false_implies, true_and, forall_const, Bool.false_and,
      if_false]
    constructor
    · rintro ⟨b, p, a, rfl, rfl, rfl⟩; exact ⟨b, by simp⟩
    · rintro ⟨b, rfl⟩; exact ⟨b, s, [], by simp⟩
  · simp only [SimpleBody.Matches, Bool.false_eq_true, false_implies, forall_const, and_true,
      Bool.and_false, if_false, if_true]
    constructor
    · rintro ⟨b, p, a, rfl, rfl, rfl⟩; exact ⟨a, by simp⟩
    · rintro ⟨a, rfl⟩; exact ⟨[], s, a, by simp⟩
  · simp only [SimpleBody.Matches, forall_const, Bool.and_true, if_true]
    constructor
    · rintro ⟨b, p, a, rfl, rfl, rfl, rfl⟩; simp
    · rintro rfl; exact ⟨[], text, [], by simp⟩

theorem byteLen_prefix {p s : Str} (h : p <+: s) : byteLen p ≤ byteLen s := by
  obtain ⟨r, rfl⟩ := h; rw [byteLen_append]; omega

theorem byteLen_suffix {p s : Str} (h : p <:+ s) : byteLen p ≤ byteLen s := by
  obtain ⟨r, rfl⟩ := h; rw [byteLen_append]; omega

theorem contains_iff (chars : Str) (c : Char) (neg : Bool) :
    (chars.contains c == !neg) = true ↔ (c ∈ chars ↔ neg = false) := by
  cases neg <;> simp

theorem isMatch_literal (st en : Bool) (s text : Str) (h : st = true ∨ en = true) (o : OptimizedRegex)
    (ho : (if st && en then (if s.isEmpty then some .isEmpty else some (.equals s))
      else if (st || en) && s.isEmpty then some .allStrings
      else if st then some (.startsWith s) else if en then some (.endsWith s) else none) = some o) :
    o.isMatch text = true ↔ SimpleRegex.Finds ⟨st, .literal s, en⟩ text := by
  rw [finds_literal st en s text h]
  cases st <;> cases en
  · simp at h
  · cases s with
    | nil => cases ho; simp [OptimizedRegex.isMatch]
    | cons c cs =>
      cases ho
      simp only [OptimizedRegex.isMatch, Bool.false_and, Bool.false_eq_true, if_false]
      by_cases hl : byteLen (c :: cs) > byteLen text
      · rw [if_pos hl]
        constructor
        · intro h; cases h
        · intro h; have := byteLen_suffix h; omega
      · rw [if_neg hl]; exact List.isSuffixOf_iff_suffix
  · cases s with
    | nil => cases ho; simp [OptimizedRegex.isMatch]
    | cons c cs =>
      cases ho
      simp only [OptimizedRegex.isMatch, Bool.and_false, Bool.false_eq_true, if_false, if_true]
      by_cases hl : byteLen (c :: cs) > byteLen text
      · rw [if_pos hl]
        constructor
        · intro h; cases h
        · intro h; have := byteLen_prefix h; omega
      · rw [if_neg hl]; exact List.isPrefixOf_iff_prefix
  · cases s with
    | nil => cases ho; simp [OptimizedRegex.isMatch]
    | cons c cs =>
      cases ho
      simp only [OptimizedRegex.isMatch, beq_iff_eq, Bool.and_self, if_true]
      exact eq_comm

theorem isMatch_oneOf (st en neg : Bool) (chars text : Str) (h : st = true ∨ en = true) (o : OptimizedRegex)
    (ho : (if st && en then some (.equalsChar chars (!neg))
      else if st then some (.startsWithChar chars (!neg))
      else if en then some (.endsWithChar chars (!neg)) else none) = some o) :
    o.isMatch text = true ↔ SimpleRegex.Finds ⟨st, .oneOf neg chars, en⟩ text := by
  unfold SimpleRegex.Finds
  cases st <;> cases en
  · simp at h
  · cases ho
    simp only [OptimizedRegex.isMatch, SimpleBody.Matches, Bool.false_eq_true, false_implies, true_and,
      forall_const]
    constructor
    · intro hm
      cases hl : text.getLast? with
      | none => rw [hl] at hm; cases hm
      | some c =>
        rw [hl] at hm
        obtain ⟨b, rfl⟩ := List.getLast?_eq_some_iff.mp hl
        exact ⟨b, [c], [], by simp, ⟨c, rfl, (contains_iff _ _ _).mp hm⟩, rfl⟩
    · rintro ⟨b, p, a, rfl, ⟨c, rfl, hc⟩, rfl⟩
      simpa using (contains_iff _ _ _).mpr hc
  · cases ho
    simp only [OptimizedRegex.isMatch, SimpleBody.Matches, Bool.false_eq_true, false_implies, and_true,
      forall_const]
    constructor
    · intro hm
      cases text with
      | nil => cases hm
      | cons c cs => exact ⟨[], [c], cs, rfl, ⟨c, rfl, (contains_iff _ _ _).mp hm⟩, rfl⟩
    · rintro ⟨b, p, a, rfl, ⟨c, rfl, hc⟩, rfl⟩
      simpa using (contains_iff _ _ _).mpr hc
  · cases ho
    simp only [OptimizedRegex.isMatch, SimpleBody.Matches, forall_const]
    constructor
    · intro hm
      match text with
      | [] => cases hm
      | [c] =>
        simp only [List.head?_nil, Option.isNone_none, Bool.true_and] at hm
        exact ⟨[], [c], [], rfl, ⟨c, rfl, (contains_iff _ _ _).mp hm⟩, rfl, rfl⟩
      | c :: d :: r => simp at hm
    · rintro ⟨b, p, a, rfl, ⟨c, rfl, hc⟩, rfl, rfl⟩
      simpa using (contains_iff _ _ _).mpr hc

/-- C43. A simple expression with an anchor (every context of a rule has one) is always optimised, and
the optimised matcher accepts a text exactly when the expression finds something in it. -/
theorem optimizedRegex_correct (r : SimpleRegex) (hw : r.body.WF) (ha : r.atStart = true ∨ r.atEnd = true) :
    ∃ o, OptimizedRegex.ofStr r.print = .ok (some o) ∧
      ∀ text, o.isMatch text = true ↔ r.Finds text := by
  obtain ⟨st, body, en⟩ := r
  cases body with
  | literal s =>
    have h1 := ofStr_literal st en s hw
    cases h : (if st && en then (if s.isEmpty then some OptimizedRegex.isEmpty else some (.equals s))
      else if (st || en) && s.isEmpty then some .allStrings
      else if st then some (.startsWith s) else if en then some (.endsWith s) else none) with
    | none => exfalso; revert h ha; cases st <;> cases en <;> cases s <;> simp
    | some o => rw [h] at h1; exact ⟨o, h1, fun text => isMatch_literal st en s text ha o h⟩
  | oneOf neg chars =>
    have h1 := ofStr_oneOf st en neg chars hw.1 hw.2
    cases h : (if st && en then some (OptimizedRegex.equalsChar chars (!neg))
      else if st then some (.startsWithChar chars (!neg))
      else if en then some (.endsWithChar chars (!neg)) else none) with
    | none => exfalso; revert h ha; cases st <;> cases en <;> simp
    | some o => rw [h] at h1; exact ⟨o, h1, fun text => isMatch_oneOf st en neg chars text ha o h⟩

/-- C43. So, with a `regex` crate that handles simple expressions correctly, optimising them cannot be
observed. -/
theorem optimisation_invisible (R : RegexEngine)
    (hR : ∀ r : SimpleRegex, r.body.WF → ∀ text, R.isMatch r.print text = true ↔ r.Finds text)
    (r : SimpleRegex) (hw : r.body.WF) (ha : r.atStart = true ∨ r.atEnd = true) :
    ∃ c, parseContext R r.print = .ok (.ok c) ∧ ∀ text, c.isMatch R text = R.isMatch r.print text := by
  obtain ⟨o, h1, h2⟩ := optimizedRegex_correct r hw ha
  refine ⟨.optimized o, ?_, fun text => ?_⟩
  · unfold parseContext; rw [h1]; rfl
  · rw [Bool.eq_iff_iff, hR r hw]; exact h2 text

/-- C43. Recognising an expression never panics, whatever the text. -/
theorem optimizedRegex_total (s : Str) : ∃ o, OptimizedRegex.ofStr s = .ok o := by
  have cons_of : ∀ (c : Char) (x : Str), startsWith x [c] = true → ∃ y, x = c :: y := by
    intro c x h
    rw [startsWith_char, beq_iff_eq] at h
    exact List.head?_eq_some_iff.mp h
  have snoc_of : ∀ (c : Char) (x : Str), endsWith x [c] = true → ∃ y, x = y ++ [c] := by
    intro c x h
    rw [endsWith_char, beq_iff_eq] at h
    exact List.getLast?_eq_some_iff.mp h
  have both : ∀ (a c : Char) (x : Str), a ≠ c → startsWith x [a] = true → endsWith x [c] = true →
      ∃ y, x = a :: y ++ [c] := by
    intro a c x hac h1 h2
    obtain ⟨y, rfl⟩ := cons_of a x h1
    obtain ⟨z, hz⟩ := snoc_of c _ h2
    cases z with
    | nil => simp at hz; exact absurd hz.1 hac
    | cons w ws => simp at hz; exact ⟨ws, by simp [hz]⟩
  have hcontent : ∃ b, OptimizedRegex.content s (startsWith s c!"^") (endsWith s c!"$") = .ok b := by
    cases h1 : startsWith s c!"^" <;> cases h2 : endsWith s c!"$"
    · exact ⟨s, rfl⟩
    · obtain ⟨y, rfl⟩ := snoc_of _ _ h2
      have := sliceTo_last y '$' rfl
      exact ⟨y, by simp only [OptimizedRegex.content, this.1]; exact this.2⟩
    · obtain ⟨y, rfl⟩ := cons_of _ _ h1
      exact ⟨y, sliceFrom_one '^' y rfl⟩
    · obtain ⟨y, rfl⟩ := both _ _ _ (by decide) h1 h2
      have := slice_middle '^' y '$' rfl rfl
      exact ⟨y, by simp only [OptimizedRegex.content]; rw [this.1]; exact this.2⟩
  obtain ⟨b, hb⟩ := hcontent
  unfold OptimizedRegex.ofStr
  dsimp only
  rw [hb]
  simp only [bind, Except.bind]
  split
  · (repeat' split) <;> exact ⟨_, rfl⟩
  · split
    · rename_i h
      rw [Bool.and_eq_true] at h
      obtain ⟨y, rfl⟩ := both _ _ _ (by decide) h.1 h.2
      have := slice_middle '[' y ']' rfl rfl
      rw [this.1]
      simp only
      rw [this.2]
      simp only
      split
      · cases h3 : startsWith y c!"^"
        · simp only [Bool.false_eq_true, if_false]
          (repeat' split) <;> first | exact ⟨_, rfl⟩ | skip
        · obtain ⟨z, rfl⟩ := cons_of _ _ h3
          rw [if_pos rfl, sliceFrom_one '^' z rfl]
          simp only
          (repeat' split) <;> exact ⟨_, rfl⟩
      · exact ⟨_, rfl⟩
    · exact ⟨_, rfl⟩

/-- C43 cannot be extended to all expressions: without brackets, special characters are taken literally.
The context `(a|b)`, which occurs in rule files, does not match "a", and `.` matches only a dot. -/
theorem optimizedRegex_alternation_literal :
    (∃ o, OptimizedRegex.ofStr c!"^(a|b)" = .ok (some o) ∧ o.isMatch c!"a" = false ∧ o.isMatch c!"b" = false ∧
      o.isMatch c!"(a|b)" = true) ∧
    (∃ o, OptimizedRegex.ofStr c!"^." = .ok (some o) ∧ o.isMatch c!"a" = false) := by
  refine ⟨⟨.startsWith c!"(a|b)", by decide +kernel, by decide +kernel, by decide +kernel, by decide +kernel⟩,
    ⟨.startsWith c!".", by decide +kernel, by decide +kernel⟩⟩

/-- ... and a class with a range is taken character by character: `^[a-z]` does not match "b". -/
theorem optimizedRegex_range_literal :
    ∃ o, OptimizedRegex.ofStr c!"^[a-z]" = .ok (some o) ∧ o.isMatch c!"b" = false ∧ o.isMatch c!"a" = true := by
  exact ⟨.startsWithChar c!"a-z" true, by decide +kernel, by decide +kernel, by decide +kernel⟩

/-- The hypotheses hold of the expressions `^sch` and `[^aeiou]$`. -/
example : SimpleBody.WF (.literal c!"sch") ∧ SimpleRegex.print ⟨true, .literal c!"sch", false⟩ = c!"^sch" ∧
    SimpleBody.WF (.oneOf true c!"aeiou") ∧
    SimpleRegex.print ⟨false, .oneOf true c!"aeiou", true⟩ = c!"[^aeiou]$" := by
  refine ⟨?_, by decide, ?_, by decide⟩
  · show ∀ c ∈ _, _; decide
  · exact ⟨by decide, by decide⟩

end Verif.Props
