import Verif.Proofs.CaverphoneSpec
/-!
# Caverphone: the consonant rules in closed form
-/

set_option linter.unusedSimpArgs false

namespace Verif.CavSpec

/-- The effect of the consonant rules. -/
structure Consonants (f f' : Int → Option Char) : Prop where
  k : ∀ i, f' i = some 'k' ↔ f i = some 'k' ∨ f i = some 'q' ∨ f i = some 'x' ∨
    f i = some 'c' ∧ ¬ (f (i + 1) = some 'q' ∨ f (i + 1) = some 'i' ∨ f (i + 1) = some 'e' ∨ f (i + 1) = some 'y')
  s : ∀ i, f' i = some 's' ↔ f i = some 's' ∨ f i = some 'z' ∨
    f i = some 'c' ∧ (f (i + 1) = some 'i' ∨ f (i + 1) = some 'e' ∨ f (i + 1) = some 'y') ∨
    f i = some 't' ∧ f (i + 1) = some 'i' ∧ (f (i + 2) = some 'o' ∨ f (i + 2) = some 'a')
  t : ∀ i, f' i = some 't' ↔ f i = some 'd' ∧ f (i + 1) ≠ some 'g' ∨
    f i = some 't' ∧ ¬ (f (i + 1) = some 'c' ∧ f (i + 2) = some 'h') ∧
      ¬ (f (i + 1) = some 'i' ∧ (f (i + 2) = some 'o' ∨ f (i + 2) = some 'a'))
  f_ : ∀ i, f' i = some 'f' ↔ f i = some 'f' ∨ f i = some 'v' ∨ f i = some 'p' ∧ f (i + 1) = some 'h'
  p : ∀ i, f' i = some 'p' ↔ f i = some 'p' ∧ f (i + 1) ≠ some 'h' ∨
    f i = some 'b' ∧ ¬ (f (i + 1) = none ∧ f (i - 1) = some 'm')
  h : ∀ i, f' i = some 'h' ↔ f i = some 'h' ∧ f (i - 1) ≠ some 's'
  two : ∀ i, f' i = some '2' ↔ f i = some '2' ∨ f i = some 'b' ∧ f (i + 1) = none ∧ f (i - 1) = some 'm' ∨
    f i = some 'c' ∧ f (i + 1) = some 'q' ∨ f i = some 't' ∧ f (i + 1) = some 'c' ∧ f (i + 2) = some 'h' ∨
    f i = some 'd' ∧ f (i + 1) = some 'g' ∨ f i = some 'h' ∧ f (i - 1) = some 's'
  gone : ∀ i, ∀ x ∈ c!"bcdqvxz", f' i ≠ some x
  same : ∀ i, ∀ x, x ∉ c!"kstfph2bcdqvxz" → (f' i = some x ↔ f i = some x)
  none : ∀ i, f' i = none ↔ f i = none

theorem consonants (w : Str) : Consonants (g w) (g (cavConsonants w)) := by
  unfold cavConsonants
  dsimp only
  have h1 := sub_end2 w (q := 'm') (p := 'b') (r := '2')
  generalize replaceEnd w ['m', 'b'] ['m', '2'] = t1 at h1 ⊢
  have h2 := sub_next t1 (p := 'c') (r := '2') (a := 'q') (by decide)
  generalize replaceAll t1 ['c', 'q'] ['2', 'q'] = t2 at h2 ⊢
  have h3 := sub_next t2 (p := 'c') (r := 's') (a := 'i') (by decide)
  generalize replaceAll t2 ['c', 'i'] ['s', 'i'] = t3 at h3 ⊢
  have h4 := sub_next t3 (p := 'c') (r := 's') (a := 'e') (by decide)
  generalize replaceAll t3 ['c', 'e'] ['s', 'e'] = t4 at h4 ⊢
  have h5 := sub_next t4 (p := 'c') (r := 's') (a := 'y') (by decide)
  generalize replaceAll t4 ['c', 'y'] ['s', 'y'] = t5 at h5 ⊢
  have h6 := sub_next2 t5 (p := 't') (r := '2') (a := 'c') (b := 'h') (by decide) (by decide)
  generalize replaceAll t5 ['t', 'c', 'h'] ['2', 'c', 'h'] = t6 at h6 ⊢
  have h7 := sub_char t6 'c' 'k'
  generalize replaceAll t6 ['c'] ['k'] = t7 at h7 ⊢
  have h8 := sub_char t7 'q' 'k'
  generalize replaceAll t7 ['q'] ['k'] = t8 at h8 ⊢
  have h9 := sub_char t8 'x' 'k'
  generalize replaceAll t8 ['x'] ['k'] = t9 at h9 ⊢
  have h10 := sub_char t9 'v' 'f'
  generalize replaceAll t9 ['v'] ['f'] = t10 at h10 ⊢
  have h11 := sub_next t10 (p := 'd') (r := '2') (a := 'g') (by decide)
  generalize replaceAll t10 ['d', 'g'] ['2', 'g'] = t11 at h11 ⊢
  have h12 := sub_next2 t11 (p := 't') (r := 's') (a := 'i') (b := 'o') (by decide) (by decide)
  generalize replaceAll t11 ['t', 'i', 'o'] ['s', 'i', 'o'] = t12 at h12 ⊢
  have h13 := sub_next2 t12 (p := 't') (r := 's') (a := 'i') (b := 'a') (by decide) (by decide)
  generalize replaceAll t12 ['t', 'i', 'a'] ['s', 'i', 'a'] = t13 at h13 ⊢
  have h14 := sub_char t13 'd' 't'
  generalize replaceAll t13 ['d'] ['t'] = t14 at h14 ⊢
  have h15 := sub_next t14 (p := 'p') (r := 'f') (a := 'h') (by decide)
  generalize replaceAll t14 ['p', 'h'] ['f', 'h'] = t15 at h15 ⊢
  have h16 := sub_char t15 'b' 'p'
  generalize replaceAll t15 ['b'] ['p'] = t16 at h16 ⊢
  have h17 := sub_prev t16 (a := 's') (p := 'h') (r := '2') (by decide)
  generalize replaceAll t16 ['s', 'h'] ['s', '2'] = t17 at h17 ⊢
  have h18 := sub_char t17 'z' 's'
  generalize replaceAll t17 ['z'] ['s'] = t18 at h18 ⊢
  generalize g w = f at *
  generalize g t1 = f1 at *
  generalize g t2 = f2 at *
  generalize g t3 = f3 at *
  generalize g t4 = f4 at *
  generalize g t5 = f5 at *
  generalize g t6 = f6 at *
  generalize g t7 = f7 at *
  generalize g t8 = f8 at *
  generalize g t9 = f9 at *
  generalize g t10 = f10 at *
  generalize g t11 = f11 at *
  generalize g t12 = f12 at *
  generalize g t13 = f13 at *
  generalize g t14 = f14 at *
  generalize g t15 = f15 at *
  generalize g t16 = f16 at *
  generalize g t17 = f17 at *
  generalize g t18 = f18 at *
  have E1 : ∀ i : Int, i + 1 - 1 = i := by intro i; omega
  have E2 : ∀ i : Int, i + 1 + 1 = i + 2 := by intro i; omega
  have E3 : ∀ i : Int, i - 1 + 1 = i := by intro i; omega
  constructor
  case gone =>
    intro i x hx
    simp only [List.mem_cons, List.not_mem_nil, or_false] at hx
    rcases hx with rfl | rfl | rfl | rfl | rfl | rfl | rfl
    all_goals simp only [h18.other, h18.old, h18.new, h18.none_iff, h17.other, h17.old, h17.new, h17.none_iff, h16.other, h16.old, h16.new, h16.none_iff, h15.other, h15.old, h15.new, h15.none_iff, h14.other, h14.old, h14.new, h14.none_iff, h13.other, h13.old, h13.new, h13.none_iff, h12.other, h12.old, h12.new, h12.none_iff, h11.other, h11.old, h11.new, h11.none_iff, h10.other, h10.old, h10.new, h10.none_iff, h9.other, h9.old, h9.new, h9.none_iff, h8.other, h8.old, h8.new, h8.none_iff, h7.other, h7.old, h7.new, h7.none_iff, h6.other, h6.old, h6.new, h6.none_iff, h5.other, h5.old, h5.new, h5.none_iff, h4.other, h4.old, h4.new, h4.none_iff, h3.other, h3.old, h3.new, h3.none_iff, h2.other, h2.old, h2.new, h2.none_iff, h1.other, h1.old, h1.new, h1.none_iff, E1, E2, E3, reduceCtorEq, Char.reduceEq, Option.some.injEq, ne_eq, not_false_eq_true, and_true, true_and, not_true_eq_false, and_false, false_and, or_false, false_or]
    all_goals grind
  case same =>
    intro i x hx
    simp only [List.mem_cons, List.not_mem_nil, or_false, not_or] at hx
    obtain ⟨x1, x2, x3, x4, x5, x6, x7, x8, x9, x10, x11, x12, x13, x14⟩ := hx
    simp only [h18.other, h17.other, h16.other, h15.other, h14.other, h13.other, h12.other, h11.other, h10.other, h9.other, h8.other, h7.other, h6.other, h5.other, h4.other, h3.other, h2.other, h1.other, x1, x2, x3, x4, x5, x6, x7, x8, x9, x10, x11, x12, x13, x14, ne_eq, not_false_eq_true]
  all_goals intro i
  all_goals simp only [h18.other, h18.old, h18.new, h18.none_iff, h17.other, h17.old, h17.new, h17.none_iff, h16.other, h16.old, h16.new, h16.none_iff, h15.other, h15.old, h15.new, h15.none_iff, h14.other, h14.old, h14.new, h14.none_iff, h13.other, h13.old, h13.new, h13.none_iff, h12.other, h12.old, h12.new, h12.none_iff, h11.other, h11.old, h11.new, h11.none_iff, h10.other, h10.old, h10.new, h10.none_iff, h9.other, h9.old, h9.new, h9.none_iff, h8.other, h8.old, h8.new, h8.none_iff, h7.other, h7.old, h7.new, h7.none_iff, h6.other, h6.old, h6.new, h6.none_iff, h5.other, h5.old, h5.new, h5.none_iff, h4.other, h4.old, h4.new, h4.none_iff, h3.other, h3.old, h3.new, h3.none_iff, h2.other, h2.old, h2.new, h2.none_iff, h1.other, h1.old, h1.new, h1.none_iff, E1, E2, E3, reduceCtorEq, Char.reduceEq, Option.some.injEq, ne_eq, not_false_eq_true, and_true, true_and, not_true_eq_false, and_false, false_and, or_false, false_or]
  all_goals clear h1 h2 h3 h4 h5 h6 h7 h8 h9 h10 h11 h12 h13 h14 h15 h16 h17 h18 E1 E2 E3
  all_goals grind (splits := 60) -verbose only

end Verif.CavSpec
