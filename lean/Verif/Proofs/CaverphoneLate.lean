import Verif.Proofs.CaverphoneVowels
/-!
# Caverphone: the rules after the vowel rules, without the compaction, in closed form
-/

set_option linter.unusedSimpArgs false

namespace Verif.CavSpec

/-- The length-preserving rules of Caverphone 1 after the vowel rules. -/
def late1 (t : Str) : Str :=
  let t := replaceAll t c!"3gh3" c!"3kh3"
  let t := replaceAll t c!"gh" c!"22"
  let t := replaceAll t c!"g" c!"k"
  let t := replaceAll t c!"w3" c!"W3"
  let t := replaceAll t c!"wy" c!"Wy"
  let t := replaceAll t c!"wh3" c!"Wh3"
  let t := replaceAll t c!"why" c!"Why"
  let t := replaceAll t c!"w" c!"2"
  let t := replaceStart t c!"h" c!"A"
  let t := replaceAll t c!"h" c!"2"
  let t := replaceAll t c!"r3" c!"R3"
  let t := replaceAll t c!"ry" c!"Ry"
  let t := replaceAll t c!"r" c!"2"
  let t := replaceAll t c!"l3" c!"L3"
  let t := replaceAll t c!"ly" c!"Ly"
  let t := replaceAll t c!"l" c!"2"
  let t := replaceAll t c!"j" c!"y"
  let t := replaceAll t c!"y3" c!"Y3"
  let t := replaceAll t c!"y" c!"2"
  t

/-- Their effect. -/
structure Late1 (H : Int → Prop) (f f' : Int → Option Char) : Prop where
  k : ∀ i, f' i = some 'k' ↔ f i = some 'k' ∨ f i = some 'g' ∧ (H i ∨ f (i + 1) ≠ some 'h')
  W : ∀ i, f' i = some 'W' ↔ f i = some 'W' ∨ f i = some 'w' ∧ (f (i + 1) = some '3' ∨ f (i + 1) = some 'y' ∨
    f (i + 1) = some 'h' ∧ (f (i + 2) = some '3' ∨ f (i + 2) = some 'y'))
  A : ∀ i, f' i = some 'A' ↔ f i = some 'A' ∨ i = 0 ∧ f i = some 'h'
  R : ∀ i, f' i = some 'R' ↔ f i = some 'R' ∨ f i = some 'r' ∧ (f (i + 1) = some '3' ∨ f (i + 1) = some 'y')
  L : ∀ i, f' i = some 'L' ↔ f i = some 'L' ∨ f i = some 'l' ∧ (f (i + 1) = some '3' ∨ f (i + 1) = some 'y')
  Y : ∀ i, f' i = some 'Y' ↔ f i = some 'Y' ∨ (f i = some 'y' ∨ f i = some 'j') ∧ f (i + 1) = some '3'
  two : ∀ i, f' i = some '2' ↔ f i = some '2' ∨
    f i = some 'g' ∧ ¬ H i ∧ f (i + 1) = some 'h' ∨
    f i = some 'h' ∧ i ≠ 0 ∨
    f i = some 'w' ∧ ¬ (f (i + 1) = some '3' ∨ f (i + 1) = some 'y' ∨
      f (i + 1) = some 'h' ∧ (f (i + 2) = some '3' ∨ f (i + 2) = some 'y')) ∨
    f i = some 'r' ∧ ¬ (f (i + 1) = some '3' ∨ f (i + 1) = some 'y') ∨
    f i = some 'l' ∧ ¬ (f (i + 1) = some '3' ∨ f (i + 1) = some 'y') ∨
    (f i = some 'y' ∨ f i = some 'j') ∧ ¬ f (i + 1) = some '3'
  same : ∀ i, ∀ x, x ∉ c!"kWARLY2ghwrlyj" → (f' i = some x ↔ f i = some x)
  none : ∀ i, f' i = none ↔ f i = none

theorem late1_ok (t : Str) : Late1 (fun i => ∃ k : Nat, i = k + 1 ∧ hit (g t) k) (g t) (g (late1 t)) := by
  have h0 : g t (0 - 1) = none := g_neg _ (by omega)
  unfold late1
  dsimp only
  have h1 := sub_hard t
  generalize replaceAll t ['3', 'g', 'h', '3'] ['3', 'k', 'h', '3'] = t1 at h1 ⊢
  obtain ⟨f2, h2, h3⟩ := sub_pair t1 (a := 'g') (p := 'h') (x := '2') (r := '2') (by decide) (by decide)
  generalize replaceAll t1 ['g', 'h'] ['2', '2'] = t3 at h3 ⊢
  have h4 := sub_char t3 'g' 'k'
  generalize replaceAll t3 ['g'] ['k'] = t4 at h4 ⊢
  have h5 := sub_next t4 (p := 'w') (r := 'W') (a := '3') (by decide)
  generalize replaceAll t4 ['w', '3'] ['W', '3'] = t5 at h5 ⊢
  have h6 := sub_next t5 (p := 'w') (r := 'W') (a := 'y') (by decide)
  generalize replaceAll t5 ['w', 'y'] ['W', 'y'] = t6 at h6 ⊢
  have h7 := sub_next2 t6 (p := 'w') (r := 'W') (a := 'h') (b := '3') (by decide) (by decide)
  generalize replaceAll t6 ['w', 'h', '3'] ['W', 'h', '3'] = t7 at h7 ⊢
  have h8 := sub_next2 t7 (p := 'w') (r := 'W') (a := 'h') (b := 'y') (by decide) (by decide)
  generalize replaceAll t7 ['w', 'h', 'y'] ['W', 'h', 'y'] = t8 at h8 ⊢
  have h9 := sub_char t8 'w' '2'
  generalize replaceAll t8 ['w'] ['2'] = t9 at h9 ⊢
  have h10 := sub_start t9 'h' 'A'
  generalize replaceStart t9 ['h'] ['A'] = t10 at h10 ⊢
  have h11 := sub_char t10 'h' '2'
  generalize replaceAll t10 ['h'] ['2'] = t11 at h11 ⊢
  have h12 := sub_next t11 (p := 'r') (r := 'R') (a := '3') (by decide)
  generalize replaceAll t11 ['r', '3'] ['R', '3'] = t12 at h12 ⊢
  have h13 := sub_next t12 (p := 'r') (r := 'R') (a := 'y') (by decide)
  generalize replaceAll t12 ['r', 'y'] ['R', 'y'] = t13 at h13 ⊢
  have h14 := sub_char t13 'r' '2'
  generalize replaceAll t13 ['r'] ['2'] = t14 at h14 ⊢
  have h15 := sub_next t14 (p := 'l') (r := 'L') (a := '3') (by decide)
  generalize replaceAll t14 ['l', '3'] ['L', '3'] = t15 at h15 ⊢
  have h16 := sub_next t15 (p := 'l') (r := 'L') (a := 'y') (by decide)
  generalize replaceAll t15 ['l', 'y'] ['L', 'y'] = t16 at h16 ⊢
  have h17 := sub_char t16 'l' '2'
  generalize replaceAll t16 ['l'] ['2'] = t17 at h17 ⊢
  have h18 := sub_char t17 'j' 'y'
  generalize replaceAll t17 ['j'] ['y'] = t18 at h18 ⊢
  have h19 := sub_next t18 (p := 'y') (r := 'Y') (a := '3') (by decide)
  generalize replaceAll t18 ['y', '3'] ['Y', '3'] = t19 at h19 ⊢
  have h20 := sub_char t19 'y' '2'
  generalize replaceAll t19 ['y'] ['2'] = t20 at h20 ⊢
  generalize (fun i : Int => ∃ k : Nat, i = k + 1 ∧ hit (g t) k) = H at *
  generalize g t = f at *
  generalize g t1 = f1 at *
  generalize g t3 = f3 at *
  generalize g t4 = f4 at *
  generalize g t5 = f5 at *
  generalize g t6 = f6 at *
  generalize g t7 = f7 at *
  generalize g t8 = f8 at *
  generalize g t9 = f9 at *
  generalize g t10 = f10 at *
  generalize g t11 = f11 at *
  generalize g t12 = f12 at *
  generalize g t13 = f13 at *
  generalize g t14 = f14 at *
  generalize g t15 = f15 at *
  generalize g t16 = f16 at *
  generalize g t17 = f17 at *
  generalize g t18 = f18 at *
  generalize g t19 = f19 at *
  generalize g t20 = f20 at *
  have E1 : ∀ i : Int, i + 1 - 1 = i := by intro i; omega
  have E2 : ∀ i : Int, i + 1 + 1 = i + 2 := by intro i; omega
  have E3 : ∀ i : Int, i - 1 + 1 = i := by intro i; omega
  have E4 : ∀ i : Int, i + 2 - 1 = i + 1 := by intro i; omega
  constructor
  case same =>
    intro i x hx
    simp only [List.mem_cons, List.not_mem_nil, or_false, not_or] at hx
    obtain ⟨x1, x2, x3, x4, x5, x6, x7, x8, x9, x10, x11, x12, x13, x14⟩ := hx
    simp only [h20.other, h19.other, h18.other, h17.other, h16.other, h15.other, h14.other, h13.other, h12.other, h11.other, h10.other, h9.other, h8.other, h7.other, h6.other, h5.other, h4.other, h3.other, h2.other, h1.other, x1, x2, x3, x4, x5, x6, x7, x8, x9, x10, x11, x12, x13, x14, ne_eq, not_false_eq_true]
  all_goals intro i
  all_goals simp only [h20.other, h20.old, h20.new, h20.none_iff, h19.other, h19.old, h19.new, h19.none_iff, h18.other, h18.old, h18.new, h18.none_iff, h17.other, h17.old, h17.new, h17.none_iff, h16.other, h16.old, h16.new, h16.none_iff, h15.other, h15.old, h15.new, h15.none_iff, h14.other, h14.old, h14.new, h14.none_iff, h13.other, h13.old, h13.new, h13.none_iff, h12.other, h12.old, h12.new, h12.none_iff, h11.other, h11.old, h11.new, h11.none_iff, h10.other, h10.old, h10.new, h10.none_iff, h9.other, h9.old, h9.new, h9.none_iff, h8.other, h8.old, h8.new, h8.none_iff, h7.other, h7.old, h7.new, h7.none_iff, h6.other, h6.old, h6.new, h6.none_iff, h5.other, h5.old, h5.new, h5.none_iff, h4.other, h4.old, h4.new, h4.none_iff, h3.other, h3.old, h3.new, h3.none_iff, h2.other, h2.old, h2.new, h2.none_iff, h1.other, h1.old, h1.new, h1.none_iff, E1, E2, E3, E4, reduceCtorEq, Char.reduceEq, Option.some.injEq, ne_eq, not_false_eq_true, and_true, true_and, not_true_eq_false, and_false, false_and, or_false, false_or, true_or, or_true]
  all_goals clear h1 h2 h3 h4 h5 h6 h7 h8 h9 h10 h11 h12 h13 h14 h15 h16 h17 h18 h19 h20 E1 E2 E3 E4
  all_goals first | done | grind (splits := 80) -verbose only

/-- The rules of Caverphone 2 for y and j. -/
def mid2 (t : Str) : Str :=
  let t := replaceAll t c!"j" c!"y"
  let t := replaceStart t c!"y3" c!"Y3"
  let t := replaceStart t c!"y" c!"A"
  let t := replaceAll t c!"y" c!"3"
  t

/-- Their effect. -/
structure Mid2 (f f' : Int → Option Char) : Prop where
  Y : ∀ i, f' i = some 'Y' ↔ f i = some 'Y' ∨ i = 0 ∧ (f i = some 'y' ∨ f i = some 'j') ∧ f (i + 1) = some '3'
  A : ∀ i, f' i = some 'A' ↔ f i = some 'A' ∨ i = 0 ∧ (f i = some 'y' ∨ f i = some 'j') ∧ f (i + 1) ≠ some '3'
  three : ∀ i, f' i = some '3' ↔ f i = some '3' ∨ i ≠ 0 ∧ (f i = some 'y' ∨ f i = some 'j')
  same : ∀ i, ∀ x, x ∉ c!"YA3yj" → (f' i = some x ↔ f i = some x)
  none : ∀ i, f' i = none ↔ f i = none

theorem mid2_ok (t : Str) : Mid2 (g t) (g (mid2 t)) := by
  unfold mid2
  dsimp only
  have h1 := sub_char t 'j' 'y'
  generalize replaceAll t ['j'] ['y'] = t1 at h1 ⊢
  have h2 := sub_start2 t1 'y' 'Y' '3'
  generalize replaceStart t1 ['y', '3'] ['Y', '3'] = t2 at h2 ⊢
  have h3 := sub_start t2 'y' 'A'
  generalize replaceStart t2 ['y'] ['A'] = t3 at h3 ⊢
  have h4 := sub_char t3 'y' '3'
  generalize replaceAll t3 ['y'] ['3'] = t4 at h4 ⊢
  generalize g t = f at *
  generalize g t1 = f1 at *
  generalize g t2 = f2 at *
  generalize g t3 = f3 at *
  generalize g t4 = f4 at *
  have E1 : ∀ i : Int, i + 1 - 1 = i := by intro i; omega
  have E2 : ∀ i : Int, i + 1 + 1 = i + 2 := by intro i; omega
  have E3 : ∀ i : Int, i - 1 + 1 = i := by intro i; omega
  have E4 : ∀ i : Int, i + 2 - 1 = i + 1 := by intro i; omega
  constructor
  case same =>
    intro i x hx
    simp only [List.mem_cons, List.not_mem_nil, or_false, not_or] at hx
    obtain ⟨x1, x2, x3, x4, x5⟩ := hx
    simp only [h4.other, h3.other, h2.other, h1.other, x1, x2, x3, x4, x5, ne_eq, not_false_eq_true]
  all_goals intro i
  all_goals simp only [h4.other, h4.old, h4.new, h4.none_iff, h3.other, h3.old, h3.new, h3.none_iff, h2.other, h2.old, h2.new, h2.none_iff, h1.other, h1.old, h1.new, h1.none_iff, E1, E2, E3, E4, reduceCtorEq, Char.reduceEq, Option.some.injEq, ne_eq, not_false_eq_true, and_true, true_and, not_true_eq_false, and_false, false_and, or_false, false_or, true_or, or_true]
  all_goals clear h1 h2 h3 h4 E1 E2 E3 E4
  all_goals first | done | grind (splits := 80) -verbose only

/-- The later length-preserving rules of Caverphone 2. -/
def late2 (t : Str) : Str :=
  let t := replaceAll t c!"3gh3" c!"3kh3"
  let t := replaceAll t c!"gh" c!"22"
  let t := replaceAll t c!"g" c!"k"
  let t := replaceAll t c!"w3" c!"W3"
  let t := replaceAll t c!"wh3" c!"Wh3"
  let t := replaceEnd t c!"w" c!"3"
  let t := replaceAll t c!"w" c!"2"
  let t := replaceStart t c!"h" c!"A"
  let t := replaceAll t c!"h" c!"2"
  let t := replaceAll t c!"r3" c!"R3"
  let t := replaceEnd t c!"r" c!"3"
  let t := replaceAll t c!"r" c!"2"
  let t := replaceAll t c!"l3" c!"L3"
  let t := replaceEnd t c!"l" c!"3"
  let t := replaceAll t c!"l" c!"2"
  t

/-- Their effect. -/
structure Late2 (H : Int → Prop) (f f' : Int → Option Char) : Prop where
  k : ∀ i, f' i = some 'k' ↔ f i = some 'k' ∨ f i = some 'g' ∧ (H i ∨ f (i + 1) ≠ some 'h')
  W : ∀ i, f' i = some 'W' ↔ f i = some 'W' ∨ f i = some 'w' ∧ (f (i + 1) = some '3' ∨ f (i + 1) = some 'h' ∧ f (i + 2) = some '3')
  A : ∀ i, f' i = some 'A' ↔ f i = some 'A' ∨ i = 0 ∧ f i = some 'h'
  R : ∀ i, f' i = some 'R' ↔ f i = some 'R' ∨ f i = some 'r' ∧ (f (i + 1) = some '3' ∨ f (i + 1) = some 'w' ∧ f (i + 2) = none)
  L : ∀ i, f' i = some 'L' ↔ f i = some 'L' ∨ f i = some 'l' ∧ (f (i + 1) = some '3' ∨ (f (i + 1) = some 'w' ∨ f (i + 1) = some 'r') ∧ f (i + 2) = none)
  three : ∀ i, f' i = some '3' ↔ f i = some '3' ∨ (f i = some 'w' ∨ f i = some 'r' ∨ f i = some 'l') ∧ f (i + 1) = none
  two : ∀ i, f' i = some '2' ↔ f i = some '2' ∨
    f i = some 'g' ∧ ¬ H i ∧ f (i + 1) = some 'h' ∨
    f i = some 'h' ∧ i ≠ 0 ∨
    f (i + 1) ≠ none ∧ (f i = some 'w' ∧ ¬ (f (i + 1) = some '3' ∨ f (i + 1) = some 'h' ∧ f (i + 2) = some '3') ∨ f i = some 'r' ∧ ¬ (f (i + 1) = some '3' ∨ f (i + 1) = some 'w' ∧ f (i + 2) = none) ∨ f i = some 'l' ∧ ¬ (f (i + 1) = some '3' ∨ (f (i + 1) = some 'w' ∨ f (i + 1) = some 'r') ∧ f (i + 2) = none))
  same : ∀ i, ∀ x, x ∉ c!"kWARL32ghwrl" → (f' i = some x ↔ f i = some x)
  none : ∀ i, f' i = none ↔ f i = none

theorem late2_ok (t : Str) : Late2 (fun i => ∃ k : Nat, i = k + 1 ∧ hit (g t) k) (g t) (g (late2 t)) := by
  have h0 : g t (0 - 1) = none := g_neg _ (by omega)
  unfold late2
  dsimp only
  have h1 := sub_hard t
  generalize replaceAll t ['3', 'g', 'h', '3'] ['3', 'k', 'h', '3'] = t1 at h1 ⊢
  obtain ⟨f2, h2, h3⟩ := sub_pair t1 (a := 'g') (p := 'h') (x := '2') (r := '2') (by decide) (by decide)
  generalize replaceAll t1 ['g', 'h'] ['2', '2'] = t3 at h3 ⊢
  have h4 := sub_char t3 'g' 'k'
  generalize replaceAll t3 ['g'] ['k'] = t4 at h4 ⊢
  have h5 := sub_next t4 (p := 'w') (r := 'W') (a := '3') (by decide)
  generalize replaceAll t4 ['w', '3'] ['W', '3'] = t5 at h5 ⊢
  have h6 := sub_next2 t5 (p := 'w') (r := 'W') (a := 'h') (b := '3') (by decide) (by decide)
  generalize replaceAll t5 ['w', 'h', '3'] ['W', 'h', '3'] = t6 at h6 ⊢
  have h7 := sub_end t6 'w' '3'
  generalize replaceEnd t6 ['w'] ['3'] = t7 at h7 ⊢
  have h8 := sub_char t7 'w' '2'
  generalize replaceAll t7 ['w'] ['2'] = t8 at h8 ⊢
  have h9 := sub_start t8 'h' 'A'
  generalize replaceStart t8 ['h'] ['A'] = t9 at h9 ⊢
  have h10 := sub_char t9 'h' '2'
  generalize replaceAll t9 ['h'] ['2'] = t10 at h10 ⊢
  have h11 := sub_next t10 (p := 'r') (r := 'R') (a := '3') (by decide)
  generalize replaceAll t10 ['r', '3'] ['R', '3'] = t11 at h11 ⊢
  have h12 := sub_end t11 'r' '3'
  generalize replaceEnd t11 ['r'] ['3'] = t12 at h12 ⊢
  have h13 := sub_char t12 'r' '2'
  generalize replaceAll t12 ['r'] ['2'] = t13 at h13 ⊢
  have h14 := sub_next t13 (p := 'l') (r := 'L') (a := '3') (by decide)
  generalize replaceAll t13 ['l', '3'] ['L', '3'] = t14 at h14 ⊢
  have h15 := sub_end t14 'l' '3'
  generalize replaceEnd t14 ['l'] ['3'] = t15 at h15 ⊢
  have h16 := sub_char t15 'l' '2'
  generalize replaceAll t15 ['l'] ['2'] = t16 at h16 ⊢
  generalize (fun i : Int => ∃ k : Nat, i = k + 1 ∧ hit (g t) k) = H at *
  generalize g t = f at *
  generalize g t1 = f1 at *
  generalize g t3 = f3 at *
  generalize g t4 = f4 at *
  generalize g t5 = f5 at *
  generalize g t6 = f6 at *
  generalize g t7 = f7 at *
  generalize g t8 = f8 at *
  generalize g t9 = f9 at *
  generalize g t10 = f10 at *
  generalize g t11 = f11 at *
  generalize g t12 = f12 at *
  generalize g t13 = f13 at *
  generalize g t14 = f14 at *
  generalize g t15 = f15 at *
  generalize g t16 = f16 at *
  have E1 : ∀ i : Int, i + 1 - 1 = i := by intro i; omega
  have E2 : ∀ i : Int, i + 1 + 1 = i + 2 := by intro i; omega
  have E3 : ∀ i : Int, i - 1 + 1 = i := by intro i; omega
  have E4 : ∀ i : Int, i + 2 - 1 = i + 1 := by intro i; omega
  constructor
  case same =>
    intro i x hx
    simp only [List.mem_cons, List.not_mem_nil, or_false, not_or] at hx
    obtain ⟨x1, x2, x3, x4, x5, x6, x7, x8, x9, x10, x11, x12⟩ := hx
    simp only [h16.other, h15.other, h14.other, h13.other, h12.other, h11.other, h10.other, h9.other, h8.other, h7.other, h6.other, h5.other, h4.other, h3.other, h2.other, h1.other, x1, x2, x3, x4, x5, x6, x7, x8, x9, x10, x11, x12, ne_eq, not_false_eq_true]
  all_goals intro i
  all_goals simp only [h16.other, h16.old, h16.new, h16.none_iff, h15.other, h15.old, h15.new, h15.none_iff, h14.other, h14.old, h14.new, h14.none_iff, h13.other, h13.old, h13.new, h13.none_iff, h12.other, h12.old, h12.new, h12.none_iff, h11.other, h11.old, h11.new, h11.none_iff, h10.other, h10.old, h10.new, h10.none_iff, h9.other, h9.old, h9.new, h9.none_iff, h8.other, h8.old, h8.new, h8.none_iff, h7.other, h7.old, h7.new, h7.none_iff, h6.other, h6.old, h6.new, h6.none_iff, h5.other, h5.old, h5.new, h5.none_iff, h4.other, h4.old, h4.new, h4.none_iff, h3.other, h3.old, h3.new, h3.none_iff, h2.other, h2.old, h2.new, h2.none_iff, h1.other, h1.old, h1.new, h1.none_iff, E1, E2, E3, E4, reduceCtorEq, Char.reduceEq, Option.some.injEq, ne_eq, not_false_eq_true, and_true, true_and, not_true_eq_false, and_false, false_and, or_false, false_or, true_or, or_true]
  all_goals clear h1 h2 h3 h4 h5 h6 h7 h8 h9 h10 h11 h12 h13 h14 h15 h16 E1 E2 E3 E4
  all_goals first | done | grind (splits := 80) -verbose only

end Verif.CavSpec
