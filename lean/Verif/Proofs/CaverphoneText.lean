import Verif.Proofs.CaverphonePrefixes
import Verif.Proofs.CaverphoneConsonants
import Verif.Proofs.CaverphoneCompact
/-!
# Caverphone: the text after the vowel rules, as a function of the word
-/

set_option linter.unusedSimpArgs false

namespace Verif.CavSpec
open Spec.Caverphone

/-- The letters of the word are not among the marks of the encoders. -/
def Plain (w : Str) : Prop := ∀ c ∈ w, c ∉ c!"23AWRLYSTPKFMN"

theorem plain_g {w : Str} (h : Plain w) (i : Int) {c : Char} (hc : c ∈ c!"23AWRLYSTPKFMN") : g w i ≠ some c := by
  intro e
  unfold g at e
  split at e
  · simp at e
  · exact h c (List.mem_of_getElem? e) hc

/-- Shared by the two versions: everything but the vowels, y and j. -/
structure Text (T : Int → Prop) (f f' : Int → Option Char) : Prop where
  two : ∀ i, f' i = some '2' ↔
    f i = some 'g' ∧ (T i ∨ i = 0 ∧ f (i + 1) = some 'n') ∨
    f i = some 'b' ∧ f (i + 1) = none ∧ f (i - 1) = some 'm' ∨
    f i = some 'c' ∧ f (i + 1) = some 'q' ∨ f i = some 't' ∧ f (i + 1) = some 'c' ∧ f (i + 2) = some 'h' ∨
    f i = some 'd' ∧ f (i + 1) = some 'g' ∨ f i = some 'h' ∧ f (i - 1) = some 's'
  g_ : ∀ i, f' i = some 'g' ↔ f i = some 'g' ∧ ¬ (T i ∨ i = 0 ∧ f (i + 1) = some 'n')
  h : ∀ i, f' i = some 'h' ↔ f i = some 'h' ∧ ¬ T (i - 1) ∧ f (i - 1) ≠ some 's'
  k : ∀ i, f' i = some 'k' ↔ f i = some 'k' ∨ f i = some 'q' ∨ f i = some 'x' ∨
    f i = some 'c' ∧ ¬ (f (i + 1) = some 'q' ∨ f (i + 1) = some 'i' ∨ f (i + 1) = some 'e' ∨ f (i + 1) = some 'y')
  s : ∀ i, f' i = some 's' ↔ f i = some 's' ∨ f i = some 'z' ∨
    f i = some 'c' ∧ (f (i + 1) = some 'i' ∨ f (i + 1) = some 'e' ∨ f (i + 1) = some 'y') ∨
    f i = some 't' ∧ f (i + 1) = some 'i' ∧ (f (i + 2) = some 'o' ∨ f (i + 2) = some 'a')
  t : ∀ i, f' i = some 't' ↔ f i = some 'd' ∧ f (i + 1) ≠ some 'g' ∨
    f i = some 't' ∧ ¬ (f (i + 1) = some 'c' ∧ f (i + 2) = some 'h') ∧
      ¬ (f (i + 1) = some 'i' ∧ (f (i + 2) = some 'o' ∨ f (i + 2) = some 'a'))
  f_ : ∀ i, f' i = some 'f' ↔ f i = some 'f' ∨ f i = some 'v' ∨ f i = some 'p' ∧ f (i + 1) = some 'h' ∨
    f i = some 'h' ∧ T (i - 1)
  p : ∀ i, f' i = some 'p' ↔ f i = some 'p' ∧ f (i + 1) ≠ some 'h' ∨
    f i = some 'b' ∧ ¬ (f (i + 1) = none ∧ f (i - 1) = some 'm')
  same : ∀ i, ∀ x, x ∉ c!"2ghkstfpbcdqvxz3AYaeiouyj" → (f' i = some x ↔ f i = some x)
  none : ∀ i, f' i = none ↔ f i = none

/-- The vowels of the first version. -/
structure Text1 (T : Int → Prop) (f f' : Int → Option Char) : Prop extends Text T f f' where
  A : ∀ i, f' i = some 'A' ↔ i = 0 ∧ (f i = some 'a' ∨ f i = some 'e' ∨ f i = some 'i' ∨ f i = some 'o' ∨ f i = some 'u')
  three : ∀ i, f' i = some '3' ↔ i ≠ 0 ∧ (f i = some 'a' ∨ f i = some 'e' ∨ f i = some 'i' ∨ f i = some 'o' ∨ f i = some 'u')
  y : ∀ i, f' i = some 'y' ↔ f i = some 'y'
  j : ∀ i, f' i = some 'j' ↔ f i = some 'j'
  Y : ∀ i, f' i ≠ some 'Y'

/-- The vowels of the second version. -/
structure Text2 (T : Int → Prop) (f f' : Int → Option Char) : Prop extends Text T f f' where
  A : ∀ i, f' i = some 'A' ↔ i = 0 ∧ (f i = some 'a' ∨ f i = some 'e' ∨ f i = some 'i' ∨ f i = some 'o' ∨ f i = some 'u' ∨
    (f i = some 'y' ∨ f i = some 'j') ∧
      ¬ (f (i + 1) = some 'a' ∨ f (i + 1) = some 'e' ∨ f (i + 1) = some 'i' ∨ f (i + 1) = some 'o' ∨ f (i + 1) = some 'u'))
  Y : ∀ i, f' i = some 'Y' ↔ i = 0 ∧ (f i = some 'y' ∨ f i = some 'j') ∧
      (f (i + 1) = some 'a' ∨ f (i + 1) = some 'e' ∨ f (i + 1) = some 'i' ∨ f (i + 1) = some 'o' ∨ f (i + 1) = some 'u')
  three : ∀ i, f' i = some '3' ↔ i ≠ 0 ∧ (f i = some 'a' ∨ f i = some 'e' ∨ f i = some 'i' ∨ f i = some 'o' ∨ f i = some 'u' ∨
    f i = some 'y' ∨ f i = some 'j')

theorem text_base {T : Int → Prop} {w : Str} {f1 f2 f3 : Int → Option Char} (hw : Plain w)
    (P : Prefixes T (g w) f1) (C : Consonants f1 f2) (V : Vowels f2 f3) (hT : ∀ i, T i → g w i = some 'g' ∧ g w (i + 1) = some 'h' ∧ g w (i - 1) = some 'u') : Text1 T (g w) f3 := by
  have p2 := fun i => plain_g hw i (c := '2') (by decide)
  have p3 := fun i => plain_g hw i (c := '3') (by decide)
  have pA := fun i => plain_g hw i (c := 'A') (by decide)
  have pY := fun i => plain_g hw i (c := 'Y') (by decide)
  have E1 : ∀ i : Int, i - 1 + 1 = i := by intro i; omega
  have hT' : ∀ i, T (i - 1) → g w (i - 1) = some 'g' := fun i h => (hT _ h).1
  have hT'' : ∀ i, T (i - 1) → g w i = some 'h' := fun i h => by have := (hT _ h).2.1; rwa [E1] at this
  have hT1 : ∀ i, T i → g w i = some 'g' := fun i h => (hT _ h).1
  have hT3 : ∀ i, T (i + 1 - 1) → g w (i + 1) = some 'h' := fun i h => hT'' _ h
  have hN : ∀ i : Int, i + 1 = 0 → g w i = none := fun i h => g_neg w (by omega)
  generalize g w = f at *
  have E2 : ∀ i : Int, i + 1 - 1 = i := by intro i; omega
  have E3 : ∀ i : Int, i + 2 - 1 = i + 1 := by intro i; omega
  have hTn : ∀ i, T i → f (i + 1) = some 'h' := fun i h => (hT _ h).2.1
  have hTu : ∀ i, T (i + 1) → f i = some 'u' := fun i h => by have := (hT _ h).2.2; rwa [E2] at this
  constructor
  case toText =>
    constructor
    case same =>
      intro i x hx
      simp only [List.mem_cons, List.not_mem_nil, or_false, not_or] at hx
      rw [V.same i x (by simp [hx]), C.same i x (by simp [hx]), P.same i x (by simp [hx])]
    case none => intro i; rw [V.none, C.none, P.none]
    all_goals intro i
    all_goals simp only [V.same, C.two, C.k, C.s, C.t, C.f_, C.p, C.h, C.same, P.two, P.g_, P.f_, P.h, P.same, P.none, p2, E1, E2, E3,
      List.mem_cons, List.not_mem_nil, Char.reduceEq, or_false, not_false_eq_true, false_or, ne_eq]
    all_goals have a1 := hT' i
    all_goals have a2 := hT1 i
    all_goals have a3 := hTn i
    all_goals have a4 := hT'' i
    all_goals have a5 := hT1 (i + 1)
    all_goals have a6 := hTu i
    all_goals have a7 := hN i
    all_goals clear hTu hN hT hT' hT'' hT1 hT3 P C V p2 p3 pA pY E1 E2 E3 hTn
    all_goals grind (splits := 60) -verbose only
  all_goals intro i
  all_goals simp only [V.A, V.three, V.same, C.same, P.same, p3, pA, pY, E1, E2, E3,
      List.mem_cons, List.not_mem_nil, Char.reduceEq, or_false, not_false_eq_true, false_or, ne_eq]

theorem text2_of {T : Int → Prop} {f f1 f2 : Int → Option Char} (X : Text1 T f f1) (M : Mid2 f1 f2) : Text2 T f f2 := by
  constructor
  case toText =>
    constructor
    case same =>
      intro i x hx
      simp only [List.mem_cons, List.not_mem_nil, or_false, not_or] at hx
      rw [M.same i x (by simp [hx]), X.same i x (by simp [hx])]
    case none => intro i; rw [M.none, X.none]
    all_goals intro i
    all_goals simp only [M.same, X.two, X.k, X.s, X.t, X.f_, X.p, X.h, X.g_, X.same,
      List.mem_cons, List.not_mem_nil, Char.reduceEq, or_false, not_false_eq_true, false_or, ne_eq]
  all_goals intro i
  all_goals simp only [M.A, M.three, M.Y, X.A, X.three, X.y, X.j, X.Y, X.same,
      List.mem_cons, List.not_mem_nil, Char.reduceEq, or_false, not_false_eq_true, false_or, ne_eq]
  all_goals grind (splits := 60) -verbose only

theorem toughAt_gh {v : Version} {w : Str} (i : Int) (h : toughAt v w i) :
    g w i = some 'g' ∧ g w (i + 1) = some 'h' ∧ g w (i - 1) = some 'u' := by
  obtain ⟨a, ha, rfl, r, rfl⟩ := h
  rw [g_nat, g_succ, ← g_pred]
  have : ∃ b, a = b ++ c!"u" := by
    cases v
    all_goals
      simp only [tough, List.mem_cons, List.not_mem_nil, or_false] at ha
      rcases ha with rfl | ha <;> (try rcases ha with rfl | ha) <;> (try rcases ha with rfl | ha) <;> (try rcases ha with rfl | ha) <;> (try subst ha)
      all_goals first | exact ⟨c!"co", rfl⟩ | exact ⟨c!"ro", rfl⟩ | exact ⟨c!"to", rfl⟩ | exact ⟨c!"eno", rfl⟩ | exact ⟨c!"tro", rfl⟩
  obtain ⟨b, rfl⟩ := this
  refine ⟨by simp [List.getElem?_append], ?_, by simp [List.getElem?_append]⟩
  rw [List.getElem?_append_left (by simp), List.getElem?_append_right (by simp)]
  simp [show b.length + 1 + 1 - (b.length + 1) = 1 by omega]

theorem text1_ok {w : Str} (hw : Plain w) :
    Text1 (toughAt .v1 w) (g w) (g (replaceChar (replaceChar (cavConsonants (Caverphone1.prefixes w)) vowelStartF) vowelF)) :=
  text_base hw (prefixes1 w) (consonants _) (vowels_ok _) toughAt_gh

theorem text2_ok {w : Str} (hw : Plain (replaceEnd w c!"e" [])) :
    Text2 (toughAt .v2 (replaceEnd w c!"e" [])) (g (replaceEnd w c!"e" []))
      (g (mid2 (replaceChar (replaceChar (cavConsonants (Caverphone2.prefixes w)) vowelStartF) vowelF))) :=
  text2_of (text_base hw (prefixes2 w) (consonants _) (vowels_ok _) toughAt_gh) (mid2_ok _)

end Verif.CavSpec
