import Verif.Spec.Counting
import Verif.Props.CodesSoundex
import Verif.Props.CodesMetaphone
import Verif.Props.CodesPhonex
import Verif.Props.CodesMatchRating
import Verif.Props.CodesCaverphone
import Verif.Props.CodesDaitchMokotoff
import Verif.Props.CodesDoubleMetaphone
import Verif.Props.CodesNysiis
/-!
# C108: how many codes there are
-/
namespace Verif.Props
open Verif.Spec

namespace CountProofs

theorem congr {P Q : Str → Prop} {n : Nat} (h : HasExactly P n) (e : ∀ w, P w ↔ Q w) : HasExactly Q n := by
  obtain ⟨l, h1, h2, h3⟩ := h
  exact ⟨l, h1, h2, fun c => (h3 c).trans (e c)⟩

theorem flat_nodup (A : List Char) (hA : A.Nodup) (l : Char → List Str) (hl : ∀ c ∈ A, (l c).Nodup) :
    (A.flatMap fun c => (l c).map (c :: ·)).Nodup := by
  induction A with
  | nil => simp
  | cons a A ih =>
    rw [List.nodup_cons] at hA
    rw [List.flatMap_cons, List.nodup_append]
    refine ⟨?_, ih hA.2 fun c hc => hl c (by simp [hc]), ?_⟩
    · have := hl a (by simp)
      rw [List.nodup_iff_pairwise_ne] at this ⊢
      rw [List.pairwise_map]
      exact this.imp fun h e => h (by simpa using e)
    · intro x hx y hy e
      subst e
      obtain ⟨w, -, rfl⟩ := List.mem_map.mp hx
      obtain ⟨c, hc, hy⟩ := List.mem_flatMap.mp hy
      obtain ⟨v, -, hv⟩ := List.mem_map.mp hy
      simp only [List.cons.injEq] at hv
      rw [hv.1] at hc
      exact hA.1 hc

theorem flat_length (A : List Char) (l : Char → List Str) :
    (A.flatMap fun c => (l c).map (c :: ·)).length = (A.map fun c => (l c).length).sum := by
  induction A with
  | nil => rfl
  | cons a A ih => rw [List.flatMap_cons, List.length_append, ih]; simp

/-- Counting by the first character. -/
theorem step {P : Str → Prop} (e : Nat) (A : List Char) (f : Char → Nat) (hA : A.Nodup)
    (he : (e = 1 ∧ P []) ∨ (e = 0 ∧ ¬ P [])) (hP : ∀ c w, P (c :: w) → c ∈ A)
    (hf : ∀ c ∈ A, HasExactly (fun w => P (c :: w)) (f c)) : HasExactly P (e + (A.map f).sum) := by
  have ch : ∀ c, ∃ l : List Str, c ∈ A → l.Nodup ∧ l.length = f c ∧ ∀ w, w ∈ l ↔ P (c :: w) := by
    intro c
    by_cases hc : c ∈ A
    · obtain ⟨l, h⟩ := hf c hc
      exact ⟨l, fun _ => h⟩
    · exact ⟨[], fun h => absurd h hc⟩
  have ⟨l, hl⟩ := Classical.axiomOfChoice ch
  have nd := flat_nodup A hA l fun c hc => (hl c hc).1
  have len : (A.flatMap fun c => (l c).map (c :: ·)).length = (A.map f).sum := by
    rw [flat_length, List.map_congr_left fun c hc => (hl c hc).2.1]
  have mem : ∀ c w, (c :: w) ∈ (A.flatMap fun c => (l c).map (c :: ·)) ↔ P (c :: w) := by
    intro c w
    simp only [List.mem_flatMap, List.mem_map, List.cons.injEq]
    constructor
    · rintro ⟨a, ha, v, hv, rfl, rfl⟩
      exact ((hl a ha).2.2 v).mp hv
    · intro h
      exact ⟨c, hP c w h, w, ((hl c (hP c w h)).2.2 w).mpr h, rfl, rfl⟩
  have nil : [] ∉ (A.flatMap fun c => (l c).map (c :: ·)) := by simp
  rcases he with ⟨rfl, h0⟩ | ⟨rfl, h0⟩
  · refine ⟨[] :: A.flatMap fun c => (l c).map (c :: ·), List.nodup_cons.mpr ⟨nil, nd⟩, by rw [List.length_cons, len]; omega, ?_⟩
    intro code
    cases code with
    | nil => simp [h0]
    | cons c w => rw [List.mem_cons, mem]; simp
  · refine ⟨A.flatMap fun c => (l c).map (c :: ·), nd, by rw [len]; omega, ?_⟩
    intro code
    cases code with
    | nil => exact ⟨fun h => absurd h nil, fun h => absurd h h0⟩
    | cons c w => exact mem c w

theorem sum_const (A : List Char) (n : Nat) : (A.map fun _ => n).sum = A.length * n := by
  induction A with
  | nil => simp
  | cons a A ih => rw [List.map_cons, List.sum_cons, ih, List.length_cons, Nat.add_mul]; omega

theorem one (w : Str) : HasExactly (fun x => x = w) 1 := ⟨[w], by simp, rfl, by simp⟩

theorem words_zero (a : Nat) : wordsUpTo a 0 = 1 := by simp [wordsUpTo]
theorem words_succ (a n : Nat) : wordsUpTo a (n + 1) = 1 + a * wordsUpTo a n := by
  unfold wordsUpTo
  rw [List.range_succ_eq_map, List.map_cons, List.sum_cons, List.map_map, Nat.pow_zero]
  congr 1
  generalize List.range (n + 1) = l
  induction l with
  | nil => simp
  | cons x l ih => rw [List.map_cons, List.sum_cons, ih, List.map_cons, List.sum_cons, Nat.mul_add]; simp [Nat.pow_succ, Nat.mul_comm]

/-- Words of bounded length. -/
theorem upTo (A : List Char) (hA : A.Nodup) (n : Nat) :
    HasExactly (fun w => w.length ≤ n ∧ ∀ x ∈ w, x ∈ A) (wordsUpTo A.length n) := by
  induction n with
  | zero =>
    rw [words_zero]
    refine congr (one []) fun w => ?_
    cases w <;> simp
  | succ n ih =>
    rw [words_succ, ← sum_const]
    refine step 1 A _ hA (.inl ⟨rfl, by simp⟩) (fun c w h => h.2 c (by simp)) fun c hc => congr ih fun w => ?_
    simp [hc]

/-- Words filled up to a fixed length. -/
theorem padded (A : List Char) (hA : A.Nodup) (p : Char) (hp : p ∉ A) (n : Nat) :
    HasExactly (fun w => ∃ u k, (∀ x ∈ u, x ∈ A) ∧ u.length + k = n ∧ w = u ++ List.replicate k p) (wordsUpTo A.length n) := by
  induction n with
  | zero =>
    rw [words_zero]
    refine congr (one []) fun w => ⟨?_, ?_⟩
    · rintro rfl; exact ⟨[], 0, by simp, rfl, rfl⟩
    · rintro ⟨u, k, -, h, rfl⟩
      have h1 : u = [] := List.eq_nil_of_length_eq_zero (by omega)
      have h2 : k = 0 := by omega
      simp [h1, h2]
  | succ n ih =>
    have e : wordsUpTo A.length (n + 1) = 0 + ((p :: A).map fun c => if c = p then 1 else wordsUpTo A.length n).sum := by
      rw [words_succ, List.map_cons, List.sum_cons, if_pos rfl, ← sum_const, Nat.zero_add]
      congr 2
      refine List.map_congr_left fun c hc => ?_
      rw [if_neg]; rintro rfl; exact hp hc
    rw [e]
    refine step 0 (p :: A) _ (List.nodup_cons.mpr ⟨hp, hA⟩) (.inr ⟨rfl, ?_⟩) ?_ ?_
    · rintro ⟨u, k, -, h, e⟩
      have := congrArg List.length e
      simp at this; omega
    · rintro c w ⟨u, k, hu, -, e⟩
      have : c ∈ u ++ List.replicate k p := by rw [← e]; simp
      rcases List.mem_append.mp this with h | h
      · simp [hu c h]
      · simp [(List.mem_replicate.mp h).2]
    · intro c hc
      by_cases h : c = p
      · subst h
        rw [if_pos rfl]
        refine congr (one (List.replicate n c)) fun w => ⟨?_, ?_⟩
        · rintro rfl; exact ⟨[], n + 1, by simp, by simp, rfl⟩
        · rintro ⟨u, k, hu, hl, e⟩
          cases u with
          | nil =>
            obtain rfl : k = n + 1 := by simpa using hl
            simpa [List.replicate_succ] using e
          | cons a u =>
            simp only [List.cons_append, List.cons.injEq] at e
            exact absurd (hu a (by simp)) (e.1 ▸ hp)
      · rw [if_neg h]
        refine congr ih fun w => ⟨?_, ?_⟩
        · rintro ⟨u, k, hu, hl, rfl⟩
          refine ⟨c :: u, k, ?_, by simp; omega, rfl⟩
          intro x hx
          rcases List.mem_cons.mp hx with rfl | hx
          · exact (List.mem_cons.mp hc).resolve_left h
          · exact hu x hx
        · rintro ⟨u, k, hu, hl, e⟩
          cases u with
          | nil =>
            obtain rfl : k = n + 1 := by simpa using hl
            simp [List.replicate_succ] at e
            exact absurd e.1 h
          | cons a u =>
            simp only [List.cons_append, List.cons.injEq] at e
            obtain ⟨rfl, rfl⟩ := e
            exact ⟨u, k, fun x hx => hu x (by simp [hx]), by simpa [Nat.add_right_comm] using hl, rfl⟩

/-- A first character before the words of one language. -/
theorem first (F : List Char) (hF : F.Nodup) {Q : Str → Prop} {n : Nat} (h : HasExactly Q n) :
    HasExactly (fun w => w = [] ∨ ∃ f v, w = f :: v ∧ f ∈ F ∧ Q v) (1 + F.length * n) := by
  rw [← sum_const]
  refine step 1 F _ hF (.inl ⟨rfl, .inl rfl⟩) ?_ ?_
  · rintro c w (h | ⟨f, v, e, hf, -⟩)
    · cases h
    · injection e with e1 e2; exact e1 ▸ hf
  · intro c hc
    refine congr h fun w => ⟨fun hw => .inr ⟨c, w, rfl, hc, hw⟩, ?_⟩
    rintro (h | ⟨f, v, e, -, hq⟩)
    · cases h
    · injection e with e1 e2; exact e2 ▸ hq

theorem first' (F : List Char) (hF : F.Nodup) {Q : Str → Prop} {n : Nat} (h : HasExactly Q n) :
    HasExactly (fun w => ∃ f v, w = f :: v ∧ f ∈ F ∧ Q v) (F.length * n) := by
  rw [← sum_const, ← Nat.zero_add (List.sum _)]
  refine step 0 F _ hF (.inr ⟨rfl, by simp⟩) ?_ ?_
  · rintro c w ⟨f, v, e, hf, -⟩
    injection e with e1 e2; exact e1 ▸ hf
  · intro c hc
    refine congr h fun w => ⟨fun hw => ⟨c, w, rfl, hc, hw⟩, ?_⟩
    rintro ⟨f, v, e, -, hq⟩
    injection e with e1 e2; exact e2 ▸ hq

end CountProofs
open CountProofs

/-- C108. There are exactly 6735 Soundex codes: the empty one and 26 · (1 + 6 + 36 + 216). -/
theorem soundex_how_many (U : Unicode) : HasExactly (fun code => ∃ s, Soundex.default.encode U s = .ok code) 6735 := by
  have := first capitals (by decide) (padded c!"123456" (by decide) '0' (by decide) 3)
  refine congr this fun w => ?_
  rw [(soundex_codes U w).1]
  unfold SoundexCode
  constructor
  · rintro (h | ⟨f, v, rfl, hf, u, k, hu, hl, rfl⟩)
    · exact .inl h
    · exact .inr ⟨f, u, k, hf, hu, hl, rfl⟩
  · rintro (h | ⟨f, u, k, hf, hu, hl, rfl⟩)
    · exact .inl h
    · exact .inr ⟨f, _, rfl, hf, u, k, hu, hl, rfl⟩

/-- C108. Daitch-Mokotoff with the embedded rules: exactly 374490 codes. -/
theorem dm_how_many (U : Unicode) :
    HasExactly (fun code => ∃ s, DaitchMokotoff.defaultEncoder.encode U s = .ok code) 374490 := by
  have := first' c!"0123456789" (by decide) (padded c!"13456789" (by decide) '0' (by decide) 5)
  refine congr this fun w => ?_
  rw [(dm_codes U w).1]
  unfold DaitchMokotoffCode
  constructor
  · rintro ⟨f, v, rfl, hf, u, k, hu, hl, rfl⟩
    exact ⟨by simp; omega, f, u, k, hf, hu, rfl⟩
  · rintro ⟨hl, f, u, k, hf, hu, rfl⟩
    exact ⟨f, _, rfl, hf, u, k, hu, by simpa using hl, rfl⟩

/-- C108. Metaphone with a maximal length of `n + 1`, for texts that are not a single byte: exactly
`1 + 21 · (1 + 16 + … + 16ⁿ)` codes; that is 91750 for the default length 4. -/
theorem metaphone_how_many (U : Unicode) (n : Nat) :
    HasExactly (fun code => ∃ s, byteLen (U.strUpper s) ≠ 1 ∧ (Metaphone.new (some (n + 1))).encode U s = .ok code)
      (1 + 21 * wordsUpTo 16 n) := by
  have := first c!"AEIOU0BFHJKLMNPRSTWXY" (by decide) (upTo c!"0BFHJKLMNPRSTWXY" (by decide) n)
  refine congr this fun w => ?_
  rw [(metaphone_codes U (some (n + 1)) w).1]
  unfold MetaphoneCode Within
  constructor
  · rintro (rfl | ⟨f, v, rfl, hf, hl, hv⟩)
    · exact ⟨⟨[], [], by simp⟩, by simp⟩
    · refine ⟨?_, by rintro m ⟨⟩; simp; omega⟩
      by_cases hc : f ∈ c!"AEIOU"
      · exact ⟨[f], v, rfl, by simp, by simpa using hc, hv⟩
      · refine ⟨[], f :: v, rfl, by simp, by simp, ?_⟩
        have : f ∈ c!"0BFHJKLMNPRSTWXY" := (List.mem_append.mp (show f ∈ c!"AEIOU" ++ c!"0BFHJKLMNPRSTWXY" from hf)).resolve_left hc
        intro x hx
        rcases List.mem_cons.mp hx with rfl | hx
        · exact this
        · exact hv x hx
  · rintro ⟨⟨a, b, rfl, ha, hav, hb⟩, hl⟩
    have hl := hl _ rfl
    have mem : ∀ x ∈ a ++ b, x ∈ c!"AEIOU" ++ c!"0BFHJKLMNPRSTWXY" := by
      intro x hx
      rcases List.mem_append.mp hx with hx | hx
      · exact List.mem_append_left _ (hav x hx)
      · exact List.mem_append_right _ (hb x hx)
    have drop : ∀ x ∈ (a ++ b).drop 1, x ∈ c!"0BFHJKLMNPRSTWXY" := by
      intro x hx
      match a, ha with
      | [], _ => exact hb x (List.mem_of_mem_drop hx)
      | [_], _ => exact hb x hx
    cases h : a ++ b with
    | nil => exact .inl rfl
    | cons f v =>
      rw [h] at hl mem drop
      exact .inr ⟨f, v, rfl, mem f (by simp), by simpa using hl, drop⟩

/-- C108. Double Metaphone with a maximal length of `n + 1` (ASCII texts), primary codes: exactly `1 + 14 · (1 + 13 + … + 13ⁿ)`;
that is 33321 for the default length 4. -/
theorem double_metaphone_how_many (U : Unicode) (n : Nat) (hn : n + 1 < 2 ^ 63) :
    HasExactly (fun code => ∃ s, AsciiStr s ∧ (DoubleMetaphone.new (some (n + 1))).encode U s = .ok code)
      (1 + 14 * wordsUpTo 13 n) := by
  have := first c!"A0FHJKLMNPRSTX" (by decide) (upTo c!"0FHJKLMNPRSTX" (by decide) n)
  refine congr this fun w => ?_
  rw [(double_metaphone_codes U (some (n + 1)) (by rintro m ⟨⟩; exact hn) w).1]
  unfold PrimaryCode Within
  constructor
  · rintro (rfl | ⟨f, v, rfl, hf, hl, hv⟩)
    · exact ⟨⟨[], [], by simp⟩, by simp⟩
    · refine ⟨?_, by rintro m ⟨⟩; simp; omega⟩
      rcases List.mem_cons.mp hf with rfl | hf
      · exact ⟨c!"A", v, rfl, .inr rfl, hv⟩
      · refine ⟨[], f :: v, rfl, .inl rfl, ?_⟩
        intro x hx
        rcases List.mem_cons.mp hx with rfl | hx
        · exact hf
        · exact hv x hx
  · rintro ⟨⟨a, b, rfl, ha, hb⟩, hl⟩
    have hl := hl _ rfl
    rcases ha with rfl | rfl
    · cases b with
      | nil => exact .inl rfl
      | cons f v => exact .inr ⟨f, v, rfl, List.mem_cons_of_mem _ (hb f (by simp)), by simpa using hl, fun x hx => hb x (by simp [hx])⟩
    · exact .inr ⟨'A', b, rfl, by decide, by simpa using hl, hb⟩


namespace CountProofs

/-- The characters of a Match Rating code. -/
abbrev mraAlphabet : List Char :=
  ((List.range 128).map Char.ofNat).filter fun c => !isAsciiLower c && !isAsciiWs c && !c!"-&'.,".contains c

theorem mraAlphabet_mem (c : Char) : c ∈ mraAlphabet ↔
    isAscii c = true ∧ isAsciiLower c = false ∧ isAsciiWs c = false ∧ c ∉ c!"-&'.," := by
  have h : ∀ c, isAscii c = true → c ∈ (List.range 128).map Char.ofNat := by apply forall_ascii; decide +kernel
  have h' : ∀ c ∈ (List.range 128).map Char.ofNat, isAscii c = true := by decide +kernel
  simp only [mraAlphabet, List.mem_filter, Bool.and_eq_true, Bool.not_eq_true', and_assoc]
  constructor
  · rintro ⟨a, b, d, e⟩
    exact ⟨h' c a, b, d, by rwa [← Bool.not_eq_true, List.contains_iff_mem] at e⟩
  · rintro ⟨a, b, d, e⟩
    exact ⟨h c a, b, d, by simpa using e⟩

end CountProofs

/-- C108. Match Rating (ASCII texts): exactly `1 + 91 · (1 + 86 + … + 86⁵)` codes. -/
theorem mra_how_many (U : Unicode) :
    HasExactly (fun code => ∃ s, AsciiStr s ∧ MatchRating.encode U s = .ok code) (1 + 91 * wordsUpTo 86 5) := by
  have l1 : mraAlphabet.length = 91 := by decide +kernel
  have l2 : (mraAlphabet.filter fun c => !c!"AEIOU".contains c).length = 86 := by decide +kernel
  have := first mraAlphabet (by decide +kernel)
    (upTo (mraAlphabet.filter fun c => !c!"AEIOU".contains c) (by decide +kernel) 5)
  rw [l1, l2] at this
  refine congr this fun w => ?_
  rw [mra_codes U w]
  unfold MatchRatingCode
  have later : ∀ c, c ∈ (mraAlphabet.filter fun c => !c!"AEIOU".contains c) ↔ c ∈ mraAlphabet ∧ c ∉ c!"AEIOU" := by
    intro c
    rw [List.mem_filter, Bool.not_eq_true', ← Bool.not_eq_true, List.contains_iff_mem]
  simp only [← mraAlphabet_mem]
  cases w with
  | nil => simp
  | cons f v =>
    simp only [reduceCtorEq, false_or, List.length_cons, List.drop_succ_cons, List.drop_zero, later]
    constructor
    · rintro ⟨f', v', e, hf, hl, hv⟩
      obtain ⟨rfl, rfl⟩ := List.cons.inj e
      refine ⟨by omega, ?_, fun x hx => (hv x hx).2⟩
      intro x hx
      rcases List.mem_cons.mp hx with rfl | hx
      · exact hf
      · exact (hv x hx).1
    · rintro ⟨hl, ha, hv⟩
      exact ⟨f, v, rfl, ha f (by simp), by omega, fun x hx => ⟨ha x (by simp [hx]), hv x hx⟩⟩

namespace CountProofs

/-- Filled words without equal neighbours, after a character. -/
theorem paddedOther (A : List Char) (hA : A.Nodup) (p : Char) (hp : p ∉ A) (n : Nat) : ∀ b ∈ A,
    HasExactly (fun w => ∃ u k, (∀ x ∈ u, x ∈ A) ∧ NoAdjacentDup (b :: u) ∧ u.length + k = n ∧ w = u ++ List.replicate k p)
      (wordsUpTo (A.length - 1) n) := by
  induction n with
  | zero =>
    intro b hb
    rw [words_zero]
    refine congr (one []) fun w => ⟨?_, ?_⟩
    · rintro rfl; exact ⟨[], 0, by simp, trivial, rfl, rfl⟩
    · rintro ⟨u, k, -, -, h, rfl⟩
      have h1 : u = [] := List.eq_nil_of_length_eq_zero (by omega)
      have h2 : k = 0 := by omega
      simp [h1, h2]
  | succ n ih =>
    intro b hb
    have hpe : p ∉ A.erase b := fun h => hp (List.mem_of_mem_erase h)
    have e : wordsUpTo (A.length - 1) (n + 1) =
        0 + ((p :: A.erase b).map fun c => if c = p then 1 else wordsUpTo (A.length - 1) n).sum := by
      rw [words_succ, List.map_cons, List.sum_cons, if_pos rfl, ← List.length_erase_of_mem hb, ← sum_const, Nat.zero_add]
      congr 2
      refine List.map_congr_left fun c hc => ?_
      rw [if_neg]; rintro rfl; exact hpe hc
    rw [e]
    refine step 0 (p :: A.erase b) _ (List.nodup_cons.mpr ⟨hpe, hA.erase b⟩) (.inr ⟨rfl, ?_⟩) ?_ ?_
    · rintro ⟨u, k, -, -, h, e⟩
      have := congrArg List.length e
      simp at this; omega
    · rintro c w ⟨u, k, hu, hd, -, e⟩
      cases u with
      | nil =>
        cases k with
        | zero => cases e
        | succ k => simp [List.replicate_succ] at e; simp [e.1]
      | cons a u =>
        simp only [List.cons_append, List.cons.injEq] at e
        rw [e.1]
        refine List.mem_cons_of_mem _ ((hA.mem_erase_iff).mpr ⟨fun h => hd.1 h.symm, hu a (by simp)⟩)
    · intro c hc
      by_cases h : c = p
      · subst h
        rw [if_pos rfl]
        refine congr (one (List.replicate n c)) fun w => ⟨?_, ?_⟩
        · rintro rfl; exact ⟨[], n + 1, by simp, trivial, by simp, rfl⟩
        · rintro ⟨u, k, hu, -, hl, e⟩
          cases u with
          | nil =>
            obtain rfl : k = n + 1 := by simpa using hl
            simpa [List.replicate_succ] using e
          | cons a u =>
            simp only [List.cons_append, List.cons.injEq] at e
            exact absurd (hu a (by simp)) (e.1 ▸ hp)
      · rw [if_neg h]
        have hc' := (hA.mem_erase_iff).mp ((List.mem_cons.mp hc).resolve_left h)
        refine congr (ih c hc'.2) fun w => ⟨?_, ?_⟩
        · rintro ⟨u, k, hu, hd, hl, rfl⟩
          refine ⟨c :: u, k, ?_, ⟨fun h => hc'.1 h.symm, hd⟩, by simp; omega, rfl⟩
          intro x hx
          rcases List.mem_cons.mp hx with rfl | hx
          · exact hc'.2
          · exact hu x hx
        · rintro ⟨u, k, hu, hd, hl, e⟩
          cases u with
          | nil =>
            obtain rfl : k = n + 1 := by simpa using hl
            simp [List.replicate_succ] at e
            exact absurd e.1 h
          | cons a u =>
            simp only [List.cons_append, List.cons.injEq] at e
            obtain ⟨rfl, rfl⟩ := e
            exact ⟨u, k, fun x hx => hu x (by simp [hx]), hd.2, by simpa [Nat.add_right_comm] using hl, rfl⟩

/-- Filled words without equal neighbours. -/
theorem paddedDistinct (A : List Char) (hA : A.Nodup) (p : Char) (hp : p ∉ A) (n : Nat) :
    HasExactly (fun w => ∃ u k, (∀ x ∈ u, x ∈ A) ∧ NoAdjacentDup u ∧ u.length + k = n + 1 ∧ w = u ++ List.replicate k p)
      (1 + A.length * wordsUpTo (A.length - 1) n) := by
  have e : 1 + A.length * wordsUpTo (A.length - 1) n =
      0 + ((p :: A).map fun c => if c = p then 1 else wordsUpTo (A.length - 1) n).sum := by
    rw [List.map_cons, List.sum_cons, if_pos rfl, ← sum_const, Nat.zero_add]
    congr 2
    refine List.map_congr_left fun c hc => ?_
    rw [if_neg]; rintro rfl; exact hp hc
  rw [e]
  refine step 0 (p :: A) _ (List.nodup_cons.mpr ⟨hp, hA⟩) (.inr ⟨rfl, ?_⟩) ?_ ?_
  · rintro ⟨u, k, -, -, h, e⟩
    have := congrArg List.length e
    simp at this; omega
  · rintro c w ⟨u, k, hu, -, -, e⟩
    have : c ∈ u ++ List.replicate k p := by rw [← e]; simp
    rcases List.mem_append.mp this with h | h
    · simp [hu c h]
    · simp [(List.mem_replicate.mp h).2]
  · intro c hc
    by_cases h : c = p
    · subst h
      rw [if_pos rfl]
      refine congr (one (List.replicate n c)) fun w => ⟨?_, ?_⟩
      · rintro rfl; exact ⟨[], n + 1, by simp, trivial, by simp, rfl⟩
      · rintro ⟨u, k, hu, -, hl, e⟩
        cases u with
        | nil =>
          obtain rfl : k = n + 1 := by simpa using hl
          simpa [List.replicate_succ] using e
        | cons a u =>
          simp only [List.cons_append, List.cons.injEq] at e
          exact absurd (hu a (by simp)) (e.1 ▸ hp)
    · rw [if_neg h]
      have hc' := (List.mem_cons.mp hc).resolve_left h
      refine congr (paddedOther A hA p hp n c hc') fun w => ⟨?_, ?_⟩
      · rintro ⟨u, k, hu, hd, hl, rfl⟩
        refine ⟨c :: u, k, ?_, hd, by simp; omega, rfl⟩
        intro x hx
        rcases List.mem_cons.mp hx with rfl | hx
        · exact hc'
        · exact hu x hx
      · rintro ⟨u, k, hu, hd, hl, e⟩
        cases u with
        | nil =>
          obtain rfl : k = n + 1 := by simpa using hl
          simp [List.replicate_succ] at e
          exact absurd e.1 h
        | cons a u =>
          simp only [List.cons_append, List.cons.injEq] at e
          obtain ⟨rfl, rfl⟩ := e
          exact ⟨u, k, fun x hx => hu x (by simp [hx]), hd, by simpa [Nat.add_right_comm] using hl, rfl⟩

end CountProofs

/-- C108. Phonex with a length of `n + 2` (ASCII texts): exactly `1 + 15 · (1 + 6 · (1 + 5 + … + 5ⁿ))` codes; that is 2806 for the
default length 4. -/
theorem phonex_how_many (U : Unicode) (n : Nat) (hn : n + 2 < 2 ^ 63) :
    HasExactly (fun code => ∃ s, AsciiStr s ∧ (Phonex.new (n + 2)).encode U s = .ok code)
      (1 + 15 * (1 + 6 * wordsUpTo 5 n)) := by
  have h1 := paddedDistinct c!"123456" (by decide) '0' (by decide) n
  have h2 := step (P := PhonexCode (n + 2)) 0 ('0' :: c!"ABCDFGHLMNRSTWX") (fun c => if c = '0' then 1 else 1 + 6 * wordsUpTo 5 n)
    (by decide) (.inr ⟨rfl, ?_⟩) ?_ ?_
  · have e : 0 + ((('0' :: c!"ABCDFGHLMNRSTWX").map fun c => if c = '0' then 1 else 1 + 6 * wordsUpTo 5 n)).sum =
        1 + 15 * (1 + 6 * wordsUpTo 5 n) := by
      generalize wordsUpTo 5 n = k
      simp
      omega
    rw [e] at h2
    exact congr h2 fun w => (phonex_codes U (n + 2) (by omega) hn w).symm
  · rintro (h | ⟨f, u, k, -, -, -, -, h⟩)
    · simp [List.replicate_succ] at h
    · cases h
  · rintro c w (h | ⟨f, u, k, hf, -, -, -, h⟩)
    · simp [List.replicate_succ] at h; simp [h.1]
    · simp only [List.cons_append, List.cons.injEq] at h
      rw [h.1]; exact List.mem_cons_of_mem _ hf
  · intro c hc
    by_cases h0 : c = '0'
    · subst h0
      rw [if_pos rfl]
      refine congr (one (List.replicate (n + 1) '0')) fun w => ⟨?_, ?_⟩
      · rintro rfl; exact .inl rfl
      · rintro (h | ⟨f, u, k, hf, -, -, -, h⟩)
        · simpa [List.replicate_succ] using h
        · simp only [List.cons_append, List.cons.injEq] at h
          rw [← h.1] at hf; exact absurd hf (by decide)
    · rw [if_neg h0]
      have hc' := (List.mem_cons.mp hc).resolve_left h0
      refine congr h1 fun w => ⟨?_, ?_⟩
      · rintro ⟨u, k, hu, hd, hl, rfl⟩
        exact .inr ⟨c, u, k, hc', hu, hd, by omega, rfl⟩
      · rintro (h | ⟨f, u, k, hf, hu, hd, hl, h⟩)
        · simp [List.replicate_succ] at h; exact absurd h.1 h0
        · simp only [List.cons_append, List.cons.injEq] at h
          exact ⟨u, k, hu, hd, by omega, h.2⟩

/-- C108. Caverphone 1 (ASCII texts): exactly 2125873 codes. -/
theorem caverphone1_how_many (U : Unicode) :
    HasExactly (fun code => ∃ s, AsciiStr s ∧ Caverphone1.encode U s = .ok code) 2125873 := by
  have cut : ∀ (u : Str) (n : Nat), (∀ c ∈ u, c ∈ c!"FKLMNPRSTWY") → ∃ v k, (∀ c ∈ v, c ∈ c!"FKLMNPRSTWY") ∧ v.length + k = n ∧
      (u ++ List.replicate n '1').take n = v ++ List.replicate k '1' := by
    intro u n hu
    refine ⟨u.take n, n - u.length, fun c hc => hu c (List.mem_of_mem_take hc), by rw [List.length_take]; omega, ?_⟩
    rw [List.take_append, List.take_replicate]
    congr 2; omega
  have fill : ∀ (v : Str) (k n : Nat), v.length + k = n → (v ++ List.replicate n '1').take n = v ++ List.replicate k '1' := by
    intro v k n h
    rw [List.take_append, List.take_replicate, List.take_of_length_le (by omega)]
    congr 2; omega
  have h6 := padded c!"FKLMNPRSTWY" (by decide) '1' (by decide) 6
  have h5 := padded c!"FKLMNPRSTWY" (by decide) '1' (by decide) 5
  obtain ⟨l6, nd6, len6, mem6⟩ := h6
  obtain ⟨l5, nd5, len5, mem5⟩ := h5
  refine ⟨l6 ++ l5.map ('A' :: ·), ?_, ?_, ?_⟩
  · rw [List.nodup_append]
    refine ⟨nd6, ?_, ?_⟩
    · rw [List.nodup_iff_pairwise_ne] at nd5 ⊢
      rw [List.pairwise_map]
      exact nd5.imp fun h e => h (by simpa using e)
    · intro x hx y hy e
      subst e
      obtain ⟨v, -, rfl⟩ := List.mem_map.mp hy
      obtain ⟨u, k, hu, -, e⟩ := (mem6 _).mp hx
      have : 'A' ∈ u ++ List.replicate k '1' := by rw [← e]; simp
      rcases List.mem_append.mp this with h | h
      · have := hu _ h; revert this; decide
      · have := (List.mem_replicate.mp h).2; revert this; decide
  · rw [List.length_append, List.length_map, len6, len5]; rfl
  · intro code
    show _ ↔ ∃ s, AsciiStr s ∧ Caverphone1.encode U s = .ok code
    rw [caverphone1_codes, List.mem_append, List.mem_map, mem6]
    unfold Caverphone1Code
    constructor
    · rintro (⟨u, k, hu, hl, rfl⟩ | ⟨w, hw, rfl⟩)
      · exact ⟨[], u, .inl rfl, hu, by rw [List.nil_append, fill u k 6 hl]⟩
      · obtain ⟨u, k, hu, hl, rfl⟩ := (mem5 w).mp hw
        refine ⟨c!"A", u, .inr rfl, hu, ?_⟩
        show _ = 'A' :: (u ++ List.replicate 6 '1').take 5
        rw [List.take_append, List.take_replicate, List.take_of_length_le (by omega)]
        congr 3; omega
    · rintro ⟨first, rest, hf, hr, rfl⟩
      rcases hf with rfl | rfl
      · rw [List.nil_append]; exact .inl (cut rest 6 hr)
      · refine .inr ⟨(rest ++ List.replicate 6 '1').take 5, ?_, rfl⟩
        have : (rest ++ List.replicate 6 '1').take 5 = (rest ++ List.replicate 5 '1').take 5 := by
          simp only [List.take_append, List.take_replicate]; congr 2; omega
        rw [this]
        exact (mem5 _).mpr (cut rest 5 hr)


namespace CountProofs

/-- What may follow in a Caverphone 2 code, with room for `n` characters: letters, perhaps a final A, ones; it may end here
(`free`), or a letter or the A has to follow. -/
def CavTail (free : Bool) (n : Nat) (w : Str) : Prop :=
  ∃ middle last : Str, (∀ c ∈ middle, c ∈ c!"FKLMNPRSTW") ∧
    (last = c!"A" ∨ last = [] ∧ (middle = [] → free = true) ∧ ∀ c, middle.getLast? = some c → c ∉ c!"LRWY") ∧
    w = (middle ++ last ++ List.replicate n '1').take n

/-- The numbers of these. -/
def cavEndings : Nat → Nat × Nat
  | 0 => (1, 1)
  | n + 1 => (2 + 7 * (cavEndings n).1 + 3 * (cavEndings n).2, 1 + 7 * (cavEndings n).1 + 3 * (cavEndings n).2)

theorem ones_take (u : Str) (n k : Nat) (h : n ≤ k) : (u ++ List.replicate k '1').take n = (u ++ List.replicate n '1').take n := by
  rw [List.take_append, List.take_append, List.take_replicate, List.take_replicate]
  congr 2; omega

theorem cavTail_zero (free : Bool) (w : Str) : CavTail free 0 w ↔ w = [] := by
  constructor
  · rintro ⟨m, l, -, -, rfl⟩; simp
  · rintro rfl; exact ⟨[], c!"A", by simp, .inl rfl, by simp⟩

theorem cavTail_nil (free : Bool) (n : Nat) : ¬ CavTail free (n + 1) [] := by
  rintro ⟨m, l, -, -, e⟩
  have := congrArg List.length e
  simp at this
  omega

theorem cavTail_cons (free : Bool) (n : Nat) (c : Char) (w : Str) : CavTail free (n + 1) (c :: w) ↔
    (c = '1' ∧ free = true ∧ w = List.replicate n '1') ∨ (c = 'A' ∧ w = List.replicate n '1') ∨
    (c ∈ c!"FKLMNPRSTW" ∧ CavTail (decide (c ∉ c!"LRW")) n w) := by
  constructor
  · rintro ⟨m, l, hm, hl, e⟩
    cases m with
    | nil =>
      rcases hl with rfl | ⟨rfl, hf, -⟩
      · right; left
        simp only [List.nil_append, List.cons_append, List.take_succ_cons, List.cons.injEq] at e
        refine ⟨e.1, ?_⟩
        rw [e.2, List.take_replicate]; congr 1; omega
      · left
        simp only [List.nil_append, List.replicate_succ, List.take_succ_cons, List.cons.injEq] at e
        refine ⟨e.1, hf rfl, ?_⟩
        rw [e.2, List.take_replicate]; congr 1; omega
    | cons a m =>
      right; right
      simp only [List.cons_append, List.take_succ_cons, List.cons.injEq] at e
      obtain ⟨rfl, e⟩ := e
      refine ⟨hm c (by simp), m, l, fun x hx => hm x (by simp [hx]), ?_, ?_⟩
      · rcases hl with rfl | ⟨rfl, -, hl⟩
        · exact .inl rfl
        · refine .inr ⟨rfl, ?_, ?_⟩
          · rintro rfl
            have := hl c rfl
            simp only [decide_eq_true_eq]
            intro h; apply this
            simp only [List.mem_cons, List.not_mem_nil, or_false] at h ⊢
            rcases h with rfl | rfl | rfl <;> simp
          · intro x hx
            exact hl x (by rw [List.getLast?_cons, hx]; rfl)
      · rw [e]; exact ones_take _ _ _ (by omega)
  · rintro (⟨rfl, hf, rfl⟩ | ⟨rfl, rfl⟩ | ⟨hc, m, l, hm, hl, rfl⟩)
    · refine ⟨[], [], by simp, .inr ⟨rfl, fun _ => hf, by simp⟩, ?_⟩
      simp [List.replicate_succ]
    · refine ⟨[], c!"A", by simp, .inl rfl, ?_⟩
      simp only [List.nil_append, List.cons_append, List.take_succ_cons, List.take_replicate]
      congr 2; omega
    · refine ⟨c :: m, l, ?_, ?_, ?_⟩
      · intro x hx
        rcases List.mem_cons.mp hx with rfl | hx
        · exact hc
        · exact hm x hx
      · rcases hl with rfl | ⟨rfl, h1, h2⟩
        · exact .inl rfl
        · refine .inr ⟨rfl, by simp, ?_⟩
          intro x hx
          cases m with
          | nil =>
            simp only [List.getLast?_singleton, Option.some.injEq] at hx
            subst hx
            have := h1 rfl
            simp only [decide_eq_true_eq] at this
            intro h
            have hy : c ≠ 'Y' := by rintro rfl; exact absurd hc (by decide)
            apply this
            simp only [List.mem_cons, List.not_mem_nil, or_false] at h ⊢
            rcases h with h | h | h | h
            · exact .inl h
            · exact .inr (.inl h)
            · exact .inr (.inr h)
            · exact absurd h hy
          | cons a m =>
            exact h2 x (by rw [List.getLast?_cons_cons] at hx; exact hx)
      · simp only [List.cons_append, List.take_succ_cons]
        rw [ones_take _ n (n + 1) (by omega)]

theorem cavTail_count (n : Nat) : HasExactly (CavTail true n) (cavEndings n).1 ∧ HasExactly (CavTail false n) (cavEndings n).2 := by
  induction n with
  | zero => exact ⟨congr (one []) fun w => (cavTail_zero true w).symm, congr (one []) fun w => (cavTail_zero false w).symm⟩
  | succ n ih =>
    have letter : ∀ free, ∀ c ∈ c!"FKLMNPRSTW", HasExactly (fun w => CavTail free (n + 1) (c :: w))
        (if c ∈ c!"LRW" then (cavEndings n).2 else (cavEndings n).1) := by
      intro free c hc
      have no : c ≠ '1' ∧ c ≠ 'A' := by
        constructor
        · rintro rfl; exact absurd hc (by decide)
        · rintro rfl; exact absurd hc (by decide)
      have eq : ∀ w, CavTail (decide (c ∉ c!"LRW")) n w ↔ CavTail free (n + 1) (c :: w) := by
        intro w
        rw [cavTail_cons]
        exact ⟨fun h => .inr (.inr ⟨hc, h⟩), by rintro (⟨h, -⟩ | ⟨h, -⟩ | ⟨-, h⟩); exact absurd h no.1; exact absurd h no.2; exact h⟩
      by_cases h : c ∈ c!"LRW"
      · rw [if_pos h]
        have : decide (c ∉ c!"LRW") = false := decide_eq_false fun h' => h' h
        rw [this] at eq
        exact congr ih.2 eq
      · rw [if_neg h]
        have : decide (c ∉ c!"LRW") = true := decide_eq_true h
        rw [this] at eq
        exact congr ih.1 eq
    have single : ∀ free c, c = 'A' ∨ (c = '1' ∧ free = true) → HasExactly (fun w => CavTail free (n + 1) (c :: w)) 1 := by
      intro free c hc
      refine congr (one (List.replicate n '1')) fun w => ?_
      rw [cavTail_cons]
      rcases hc with rfl | ⟨rfl, rfl⟩
      · exact ⟨fun h => .inr (.inl ⟨rfl, h⟩), by rintro (⟨h, -⟩ | ⟨-, h⟩ | ⟨h, -⟩); exact absurd h (by decide); exact h; exact absurd h (by decide)⟩
      · exact ⟨fun h => .inl ⟨rfl, rfl, h⟩, by rintro (⟨-, -, h⟩ | ⟨h, -⟩ | ⟨h, -⟩); exact h; exact absurd h (by decide); exact absurd h (by decide)⟩
    constructor
    · have := step (P := CavTail true (n + 1)) 0 ('1' :: 'A' :: c!"FKLMNPRSTW")
        (fun c => if c = '1' ∨ c = 'A' then 1 else if c ∈ c!"LRW" then (cavEndings n).2 else (cavEndings n).1) (by decide)
        (.inr ⟨rfl, cavTail_nil true n⟩) ?_ ?_
      · have e : (cavEndings (n + 1)).1 = 0 + (('1' :: 'A' :: c!"FKLMNPRSTW").map
            (fun c => if c = '1' ∨ c = 'A' then 1 else if c ∈ c!"LRW" then (cavEndings n).2 else (cavEndings n).1)).sum := by
          rw [cavEndings]
          generalize cavEndings n = p
          simp
          omega
        rw [e]; exact this
      · intro c w h
        rcases (cavTail_cons true n c w).mp h with ⟨rfl, -⟩ | ⟨rfl, -⟩ | ⟨h, -⟩
        · simp
        · simp
        · exact List.mem_cons_of_mem _ (List.mem_cons_of_mem _ h)
      · intro c hc
        by_cases h : c = '1' ∨ c = 'A'
        · rw [if_pos h]; exact single true c (h.symm.imp id fun h => ⟨h, rfl⟩)
        · rw [if_neg h]
          refine letter true c ?_
          rcases List.mem_cons.mp hc with h' | hc
          · exact absurd (.inl h') h
          · rcases List.mem_cons.mp hc with h' | hc
            · exact absurd (.inr h') h
            · exact hc
    · have := step (P := CavTail false (n + 1)) 0 ('A' :: c!"FKLMNPRSTW")
        (fun c => if c = 'A' then 1 else if c ∈ c!"LRW" then (cavEndings n).2 else (cavEndings n).1) (by decide)
        (.inr ⟨rfl, cavTail_nil false n⟩) ?_ ?_
      · have e : (cavEndings (n + 1)).2 = 0 + (('A' :: c!"FKLMNPRSTW").map
            (fun c => if c = 'A' then 1 else if c ∈ c!"LRW" then (cavEndings n).2 else (cavEndings n).1)).sum := by
          rw [cavEndings]
          generalize cavEndings n = p
          simp
          omega
        rw [e]; exact this
      · intro c w h
        rcases (cavTail_cons false n c w).mp h with ⟨-, h, -⟩ | ⟨rfl, -⟩ | ⟨h, -⟩
        · cases h
        · simp
        · exact List.mem_cons_of_mem _ h
      · intro c hc
        by_cases h : c = 'A'
        · rw [if_pos h]; exact single false c (.inl h)
        · rw [if_neg h]
          exact letter false c ((List.mem_cons.mp hc).resolve_left h)

/-- A Caverphone 2 code by its first character. -/
theorem cav2_cons (c : Char) (w : Str) : Caverphone2Code (c :: w) ↔
    (c = '1' ∧ w = List.replicate 9 '1') ∨ (c = 'A' ∧ CavTail true 9 w) ∨ (c = 'Y' ∧ CavTail false 9 w) ∨
    (c ∈ c!"FKLMNPRSTW" ∧ CavTail (decide (c ∉ c!"LRW")) 9 w) := by
  have tail : Caverphone2Code (c :: w) ↔ CavTail true 10 (c :: w) ∨ (c = 'A' ∧ CavTail true 9 w) ∨ (c = 'Y' ∧ CavTail false 9 w) := by
    constructor
    · rintro ⟨f, m, l, hf, hm, hl, e⟩
      rcases hf with rfl | rfl | rfl
      · left
        refine ⟨m, l, hm, ?_, by simpa using e⟩
        rcases hl with hl | ⟨hl, h⟩
        · exact .inl hl
        · exact .inr ⟨hl, fun _ => rfl, by simpa using h⟩
      · right; left
        simp only [List.cons_append, List.nil_append, List.take_succ_cons, List.cons.injEq] at e
        refine ⟨e.1, m, l, hm, ?_, by rw [e.2]; exact ones_take _ _ _ (by omega)⟩
        rcases hl with hl | ⟨hl, h⟩
        · exact .inl hl
        · refine .inr ⟨hl, fun _ => rfl, fun x hx => h x ?_⟩
          show ('A' :: m).getLast? = _
          rw [List.getLast?_cons, hx]; rfl
      · right; right
        simp only [List.cons_append, List.nil_append, List.take_succ_cons, List.cons.injEq] at e
        refine ⟨e.1, m, l, hm, ?_, by rw [e.2]; exact ones_take _ _ _ (by omega)⟩
        rcases hl with hl | ⟨hl, h⟩
        · exact .inl hl
        · refine .inr ⟨hl, ?_, fun x hx => h x ?_⟩
          · rintro rfl; exact absurd (h 'Y' rfl) (by decide)
          · show ('Y' :: m).getLast? = _
            rw [List.getLast?_cons, hx]; rfl
    · rintro (⟨m, l, hm, hl, e⟩ | ⟨rfl, m, l, hm, hl, rfl⟩ | ⟨rfl, m, l, hm, hl, rfl⟩)
      · refine ⟨[], m, l, .inl rfl, hm, ?_, by simpa using e⟩
        rcases hl with hl | ⟨hl, -, h⟩
        · exact .inl hl
        · exact .inr ⟨hl, by simpa using h⟩
      · refine ⟨c!"A", m, l, .inr (.inl rfl), hm, ?_, ?_⟩
        · rcases hl with hl | ⟨hl, -, h⟩
          · exact .inl hl
          · refine .inr ⟨hl, fun x hx => ?_⟩
            cases m with
            | nil => simp at hx; rw [← hx]; decide
            | cons a m => exact h x (by simpa [List.getLast?_cons_cons] using hx)
        · show _ = 'A' :: (m ++ l ++ List.replicate 10 '1').take 9
          rw [ones_take _ 9 10 (by omega)]
      · refine ⟨c!"Y", m, l, .inr (.inr rfl), hm, ?_, ?_⟩
        · rcases hl with hl | ⟨hl, h0, h⟩
          · exact .inl hl
          · refine .inr ⟨hl, fun x hx => ?_⟩
            cases m with
            | nil => exact absurd (h0 rfl) (by decide)
            | cons a m => exact h x (by simpa [List.getLast?_cons_cons] using hx)
        · show _ = 'Y' :: (m ++ l ++ List.replicate 10 '1').take 9
          rw [ones_take _ 9 10 (by omega)]
  rw [tail, cavTail_cons]
  constructor
  · rintro ((⟨h, -, h'⟩ | ⟨h, h'⟩ | h) | h | h)
    · exact .inl ⟨h, h'⟩
    · refine .inr (.inl ⟨h, [], [], by simp, .inr ⟨rfl, fun _ => rfl, by simp⟩, ?_⟩)
      rw [h']; rfl
    · exact .inr (.inr (.inr h))
    · exact .inr (.inl h)
    · exact .inr (.inr (.inl h))
  · rintro (⟨h, h'⟩ | h | h | h)
    · exact .inl (.inl ⟨h, rfl, h'⟩)
    · exact .inr (.inl h)
    · exact .inr (.inr h)
    · exact .inl (.inr (.inr h))

end CountProofs

/-- C108. Caverphone 2 (ASCII texts): exactly 14266666665 codes. -/
theorem caverphone2_how_many (U : Unicode) :
    HasExactly (fun code => ∃ s, AsciiStr s ∧ Caverphone2.encode U s = .ok code) 14266666665 := by
  have h9 := cavTail_count 9
  have := step (P := Caverphone2Code) 0 ('1' :: 'A' :: 'Y' :: c!"FKLMNPRSTW")
    (fun c => if c = '1' then 1 else if c ∈ c!"YLRW" then (cavEndings 9).2 else (cavEndings 9).1) (by decide)
    (.inr ⟨rfl, ?_⟩) ?_ ?_
  · have e : 0 + (('1' :: 'A' :: 'Y' :: c!"FKLMNPRSTW").map
        (fun c => if c = '1' then 1 else if c ∈ c!"YLRW" then (cavEndings 9).2 else (cavEndings 9).1)).sum = 14266666665 := by
      have : cavEndings 9 = (1188888889, 1188888888) := by rfl
      rw [this]; rfl
    rw [e] at this
    exact congr this fun w => (caverphone2_codes U w).symm
  · rintro ⟨f, m, l, -, -, -, e⟩
    have := congrArg List.length e
    simp at this
    omega
  · intro c w h
    rcases (cav2_cons c w).mp h with ⟨rfl, -⟩ | ⟨rfl, -⟩ | ⟨rfl, -⟩ | ⟨h, -⟩
    · simp
    · simp
    · simp
    · exact List.mem_cons_of_mem _ (List.mem_cons_of_mem _ (List.mem_cons_of_mem _ h))
  · intro c hc
    rcases List.mem_cons.mp hc with rfl | hc
    · refine congr (one (List.replicate 9 '1')) fun w => ?_
      rw [cav2_cons]
      refine ⟨fun h => .inl ⟨rfl, h⟩, ?_⟩
      rintro (⟨-, h⟩ | ⟨h, -⟩ | ⟨h, -⟩ | ⟨h, -⟩)
      · exact h
      all_goals exact absurd h (by decide)
    rcases List.mem_cons.mp hc with rfl | hc
    · refine congr h9.1 fun w => ?_
      rw [cav2_cons]
      refine ⟨fun h => .inr (.inl ⟨rfl, h⟩), ?_⟩
      rintro (⟨h, -⟩ | ⟨-, h⟩ | ⟨h, -⟩ | ⟨h, -⟩)
      · exact absurd h (by decide)
      · exact h
      all_goals exact absurd h (by decide)
    rcases List.mem_cons.mp hc with rfl | hc
    · refine congr h9.2 fun w => ?_
      rw [cav2_cons]
      refine ⟨fun h => .inr (.inr (.inl ⟨rfl, h⟩)), ?_⟩
      rintro (⟨h, -⟩ | ⟨h, -⟩ | ⟨-, h⟩ | ⟨h, -⟩)
      · exact absurd h (by decide)
      · exact absurd h (by decide)
      · exact h
      · exact absurd h (by decide)
    have no : ∀ c ∈ c!"FKLMNPRSTW", c ≠ '1' ∧ c ≠ 'A' ∧ c ≠ 'Y' := by decide
    obtain ⟨n1, n2, n3⟩ := no c hc
    have eq : ∀ w, CavTail (decide (c ∉ c!"LRW")) 9 w ↔ Caverphone2Code (c :: w) := by
      intro w
      rw [cav2_cons]
      refine ⟨fun h => .inr (.inr (.inr ⟨hc, h⟩)), ?_⟩
      rintro (⟨h, -⟩ | ⟨h, -⟩ | ⟨h, -⟩ | ⟨-, h⟩)
      · exact absurd h n1
      · exact absurd h n2
      · exact absurd h n3
      · exact h
    rw [if_neg n1]
    by_cases h : c ∈ c!"LRW"
    · rw [if_pos (List.mem_cons_of_mem _ h)]
      have : decide (c ∉ c!"LRW") = false := decide_eq_false fun h' => h' h
      rw [this] at eq
      exact congr h9.2 eq
    · rw [if_neg (fun h' => h ((List.mem_cons.mp h').resolve_left n3))]
      have : decide (c ∉ c!"LRW") = true := decide_eq_true h
      rw [this] at eq
      exact congr h9.1 eq


namespace CountProofs

/-- Consonants of the alternate codes and perhaps a blank. -/
def AltTail (n : Nat) (w : Str) : Prop :=
  w.length ≤ n ∧ ∃ rest last : Str, w = rest ++ last ∧ (∀ x ∈ rest, x ∈ c!"FHJKLMNPRSTX") ∧ (last = [] ∨ last = c!" ")

theorem altTail_cons (n : Nat) (c : Char) (w : Str) : AltTail (n + 1) (c :: w) ↔
    (c = ' ' ∧ w = []) ∨ (c ∈ c!"FHJKLMNPRSTX" ∧ AltTail n w) := by
  constructor
  · rintro ⟨hl, r, l, e, hr, h⟩
    cases r with
    | nil =>
      rcases h with rfl | rfl
      · cases e
      · left; simpa using e
    | cons a r =>
      simp only [List.cons_append, List.cons.injEq] at e
      obtain ⟨rfl, rfl⟩ := e
      exact .inr ⟨hr c (by simp), by simpa using hl, r, l, rfl, fun x hx => hr x (by simp [hx]), h⟩
  · rintro (⟨rfl, rfl⟩ | ⟨hc, hl, r, l, rfl, hr, h⟩)
    · exact ⟨by simp, [], c!" ", rfl, by simp, .inr rfl⟩
    · refine ⟨by simpa using hl, c :: r, l, rfl, ?_, h⟩
      intro x hx
      rcases List.mem_cons.mp hx with rfl | hx
      · exact hc
      · exact hr x hx

theorem altTail_count (n : Nat) : HasExactly (AltTail (n + 1)) (wordsUpTo 12 (n + 1) + wordsUpTo 12 n) ∧ HasExactly (AltTail 0) 1 := by
  have zero : HasExactly (AltTail 0) 1 := by
    refine congr (one []) fun w => ⟨?_, ?_⟩
    · rintro rfl; exact ⟨by simp, [], [], rfl, by simp, .inl rfl⟩
    · rintro ⟨h, -⟩; exact List.eq_nil_of_length_eq_zero (by omega)
  refine ⟨?_, zero⟩
  have up : ∀ n k, HasExactly (AltTail n) k → HasExactly (AltTail (n + 1)) (2 + 12 * k) := by
    intro n k h
    have := step (P := AltTail (n + 1)) 1 (' ' :: c!"FHJKLMNPRSTX") (fun c => if c = ' ' then 1 else k) (by decide)
      (.inl ⟨rfl, by simp, [], [], rfl, by simp, .inl rfl⟩) ?_ ?_
    · have e : 1 + ((' ' :: c!"FHJKLMNPRSTX").map fun c => if c = ' ' then 1 else k).sum = 2 + 12 * k := by simp; omega
      rw [e] at this; exact this
    · intro c w h
      rcases (altTail_cons n c w).mp h with ⟨rfl, -⟩ | ⟨h, -⟩
      · simp
      · exact List.mem_cons_of_mem _ h
    · intro c hc
      by_cases h0 : c = ' '
      · subst h0
        rw [if_pos rfl]
        refine congr (one []) fun w => ?_
        rw [altTail_cons]
        exact ⟨fun h => .inl ⟨rfl, h⟩, by rintro (⟨-, h⟩ | ⟨h, -⟩); exact h; exact absurd h (by decide)⟩
      · rw [if_neg h0]
        refine congr h fun w => ?_
        rw [altTail_cons]
        exact ⟨fun h => .inr ⟨(List.mem_cons.mp hc).resolve_left h0, h⟩, by rintro (⟨h, -⟩ | ⟨-, h⟩); exact absurd h h0; exact h⟩
  induction n with
  | zero => simpa [words_succ, words_zero] using up 0 1 zero
  | succ n ih =>
    have := up _ _ ih
    rw [words_succ 12 (n + 1), words_succ 12 n]
    rw [words_succ 12 n] at this
    generalize wordsUpTo 12 n = k at this ⊢
    have e : 1 + 12 * (1 + 12 * k) + (1 + 12 * k) = 2 + 12 * (1 + 12 * k + k) := by omega
    rw [e]; exact this

end CountProofs

/-- C108. Double Metaphone with a maximal length of `n + 2` (ASCII texts), alternate codes: exactly
`2 + 13 · ((1 + 12 + … + 12ⁿ⁺¹) + (1 + 12 + … + 12ⁿ))`; that is 26548 for the default length 4. -/
theorem double_metaphone_alternates (U : Unicode) (n : Nat) (hn : n + 2 < 2 ^ 63) :
    HasExactly (fun code => ∃ s, AsciiStr s ∧ (DoubleMetaphone.new (some (n + 2))).encodeAlternate U s = .ok code)
      (2 + 13 * (wordsUpTo 12 (n + 1) + wordsUpTo 12 n)) := by
  have h := (altTail_count n).1
  generalize wordsUpTo 12 (n + 1) + wordsUpTo 12 n = k at h
  have cons : ∀ c w, AlternateCode (c :: w) ∧ Within (some (n + 2)) (c :: w) ↔
      (c = ' ' ∧ w = []) ∨ (c ∈ c!"AFHJKLMNPRSTX" ∧ AltTail (n + 1) w) := by
    intro c w
    have split : AlternateCode (c :: w) ∧ Within (some (n + 2)) (c :: w) ↔
        AltTail (n + 2) (c :: w) ∨ (c = 'A' ∧ AltTail (n + 1) w) := by
      constructor
      · rintro ⟨⟨f, r, l, e, hf, hr, hl⟩, hw⟩
        have hw := hw _ rfl
        rcases hf with rfl | rfl
        · exact .inl ⟨hw, r, l, by simpa using e, hr, hl⟩
        · simp only [List.cons_append, List.nil_append, List.cons.injEq] at e
          exact .inr ⟨e.1, by simpa using hw, r, l, e.2, hr, hl⟩
      · rintro (⟨hw, r, l, e, hr, hl⟩ | ⟨rfl, hw, r, l, rfl, hr, hl⟩)
        · exact ⟨⟨[], r, l, by simpa using e, .inl rfl, hr, hl⟩, by rintro m ⟨⟩; exact hw⟩
        · exact ⟨⟨c!"A", r, l, rfl, .inr rfl, hr, hl⟩, by rintro m ⟨⟩; simpa using hw⟩
    rw [split, altTail_cons]
    constructor
    · rintro ((h | ⟨h, h'⟩) | ⟨rfl, h'⟩)
      · exact .inl h
      · exact .inr ⟨List.mem_cons_of_mem _ h, h'⟩
      · exact .inr ⟨by simp, h'⟩
    · rintro (h | ⟨h, h'⟩)
      · exact .inl (.inl h)
      · rcases List.mem_cons.mp h with rfl | h
        · exact .inr ⟨rfl, h'⟩
        · exact .inl (.inr ⟨h, h'⟩)
  have := step (P := fun w => AlternateCode w ∧ Within (some (n + 2)) w) 1 (' ' :: c!"AFHJKLMNPRSTX")
    (fun c => if c = ' ' then 1 else k) (by decide)
    (.inl ⟨rfl, ⟨[], [], [], rfl, .inl rfl, by simp, .inl rfl⟩, by simp [Within]⟩) ?_ ?_
  · have e : 1 + ((' ' :: c!"AFHJKLMNPRSTX").map fun c => if c = ' ' then 1 else k).sum = 2 + 13 * k := by simp; omega
    rw [e] at this
    exact congr this fun w => ((double_metaphone_codes U (some (n + 2)) (by rintro m ⟨⟩; exact hn) w).2).symm
  · intro c w h
    rcases (cons c w).mp h with ⟨rfl, -⟩ | ⟨h, -⟩
    · simp
    · exact List.mem_cons_of_mem _ h
  · intro c hc
    by_cases h0 : c = ' '
    · subst h0
      rw [if_pos rfl]
      refine congr (one []) fun w => ?_
      rw [cons]
      exact ⟨fun h => .inl ⟨rfl, h⟩, by rintro (⟨-, h⟩ | ⟨h, -⟩); exact h; exact absurd h (by decide)⟩
    · rw [if_neg h0]
      refine congr h fun w => ?_
      rw [cons]
      exact ⟨fun h => .inr ⟨(List.mem_cons.mp hc).resolve_left h0, h⟩, by rintro (⟨h, -⟩ | ⟨-, h⟩); exact absurd h h0; exact h⟩

namespace CountProofs

/-- What may follow a letter in a NYSIIS key. -/
def KeyTail (x : Char) : Str → Prop
  | [] => True
  | c :: r => c ∈ c!"ABCDFGHJLNPRSTVWXY" ∧ c ≠ x ∧ (c = 'W' → x ∉ c!"AEIOU") ∧
      (c = 'H' → x ∈ c!"AEIOU" ∧ (r = [] ∨ r.head? = some 'A')) ∧ KeyTail c r

theorem key_tail (rest : Str) : ∀ first, NysiisKey first rest ↔ first ∈ capitals ∧ first ≠ 'K' ∧ KeyTail first rest := by
  have main : ∀ first, ((∀ c ∈ rest, c ∈ c!"ABCDFGHJLNPRSTVWXY") ∧ NoAdjacentDup (first :: rest) ∧
      (∀ before x after, first :: rest = before ++ x :: 'W' :: after → x ∉ c!"AEIOU") ∧
      (∀ before x after, first :: rest = before ++ x :: 'H' :: after → x ∈ c!"AEIOU" ∧ (after = [] ∨ after.head? = some 'A'))) ↔
      KeyTail first rest := by
    induction rest with
    | nil =>
      intro first
      simp only [KeyTail, iff_true]
      have no : ∀ (d : Char) (before : Str) (x : Char) (after : Str), [first] ≠ before ++ x :: d :: after := by
        intro d before x after e
        have := congrArg List.length e
        simp at this
        omega
      exact ⟨by simp, trivial, fun b x a e => absurd e (no _ b x a), fun b x a e => absurd e (no _ b x a)⟩
    | cons c r ih =>
      intro first
      simp only [KeyTail, ← ih c]
      constructor
      · rintro ⟨h1, h2, h3, h4⟩
        refine ⟨h1 c (by simp), fun e => h2.1 e.symm, ?_, ?_, fun x hx => h1 x (by simp [hx]), h2.2, ?_, ?_⟩
        · rintro rfl; exact h3 [] first r rfl
        · rintro rfl; exact h4 [] first r rfl
        · intro b x a e; exact h3 (first :: b) x a (by rw [e]; rfl)
        · intro b x a e; exact h4 (first :: b) x a (by rw [e]; rfl)
      · rintro ⟨h1, h2, h3, h4, h5, h6, h7, h8⟩
        refine ⟨?_, ⟨fun e => h2 e.symm, h6⟩, ?_, ?_⟩
        · intro x hx
          rcases List.mem_cons.mp hx with rfl | hx
          · exact h1
          · exact h5 x hx
        · intro b x a e
          cases b with
          | nil =>
            simp only [List.nil_append, List.cons.injEq] at e
            obtain ⟨rfl, rfl, -⟩ := e
            exact h3 rfl
          | cons d b =>
            simp only [List.cons_append, List.cons.injEq] at e
            exact h7 b x a e.2
        · intro b x a e
          cases b with
          | nil =>
            simp only [List.nil_append, List.cons.injEq] at e
            obtain ⟨rfl, rfl, rfl⟩ := e
            exact h4 rfl
          | cons d b =>
            simp only [List.cons_append, List.cons.injEq] at e
            exact h8 b x a e.2
  intro first
  unfold NysiisKey
  rw [main]

/-- What may follow a letter in a NYSIIS code that is cut. `h`: the letter is an H that is not the first letter. -/
def NysTail (h : Bool) (x : Char) (n : Nat) (w : Str) : Prop :=
  ∃ rest r, KeyTail x rest ∧ (h = true → rest = [] ∨ rest.head? = some 'A') ∧ (x :: rest).getLast? ≠ some 'A' ∧
    (r = rest ∨ r = rest ++ c!"Y") ∧ w = r.take n

theorem nysTail_zero (h : Bool) (x : Char) (hx : h = true → x ≠ 'A') (w : Str) : NysTail h x 0 w ↔ w = [] := by
  constructor
  · rintro ⟨rest, r, -, -, -, -, rfl⟩; simp
  · rintro rfl
    by_cases e : x = 'A'
    · subst e
      refine ⟨c!"B", c!"B", ?_, fun h' => absurd rfl (hx h'), by decide, .inl rfl, rfl⟩
      simp [KeyTail]
    · exact ⟨[], [], trivial, fun _ => .inl rfl, by simpa using e, .inl rfl, rfl⟩

theorem nysTail_nil (h : Bool) (x : Char) (n : Nat) : NysTail h x (n + 1) [] ↔ x ≠ 'A' := by
  constructor
  · rintro ⟨rest, r, -, -, hl, hr, e⟩
    have : r = [] := by
      cases r with
      | nil => rfl
      | cons a r => simp at e
    subst this
    rcases hr with rfl | hr
    · simpa using hl
    · simp at hr
  · intro e
    exact ⟨[], [], trivial, fun _ => .inl rfl, by simpa using e, .inl rfl, rfl⟩

theorem nysTail_cons (h : Bool) (x : Char) (n : Nat) (c : Char) (w : Str) : NysTail h x (n + 1) (c :: w) ↔
    (c ∈ c!"ABCDFGHJLNPRSTVWXY" ∧ c ≠ x ∧ (c = 'W' → x ∉ c!"AEIOU") ∧ (c = 'H' → x ∈ c!"AEIOU") ∧ (h = true → c = 'A') ∧
      NysTail (decide (c = 'H')) c n w) ∨ (c = 'Y' ∧ w = [] ∧ x ≠ 'A') := by
  constructor
  · rintro ⟨rest, r, hk, hh, hl, hr, e⟩
    cases rest with
    | nil =>
      right
      rcases hr with rfl | rfl
      · cases e
      · simp only [List.nil_append, List.take_succ_cons, List.take_nil, List.cons.injEq] at e
        exact ⟨e.1, e.2, by simpa using hl⟩
    | cons a rest =>
      left
      obtain ⟨h1, h2, h3, h4, h5⟩ := hk
      have : ∃ r', r = a :: r' ∧ (r' = rest ∨ r' = rest ++ c!"Y") := by
        rcases hr with rfl | rfl
        · exact ⟨rest, rfl, .inl rfl⟩
        · exact ⟨rest ++ c!"Y", rfl, .inr rfl⟩
      obtain ⟨r', rfl, hr'⟩ := this
      simp only [List.take_succ_cons, List.cons.injEq] at e
      obtain ⟨rfl, rfl⟩ := e
      refine ⟨h1, h2, h3, fun e => (h4 e).1, ?_, rest, r', h5, ?_, ?_, hr', rfl⟩
      · intro e; simpa using hh e
      · intro e; exact (h4 (of_decide_eq_true e)).2
      · rw [List.getLast?_cons_cons] at hl; exact hl
  · rintro (⟨h1, h2, h3, h4, h5, rest, r, hk, hh, hl, hr, rfl⟩ | ⟨rfl, rfl, hx⟩)
    · refine ⟨c :: rest, c :: r, ⟨h1, h2, h3, fun e => ⟨h4 e, hh (decide_eq_true e)⟩, hk⟩, ?_, ?_, ?_, rfl⟩
      · intro e; right; rw [h5 e]; rfl
      · rw [List.getLast?_cons_cons]; exact hl
      · rcases hr with rfl | rfl
        · exact .inl rfl
        · exact .inr rfl
    · exact ⟨[], c!"Y", trivial, fun _ => .inl rfl, by simpa using hx, .inr rfl, by simp⟩

/-- The numbers of endings: after A, after another vowel, after a letter that may not be repeated, after H, M, Q or Z at the
beginning, after Y, and after H inside. -/
structure Endings where
  a : Nat
  v : Nat
  o : Nat
  q : Nat
  y : Nat
  h : Nat

def endings : Nat → Endings
  | 0 => ⟨1, 1, 1, 1, 1, 1⟩
  | n + 1 =>
    let e := endings n
    ⟨e.h + e.y + 14 * e.o, 1 + e.a + e.h + e.y + 14 * e.o, 1 + e.a + e.y + 14 * e.o, 1 + e.a + e.y + 15 * e.o,
      2 + e.a + 15 * e.o, 2 + e.a⟩

def Endings.of (e : Endings) (x : Char) : Nat :=
  if x = 'A' then e.a else if x ∈ c!"EIOU" then e.v else if x = 'Y' then e.y else if x ∈ c!"HMQZ" then e.q else e.o

/-- The letters that may follow. -/
abbrev follow (x : Char) : List Char :=
  c!"ABCDFGHJLNPRSTVWXY".filter fun c => (c ≠ x || c == 'Y') && (c ≠ 'W' || !c!"AEIOU".contains x) &&
    (c ≠ 'H' || c!"AEIOU".contains x)

theorem nys_value (e : Endings) (x : Char) : ∀ c ∈ c!"ABCDFGHJLNPRSTVWXY",
    (if c = 'H' then e.h else if c = 'Y' ∧ x = 'Y' then 1 else e.of c) =
    if c = 'H' then e.h else if c = 'Y' then (if x = 'Y' then 1 else e.y) else if c = 'A' then e.a else e.o := by
  intro c hc
  by_cases hH : c = 'H'
  · rw [if_pos hH, if_pos hH]
  · rw [if_neg hH, if_neg hH]
    by_cases hY : c = 'Y'
    · subst hY
      rw [if_pos rfl]
      by_cases hx : x = 'Y'
      · rw [if_pos ⟨rfl, hx⟩, if_pos hx]
      · rw [if_neg fun h => hx h.2, if_neg hx]
        unfold Endings.of
        rw [if_neg (by decide), if_neg (by decide), if_pos rfl]
    · rw [if_neg fun h => hY h.1, if_neg hY]
      have no : ∀ c ∈ c!"ABCDFGHJLNPRSTVWXY", c ≠ 'H' → c ∉ c!"EIOU" ∧ c ∉ c!"HMQZ" := by decide
      unfold Endings.of
      rw [if_neg (no c hc hH).1, if_neg hY, if_neg (no c hc hH).2]

theorem nys_total (h y a o : Nat) (l : List Char) :
    (l.map fun c => if c = 'H' then h else if c = 'Y' then y else if c = 'A' then a else o).sum =
    h * l.countP (· = 'H') + y * l.countP (· = 'Y') + a * l.countP (· = 'A') +
      o * l.countP (fun c => c ≠ 'H' ∧ c ≠ 'Y' ∧ c ≠ 'A') := by
  induction l with
  | nil => simp
  | cons c l ih =>
    rw [List.map_cons, List.sum_cons, ih]
    simp only [List.countP_cons]
    by_cases h1 : c = 'H'
    · subst h1; simp [Nat.mul_add]; omega
    · by_cases h2 : c = 'Y'
      · subst h2; simp [Nat.mul_add]; omega
      · by_cases h3 : c = 'A'
        · subst h3; simp [Nat.mul_add]; omega
        · simp [h1, h2, h3, Nat.mul_add]; omega

theorem nys_sum (e : Endings) : ∀ x ∈ c!"ABCDEFGHIJLMNOPQRSTUVWXYZ",
    (if x = 'A' then 0 else 1) + ((follow x).map fun c => if c = 'H' then e.h else if c = 'Y' ∧ x = 'Y' then 1 else e.of c).sum =
    (if x = 'A' then e.h + e.y + 14 * e.o else if x ∈ c!"EIOU" then 1 + e.a + e.h + e.y + 14 * e.o else
      if x = 'Y' then 2 + e.a + 15 * e.o else if x ∈ c!"HMQZ" then 1 + e.a + e.y + 15 * e.o else 1 + e.a + e.y + 14 * e.o) := by
  intro x hx
  rw [List.map_congr_left fun c hc => nys_value e x c (List.mem_filter.mp hc).1, nys_total]
  have count : ∀ x ∈ c!"ABCDEFGHIJLMNOPQRSTUVWXYZ",
      (follow x).countP (· = 'H') = (if x ∈ c!"AEIOU" then 1 else 0) ∧ (follow x).countP (· = 'Y') = 1 ∧
      (follow x).countP (· = 'A') = (if x = 'A' then 0 else 1) ∧
      (follow x).countP (fun c => c ≠ 'H' ∧ c ≠ 'Y' ∧ c ≠ 'A') = (if x ∈ c!"YHMQZ" then 15 else 14) := by decide +kernel
  obtain ⟨c1, c2, c3, c4⟩ := count x hx
  rw [c1, c2, c3, c4]
  by_cases hA : x = 'A'
  · subst hA; simp; omega
  · by_cases hV : x ∈ c!"EIOU"
    · have h1 : x ∈ c!"AEIOU" := List.mem_cons_of_mem _ hV
      have no : ∀ x ∈ c!"EIOU", x ≠ 'Y' ∧ x ∉ c!"YHMQZ" := by decide
      rw [if_pos h1, if_neg (no x hV).2]; simp only [hA, hV, (no x hV).1, if_true, if_false]; omega
    · have h1 : x ∉ c!"AEIOU" := fun h => hV ((List.mem_cons.mp h).resolve_left hA)
      rw [if_neg h1]; simp only [hA, hV, if_false]
      by_cases hY : x = 'Y'
      · subst hY; simp; omega
      · rw [if_neg hY, if_neg hY]
        by_cases hQ : x ∈ c!"HMQZ"
        · rw [if_pos hQ, if_pos (List.mem_cons_of_mem _ hQ)]; omega
        · rw [if_neg hQ, if_neg fun h => hQ ((List.mem_cons.mp h).resolve_left hY)]; omega

theorem follow_nodup : ∀ x ∈ c!"ABCDEFGHIJLMNOPQRSTUVWXYZ", (follow x).Nodup := by decide +kernel

theorem follow_mem (x c : Char) : c ∈ follow x ↔ c ∈ c!"ABCDFGHJLNPRSTVWXY" ∧ (c ≠ x ∨ c = 'Y') ∧ (c = 'W' → x ∉ c!"AEIOU") ∧
    (c = 'H' → x ∈ c!"AEIOU") := by
  simp only [follow, List.mem_filter, Bool.and_eq_true, Bool.or_eq_true, decide_eq_true_eq, beq_iff_eq, Bool.not_eq_true',
    List.contains_iff_mem, ← Bool.not_eq_true]
  constructor
  · rintro ⟨a, ⟨b, d⟩, e⟩
    exact ⟨a, b, fun h => d.resolve_left (fun h' => h' h), fun h => e.resolve_left (fun h' => h' h)⟩
  · rintro ⟨a, b, d, e⟩
    refine ⟨a, ⟨b, ?_⟩, ?_⟩
    · by_cases h : c = 'W'
      · exact .inr (d h)
      · exact .inl h
    · by_cases h : c = 'H'
      · exact .inr (e h)
      · exact .inl h

theorem nysTail_count (n : Nat) : (∀ x ∈ c!"ABCDEFGHIJLMNOPQRSTUVWXYZ", HasExactly (NysTail false x n) ((endings n).of x)) ∧
    HasExactly (NysTail true 'H' n) (endings n).h := by
  induction n with
  | zero =>
    constructor
    · intro x hx
      have : (endings 0).of x = 1 := by simp [endings, Endings.of]
      rw [this]
      exact congr (one []) fun w => (nysTail_zero false x (by simp) w).symm
    · exact congr (one []) fun w => (nysTail_zero true 'H' (by decide) w).symm
  | succ n ih =>
    have sub : ∀ c ∈ c!"ABCDFGHJLNPRSTVWXY", c ∈ c!"ABCDEFGHIJLMNOPQRSTUVWXYZ" := by decide
    constructor
    · intro x hx
      have key := step (P := NysTail false x (n + 1)) (if x = 'A' then 0 else 1) (follow x)
        (fun c => if c = 'H' then (endings n).h else if c = 'Y' ∧ x = 'Y' then 1 else (endings n).of c)
        (follow_nodup x hx) ?_ ?_ ?_
      · rw [nys_sum _ x hx] at key
        exact key
      · rw [nysTail_nil]
        by_cases h : x = 'A'
        · rw [if_pos h]; exact .inr ⟨rfl, fun h' => h' h⟩
        · rw [if_neg h]; exact .inl ⟨rfl, h⟩
      · intro c w h
        rw [follow_mem]
        rcases (nysTail_cons false x n c w).mp h with ⟨h1, h2, h3, h4, -⟩ | ⟨rfl, -, -⟩
        · exact ⟨h1, .inl h2, h3, h4⟩
        · exact ⟨by decide, .inr rfl, fun h => absurd h (by decide), fun h => absurd h (by decide)⟩
      · intro c hc
        obtain ⟨h1, h2, h3, h4⟩ := (follow_mem x c).mp hc
        by_cases hH : c = 'H'
        · subst hH
          rw [if_pos rfl]
          refine congr ih.2 fun w => ?_
          rw [nysTail_cons]
          constructor
          · intro h; exact .inl ⟨h1, h2.resolve_right (by decide), h3, h4, by simp, h⟩
          · rintro (⟨-, -, -, -, -, h⟩ | ⟨h, -⟩)
            · exact h
            · exact absurd h (by decide)
        · rw [if_neg hH]
          by_cases hY : c = 'Y' ∧ x = 'Y'
          · rw [if_pos hY]
            obtain ⟨rfl, rfl⟩ := hY
            refine congr (one []) fun w => ?_
            rw [nysTail_cons]
            constructor
            · intro h; exact .inr ⟨rfl, h, by decide⟩
            · rintro (⟨-, h, -⟩ | ⟨-, h, -⟩)
              · exact absurd rfl h
              · exact h
          · rw [if_neg hY]
            refine congr (ih.1 c (sub c h1)) fun w => ?_
            have hcx : c ≠ x := by
              rcases h2 with h2 | rfl
              · exact h2
              · exact fun h => hY ⟨rfl, h.symm⟩
            rw [nysTail_cons, decide_eq_false hH]
            constructor
            · intro h; exact .inl ⟨h1, hcx, h3, h4, by simp, h⟩
            · rintro (⟨-, -, -, -, -, h⟩ | ⟨rfl, rfl, -⟩)
              · exact h
              · cases n with
                | zero => rw [nysTail_zero false 'Y' (by simp)]
                | succ n => rw [nysTail_nil]; decide
    · have key := step (P := NysTail true 'H' (n + 1)) 1 c!"AY" (fun c => if c = 'A' then (endings n).a else 1) (by decide)
        (.inl ⟨rfl, (nysTail_nil _ _ _).mpr (by decide)⟩) ?_ ?_
      · have e : (endings (n + 1)).h = 1 + (c!"AY".map (fun c => if c = 'A' then (endings n).a else 1)).sum := by
          simp [endings]; omega
        rw [e]; exact key
      · intro c w h
        rcases (nysTail_cons true 'H' n c w).mp h with ⟨-, -, -, -, h, -⟩ | ⟨rfl, -⟩
        · rw [h rfl]; decide
        · decide
      · intro c hc
        simp only [List.mem_cons, List.not_mem_nil, or_false] at hc
        rcases hc with rfl | rfl
        · refine congr (ih.1 'A' (by decide)) fun w => ?_
          rw [nysTail_cons]
          constructor
          · intro h; exact .inl ⟨by decide, by decide, by decide, by decide, by simp, h⟩
          · rintro (⟨-, -, -, -, -, h⟩ | ⟨h, -⟩)
            · exact h
            · exact absurd h (by decide)
        · refine congr (one []) fun w => ?_
          rw [nysTail_cons]
          constructor
          · intro h; exact .inr ⟨rfl, h, by decide⟩
          · rintro (⟨-, -, -, -, h, -⟩ | ⟨-, h, -⟩)
            · exact absurd (h rfl) (by decide)
            · exact h

end CountProofs

/-- C108. NYSIIS in strict mode (ASCII texts): exactly 27912450 codes. -/
theorem nysiis_how_many (U : Unicode) :
    HasExactly (fun code => ∃ s, AsciiStr s ∧ (Nysiis.new true).encode U s = .ok code) 27912450 := by
  have cons : ∀ c w, (∃ full, NysiisCode full ∧ c :: w = full.take 6) ↔
      c ∈ c!"ABCDEFGHIJLMNOPQRSTUVWXYZ" ∧ ((c = 'A' ∧ w = []) ∨ NysTail false c 5 w) := by
    intro c w
    have caps : ∀ c, c ∈ capitals ∧ c ≠ 'K' ↔ c ∈ c!"ABCDEFGHIJLMNOPQRSTUVWXYZ" := by
      intro c
      constructor
      · rintro ⟨h, hk⟩
        have : ∀ c ∈ capitals, c ≠ 'K' → c ∈ c!"ABCDEFGHIJLMNOPQRSTUVWXYZ" := by decide
        exact this c h hk
      · have : ∀ c ∈ c!"ABCDEFGHIJLMNOPQRSTUVWXYZ", c ∈ capitals ∧ c ≠ 'K' := by decide
        exact this c
    constructor
    · rintro ⟨full, h, e⟩
      rcases h with rfl | rfl | ⟨f, rest, hk, hl, hf⟩
      · cases e
      · simp only [List.take_succ_cons, List.take_nil, List.cons.injEq] at e
        obtain ⟨rfl, rfl⟩ := e
        exact ⟨by decide, .inl ⟨rfl, rfl⟩⟩
      · rw [key_tail] at hk
        have : ∃ r, full = f :: r ∧ (r = rest ∨ r = rest ++ c!"Y") := by
          rcases hf with rfl | rfl
          · exact ⟨rest, rfl, .inl rfl⟩
          · exact ⟨rest ++ c!"Y", rfl, .inr rfl⟩
        obtain ⟨r, rfl, hr⟩ := this
        simp only [List.take_succ_cons, List.cons.injEq] at e
        obtain ⟨rfl, rfl⟩ := e
        exact ⟨(caps c).mp ⟨hk.1, hk.2.1⟩, .inr ⟨rest, r, hk.2.2, by simp, hl, hr, rfl⟩⟩
    · rintro ⟨hc, ⟨rfl, rfl⟩ | ⟨rest, r, hk, -, hl, hr, rfl⟩⟩
      · exact ⟨c!"A", .inr (.inl rfl), rfl⟩
      · refine ⟨c :: r, .inr (.inr ⟨c, rest, (key_tail rest c).mpr ⟨((caps c).mpr hc).1, ((caps c).mpr hc).2, hk⟩, hl, ?_⟩), rfl⟩
        rcases hr with rfl | rfl
        · exact .inl rfl
        · exact .inr rfl
  have h5 := nysTail_count 5
  have key := step (P := fun w => ∃ full, NysiisCode full ∧ w = full.take 6) 1 c!"ABCDEFGHIJLMNOPQRSTUVWXYZ"
    (fun c => if c = 'A' then (endings 5).a + 1 else (endings 5).of c) (by decide) (.inl ⟨rfl, [], .inl rfl, rfl⟩)
    (fun c w h => ((cons c w).mp h).1) ?_
  · have e : 1 + (c!"ABCDEFGHIJLMNOPQRSTUVWXYZ".map fun c => if c = 'A' then (endings 5).a + 1 else (endings 5).of c).sum =
        27912450 := by decide +kernel
    rw [e] at key
    exact congr key fun w => ((nysiis_codes U w).2).symm
  · intro c hc
    by_cases hA : c = 'A'
    · subst hA
      rw [if_pos rfl]
      obtain ⟨l, nd, len, mem⟩ := h5.1 'A' (by decide)
      have no : [] ∉ l := by rw [mem, nysTail_nil]; exact fun h => h rfl
      refine ⟨[] :: l, List.nodup_cons.mpr ⟨no, nd⟩, by rw [List.length_cons, len]; rfl, ?_⟩
      intro w
      show _ ↔ ∃ full, NysiisCode full ∧ 'A' :: w = full.take 6
      rw [cons, List.mem_cons, mem]
      exact ⟨fun h => ⟨by decide, h.imp (fun h => ⟨rfl, h⟩) id⟩, fun h => h.2.imp (fun h => h.2) id⟩
    · rw [if_neg hA]
      refine congr (h5.1 c hc) fun w => ?_
      show _ ↔ ∃ full, NysiisCode full ∧ c :: w = full.take 6
      rw [cons]
      exact ⟨fun h => ⟨hc, .inr h⟩, fun h => h.2.resolve_left fun h => hA h.1⟩

namespace CountProofs

theorem le_of_subset {l m : List Str} (h : l.Nodup) (hs : ∀ x ∈ l, x ∈ m) : l.length ≤ m.length := by
  induction l generalizing m with
  | nil => simp
  | cons a l ih =>
    rw [List.nodup_cons] at h
    have ha := hs a (by simp)
    have := ih h.2 (m := m.erase a) fun x hx => by
      rw [List.mem_erase_of_ne]
      · exact hs x (by simp [hx])
      · rintro rfl; exact h.1 hx
    rw [List.length_erase_of_mem ha] at this
    have := List.length_pos_of_mem ha
    simp; omega

end CountProofs

/-- C108. If there are only `n` codes, then among more than `n` names two have the same code. -/
theorem more_names_than_codes {P : Str → Prop} {n : Nat} (h : HasExactly P n) (encode : Str → Res Str) (names : List Str)
    (hn : n < names.length) (hc : ∀ s ∈ names, ∃ code, encode s = .ok code ∧ P code) :
    ∃ i j, i < j ∧ ∃ (hj : j < names.length) (hi : i < names.length) (code : Str), encode names[i] = .ok code ∧
      encode names[j] = .ok code := by
  obtain ⟨l, -, len, mem⟩ := h
  by_cases hno : (names.map fun s => match encode s with | .ok c => c | .error _ => []).Nodup
  · have := le_of_subset hno (m := l) (by
      intro x hx
      obtain ⟨s, hs, rfl⟩ := List.mem_map.mp hx
      obtain ⟨code, h1, h2⟩ := hc s hs
      rw [h1]; exact (mem code).mpr h2)
    rw [List.length_map] at this
    omega
  · rw [List.nodup_iff_pairwise_ne, List.pairwise_iff_getElem] at hno
    simp only [Classical.not_forall] at hno
    obtain ⟨i, j, hi, hj, hij, heq⟩ := hno
    simp only [List.length_map] at hi hj
    refine ⟨i, j, hij, hj, hi, ?_⟩
    simp only [List.getElem_map, ne_eq, Classical.not_not] at heq
    obtain ⟨a, ha, -⟩ := hc names[i] (List.getElem_mem hi)
    obtain ⟨b, hb, -⟩ := hc names[j] (List.getElem_mem hj)
    rw [ha, hb] at heq
    exact ⟨a, ha, by rw [hb]; exact congrArg _ heq.symm⟩

/-- C108. The codes of the default encoders: 91750 for Metaphone, 33321 for Double Metaphone, 2806 for Phonex (and exactly
26548 alternate codes for Double Metaphone). -/
theorem default_how_many (U : Unicode) :
    HasExactly (fun code => ∃ s, byteLen (U.strUpper s) ≠ 1 ∧ Metaphone.default.encode U s = .ok code) 91750 ∧
    HasExactly (fun code => ∃ s, AsciiStr s ∧ DoubleMetaphone.default.encode U s = .ok code) 33321 ∧
    HasExactly (fun code => ∃ s, AsciiStr s ∧ DoubleMetaphone.default.encodeAlternate U s = .ok code) 26548 ∧
    HasExactly (fun code => ∃ s, AsciiStr s ∧ Phonex.default.encode U s = .ok code) 2806 :=
  ⟨metaphone_how_many U 3, double_metaphone_how_many U 3 (by decide), double_metaphone_alternates U 2 (by decide),
    phonex_how_many U 2 (by decide)⟩

/-- C108. Of 6736 ASCII texts, two have the same Soundex code. -/
theorem soundex_shared (U : Unicode) (names : List Str) (hn : 6735 < names.length) (ha : ∀ s ∈ names, AsciiStr s) :
    ∃ i j, i < j ∧ ∃ (hj : j < names.length) (hi : i < names.length) (code : Str),
      Soundex.default.encode U names[i] = .ok code ∧ Soundex.default.encode U names[j] = .ok code :=
  more_names_than_codes (soundex_how_many U) _ names hn fun s hs => by
    obtain ⟨code, h⟩ := soundex_ascii_no_panic U Soundex.default s (ha s hs)
    exact ⟨code, h, s, h⟩

/-- There are so many texts. -/
example (U : Unicode) : ∃ i j, i < j ∧ ∃ code, Soundex.default.encode U (List.replicate i 'A') = .ok code ∧
    Soundex.default.encode U (List.replicate j 'A') = .ok code := by
  obtain ⟨i, j, hij, hj, hi, code, h1, h2⟩ := soundex_shared U ((List.range 6736).map fun i => List.replicate i 'A')
    (by simp) (by
      intro s hs
      obtain ⟨k, -, rfl⟩ := List.mem_map.mp hs
      intro c hc
      rw [(List.mem_replicate.mp hc).2]; decide)
  simp only [List.getElem_map, List.getElem_range] at h1 h2
  exact ⟨i, j, hij, code, h1, h2⟩

/-- The counts are those of small alphabets: three words of at most one letter of two, seven of at most two. -/
example : wordsUpTo 2 1 = 3 ∧ wordsUpTo 2 2 = 7 ∧ HasExactly (fun w => w = [] ∨ w = c!"A") 2 :=
  ⟨rfl, rfl, [[], c!"A"], by decide, rfl, fun w => by simp⟩

end Verif.Props
