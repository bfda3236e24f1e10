import Verif.Props.BeginningNysiis
import Verif.Props.DoubleMetaphoneSpec
import Verif.Props.CodesMatchRating
import Verif.Props.Metaphone
import Verif.Props.Cologne
import Verif.Props.Soundex
/-!
# Codes are hardly longer than names (C103)

Bounds for the codes that have no fixed length, in terms of the letters of an ASCII name.
-/

set_option linter.unusedSimpArgs false
set_option linter.unusedVariables false

namespace Verif.Props
open Spec

namespace LengthProofs

theorem letter_split (s : Str) : asciiLetters s = (s.map asciiUpper).filter isAsciiUpper := by
  have h : ∀ c, isAsciiUpper (asciiUpper c) = isAsciiAlpha c := by
    intro c
    by_cases hc : isAscii c = true
    · revert c; intro c hc; revert c; apply forall_ascii; decide +kernel
    · unfold asciiUpper isAsciiAlpha
      by_cases hl : isAsciiLower c = true
      · exact absurd (by unfold isAsciiLower at hl; unfold isAscii; simp at hl ⊢; have := hl.2; unfold Char.toNat at *; grind) hc
      · simp [hl]
  unfold asciiLetters
  rw [List.filter_map]
  congr 1
  apply List.filter_congr
  intro c _
  exact (h c).symm

/-- A weight for each letter. -/
def weigh (extra : Char → Nat) : Str → Nat
  | [] => 0
  | c :: r => (if isAsciiUpper c then 1 + extra c else 0) + weigh extra r

theorem weigh_append (e : Char → Nat) (a b : Str) : weigh e (a ++ b) = weigh e a + weigh e b := by
  induction a with
  | nil => simp [weigh]
  | cons c a ih => simp only [List.cons_append, weigh, ih]; omega

theorem weigh_none (w : Str) : weigh (fun _ => 0) w = (w.filter isAsciiUpper).length := by
  induction w with
  | nil => rfl
  | cons c w ih =>
    simp only [weigh, ih, List.filter_cons]
    split <;> simp <;> omega

theorem weigh_x (w : Str) : weigh (fun c => if c = 'X' then 1 else 0) w =
    (w.filter isAsciiUpper).length + (w.filter isAsciiUpper).count 'X' := by
  induction w with
  | nil => rfl
  | cons c w ih =>
    simp only [weigh, ih, List.filter_cons]
    split
    · simp only [List.length_cons, List.count_cons, beq_iff_eq]
      omega
    · omega

theorem weigh_xz (w : Str) : weigh (fun c => if c = 'X' ∨ c = 'Z' then 1 else 0) w =
    (w.filter isAsciiUpper).length + (w.filter isAsciiUpper).count 'X' + (w.filter isAsciiUpper).count 'Z' := by
  induction w with
  | nil => rfl
  | cons c w ih =>
    simp only [weigh, ih, List.filter_cons]
    split
    · simp only [List.length_cons, List.count_cons, beq_iff_eq]
      by_cases h1 : c = 'X'
      · subst h1; simp; omega
      · by_cases h2 : c = 'Z'
        · subst h2; simp; omega
        · simp [h1, h2]; omega
    · omega

/-! ## Metaphone -/

theorem metaLetter_length (b : Str) (c : Char) (a : Str) :
    (metaLetter b c a).length ≤ if isAsciiUpper c then 1 + (if c = 'X' then 1 else 0) else 0 := by
  by_cases hu : isAsciiUpper c = true
  · rw [if_pos hu]
    unfold metaLetter
    by_cases hx : c = 'X'
    · subst hx; simp
    · simp only [if_neg hx]
      repeat' refine ite_ind (fun w : Str => w.length ≤ 1 + 0) (fun _ => ?_) (fun _ => ?_)
      all_goals simp
  · rw [if_neg hu]
    have : ∀ k ∈ c!"AEIOUBCDGHFJLMNRKPQSTVWYXZ", c ≠ k := by
      intro k hk e
      subst e
      exact hu ((by decide : ∀ k ∈ c!"AEIOUBCDGHFJLMNRKPQSTVWYXZ", isAsciiUpper k = true) c hk)
    have h := fun k hk => this k hk
    simp only [List.forall_mem_cons] at this
    unfold metaLetter
    simp [this, h]

theorem metaCodes_length (w : Str) : ∀ b, (metaCodes b w).length ≤ weigh (fun c => if c = 'X' then 1 else 0) w := by
  induction w with
  | nil => intro b; simp [metaCodes, weigh]
  | cons c w ih =>
    intro b
    simp only [metaCodes, weigh, List.length_append]
    have h1 := ih (c :: b)
    have h2 := metaLetter_length b c w
    have h3 : ∀ {P : Prop} [Decidable P] (l : Str), (if P then [] else l : Str).length ≤ l.length := by
      intro P _ l; split <;> simp
    have := h3 (P := metaAbsorbed b c w = true ∨ (c ≠ 'C' ∧ [c] <+: b)) (metaLetter b c w)
    omega

theorem weigh_drop (e : Char → Nat) (n : Nat) (w : Str) : weigh e (w.drop n) ≤ weigh e w := by
  have := weigh_append e (w.take n) (w.drop n)
  rw [List.take_append_drop] at this
  omega

theorem metaInitial_weigh (w : Str) : weigh (fun c => if c = 'X' then 1 else 0) (metaInitial w) ≤
    weigh (fun c => if c = 'X' then 1 else 0) w := by
  unfold metaInitial
  split
  · exact weigh_drop _ _ _
  · split
    · rename_i h
      obtain ⟨r, rfl⟩ := h
      simp [weigh, isAsciiUpper]
    · split
      · rename_i h
        obtain ⟨r, rfl⟩ := h
        simp +decide [weigh]
      · exact Nat.le_refl _

/-! ## Cologne -/

theorem cologneCode_length (o : Bool) (p n : Option Char) (c : Char) :
    (cologneCode o p n c).length ≤ 1 + (if c = 'X' then 1 else 0) := by
  unfold cologneCode
  by_cases hx : c = 'X'
  · subst hx; simp; split <;> simp
  · simp only [if_neg hx]
    repeat' refine ite_ind (fun w : Str => w.length ≤ 1 + 0) (fun _ => ?_) (fun _ => ?_)
    all_goals simp

theorem cologneCodes_length (w : Str) : ∀ b, (cologneCodes b w).length ≤ weigh (fun c => if c = 'X' then 1 else 0) w := by
  induction w with
  | nil => intro b; simp [cologneCodes, weigh]
  | cons c w ih =>
    intro b
    simp only [cologneCodes, weigh]
    split
    · rw [List.length_append]
      have h1 := ih (c :: b)
      have h2 := cologneCode_length (b.all (· == 'H')) b.head? w.head? c
      omega
    · have := ih b
      omega

theorem cologneFinish_length (w : Str) : (cologneFinish w).length ≤ w.length := by
  have h1 := collapse_length_le w
  have h2 := List.length_filter_le (fun c => decide (c ≠ '-')) (collapse w)
  unfold cologneFinish
  cases h : (collapse w).filter (fun c => decide (c ≠ '-')) with
  | nil => simp
  | cons d ds =>
    rw [h] at h2
    have h3 := List.length_filter_le (fun c => decide (c ≠ '0')) ds
    simp only [List.length_cons] at h2 ⊢
    omega

/-! ## Match Rating -/

theorem mraPairs_length (w : Str) : (mraPairs w).length ≤ w.length := by
  fun_induction mraPairs w with
  | case1 => simp
  | case2 => simp
  | case3 a b r h ih => simp only [List.length_cons]; omega
  | case4 a b r h ih => simp only [List.length_cons] at ih ⊢; omega

/-! ## Double Metaphone -/

/-- The next letter is a capital. -/
def capitalNext (after : Str) : Prop := ∃ u r, after = u :: r ∧ isAsciiUpper u = true

/-- At most one character; or two for two letters. -/
def Slim (after : Str) (s : DM.Sound) : Prop :=
  s.primary.length ≤ 1 ∧ s.alternate.length ≤ 1 ∨
    s.primary.length ≤ 2 ∧ s.alternate.length ≤ 2 ∧ 1 ≤ s.covered ∧ capitalNext after

theorem slim_one {after : Str} {s : DM.Sound} (h : s.primary.length ≤ 1 ∧ s.alternate.length ≤ 1) : Slim after s := .inl h

theorem capital_of_starts {after : Str} {ws : List Str} (h : DM.starts after ws = true)
    (hw : (ws.all fun w => match w with | u :: _ => isAsciiUpper u | [] => false) = true) : capitalNext after := by
  unfold DM.starts at h
  rw [List.any_eq_true] at h
  obtain ⟨w, h1, h2⟩ := h
  rw [List.all_eq_true] at hw
  have := hw w h1
  cases w with
  | nil => simp at this
  | cons u w =>
    obtain ⟨t, rfl⟩ := List.isPrefixOf_iff_prefix.mp h2
    exact ⟨u, w ++ t, rfl, this⟩

theorem slimC (word b a : Str) : Slim a (DM.soundC word b a) := by
  unfold DM.soundC
  repeat' refine ite_ind (Slim a) (fun _ => ?_) (fun _ => ?_)
  all_goals try (exact slim_one (by decide))
  rename_i h _ _
  exact .inr ⟨by decide, by decide, by decide, capital_of_starts (by
    simp only [Bool.and_eq_true] at h; exact h.1 : DM.starts a [c!"C"] = true) (by decide)⟩

theorem slimG (word b a : Str) : Slim a (DM.soundG word b a) := by
  unfold DM.soundG
  refine ite_ind (Slim a) (fun _ => ?_) (fun _ => ?_)
  · unfold DM.soundGH
    repeat' refine ite_ind (Slim a) (fun _ => ?_) (fun _ => ?_)
    all_goals exact slim_one (by decide)
  · refine ite_ind (Slim a) (fun h => ?_) (fun _ => ?_)
    · repeat' refine ite_ind (Slim a) (fun _ => ?_) (fun _ => ?_)
      all_goals exact .inr ⟨by decide, by decide, by decide, capital_of_starts h (by decide)⟩
    · refine ite_ind (Slim a) (fun h => ?_) (fun _ => ?_)
      · simp only [Bool.and_eq_true] at h
        exact .inr ⟨by decide, by decide, by decide, capital_of_starts h.1 (by decide)⟩
      · repeat' refine ite_ind (Slim a) (fun _ => ?_) (fun _ => ?_)
        all_goals exact slim_one (by decide)

theorem slimS (word b a : Str) : Slim a (DM.soundS word b a) := by
  unfold DM.soundS
  repeat' refine ite_ind (Slim a) (fun _ => ?_) (fun _ => ?_)
  all_goals first
    | exact slim_one (by decide)
    | exact slim_one ⟨Nat.le_refl 1, Nat.le_refl 1⟩
    | exact .inr ⟨by decide, by decide, by decide,
        capital_of_starts ‹DM.starts a [c!"C"] = true› (by decide)⟩

theorem slimD (a : Str) : Slim a (DM.soundD a) := by
  unfold DM.soundD
  refine ite_ind (Slim a) (fun _ => ?_) (fun _ => ?_)
  · exact slim_one (by decide)
  · refine ite_ind (Slim a) (fun h => ?_) (fun _ => ?_)
    · exact .inr ⟨by decide, by decide, by decide, capital_of_starts h (by decide)⟩
    · repeat' refine ite_ind (Slim a) (fun _ => ?_) (fun _ => ?_)
      all_goals exact slim_one (by decide)

theorem slimW (word b a : Str) : Slim a (DM.soundW word b a) := by
  unfold DM.soundW
  repeat' refine ite_ind (Slim a) (fun _ => ?_) (fun _ => ?_)
  all_goals try (exact slim_one (by decide))
  · rename_i h
    exact .inr ⟨by decide, by decide, by decide, capital_of_starts h (by decide)⟩

/-- What a letter contributes: nothing if it is not a capital (of ASCII); only X and Z may be long. -/
theorem sound_slim (word b a : Str) (c : Char) (hc : isAscii c = true) :
    (isAsciiUpper c = false → (DM.sound word b a c).primary = [] ∧ (DM.sound word b a c).alternate = []) ∧
    (Slim a (DM.sound word b a c) ∨
      c = 'X' ∧ (DM.sound word b a c).primary.length ≤ 2 ∧ (DM.sound word b a c).alternate.length ≤ 2 ∨
      c = 'Z' ∧ (DM.sound word b a c).primary.length ≤ 1 ∧ (DM.sound word b a c).alternate.length ≤ 2) := by
  have hs : ∀ (x : Char) (y : Str), y.length ≤ 1 → Slim a (DM.soundSimple a x y) :=
    fun x y hy => slim_one ⟨hy, hy⟩
  unfold DM.sound
  split
  all_goals first
    | refine ⟨fun h => absurd h (by decide), ?_⟩
    | skip
  all_goals first
    | exact .inl (ite_ind (Slim a) (fun _ => slim_one (by decide)) (fun _ => slim_one (by decide)))
    | exact .inl (hs _ _ (by decide))
    | exact .inl (slimC _ _ _)
    | exact .inl (slimD _)
    | exact .inl (slimG _ _ _)
    | exact .inl (slimS _ _ _)
    | exact .inl (slimW _ _ _)
    | exact .inl (by
        unfold DM.soundJ
        repeat' refine ite_ind (Slim a) (fun _ => ?_) (fun _ => ?_)
        all_goals exact slim_one ⟨by simp [DM.same, DM.silent], by simp [DM.same, DM.silent]⟩)
    | exact .inl (by
        first | unfold DM.soundH | unfold DM.soundL | unfold DM.soundM | unfold DM.soundP | unfold DM.soundR | unfold DM.soundT
        repeat' refine ite_ind (Slim a) (fun _ => ?_) (fun _ => ?_)
        all_goals exact slim_one ⟨by simp [DM.same, DM.silent], by simp [DM.same, DM.silent]⟩)
    | exact .inr (.inl ⟨rfl, by
        unfold DM.soundX
        refine ite_ind (fun s : DM.Sound => s.primary.length ≤ 2 ∧ s.alternate.length ≤ 2) (fun _ => by decide) (fun _ => ?_)
        refine ite_ind (fun s : DM.Sound => s.primary.length ≤ 2 ∧ s.alternate.length ≤ 2) (fun _ => by decide) (fun _ => ?_)
        exact ⟨Nat.le_refl 2, Nat.le_refl 2⟩⟩)
    | exact .inr (.inr ⟨rfl, by
        unfold DM.soundZ
        repeat' refine ite_ind (fun s : DM.Sound => s.primary.length ≤ 1 ∧ s.alternate.length ≤ 2) (fun _ => ?_) (fun _ => ?_)
        all_goals exact ⟨by simp [DM.same], by simp [DM.same]⟩⟩)
    | exact absurd hc (by decide)
    | exact ⟨fun _ => ⟨rfl, rfl⟩, .inl (slim_one (by decide))⟩

theorem weigh_pos (e : Char → Nat) {a : Str} (h : capitalNext a) {n : Nat} (hn : 1 ≤ n) : 1 ≤ weigh e (a.take n) := by
  obtain ⟨u, r, rfl, hu⟩ := h
  obtain ⟨m, rfl⟩ : ∃ m, n = m + 1 := ⟨n - 1, by omega⟩
  simp only [List.take_succ_cons, weigh, if_pos hu]
  omega

/-- The contribution of a letter weighs at most as much as the letters that it stands for. -/
theorem sound_weigh (word b a : Str) (c : Char) (hc : isAscii c = true) :
    (DM.sound word b a c).primary.length ≤ weigh (fun c => if c = 'X' then 1 else 0) (c :: a.take (DM.sound word b a c).covered) ∧
    (DM.sound word b a c).alternate.length ≤
      weigh (fun c => if c = 'X' ∨ c = 'Z' then 1 else 0) (c :: a.take (DM.sound word b a c).covered) := by
  obtain ⟨h1, h2⟩ := sound_slim word b a c hc
  cases hu : isAsciiUpper c with
  | false =>
    obtain ⟨h3, h4⟩ := h1 hu
    rw [h3, h4]
    simp
  | true =>
    simp only [weigh, hu, if_true]
    rcases h2 with (⟨h3, h4⟩ | ⟨h3, h4, h5, h6⟩) | ⟨rfl, h3, h4⟩ | ⟨rfl, h3, h4⟩
    · omega
    · have k1 := weigh_pos (fun c => if c = 'X' then 1 else 0) h6 h5
      have k2 := weigh_pos (fun c => if c = 'X' ∨ c = 'Z' then 1 else 0) h6 h5
      omega
    · simp only [true_or, if_true]; omega
    · simp only [or_true, if_true]; omega

theorem sounds_weigh (word after : Str) : ∀ (b : Str) (n : Nat), AsciiStr after →
    ((DM.soundsFrom word b n after).flatMap DM.Sound.primary).length ≤
      weigh (fun c => if c = 'X' then 1 else 0) (after.drop n) ∧
    ((DM.soundsFrom word b n after).flatMap DM.Sound.alternate).length ≤
      weigh (fun c => if c = 'X' ∨ c = 'Z' then 1 else 0) (after.drop n) := by
  induction after with
  | nil => intro b n _; cases n <;> simp [DM.soundsFrom]
  | cons c a ih =>
    intro b n ha
    rw [asciiStr_cons] at ha
    cases n with
    | succ n => exact ih _ n ha.2
    | zero =>
      have h1 := ih (b ++ [c]) (DM.sound word b a c).covered ha.2
      have h2 := sound_weigh word b a c ha.1
      simp only [DM.soundsFrom, List.flatMap_cons, List.length_append, List.drop_zero]
      have k : ∀ e, weigh e (c :: a) = weigh e (c :: a.take (DM.sound word b a c).covered) +
          weigh e (a.drop (DM.sound word b a c).covered) := by
        intro e
        rw [← weigh_append, List.cons_append, List.take_append_drop]
      rw [k, k]
      omega

theorem trim_infix (U : Unicode) (s : Str) : ∃ a b, s = a ++ U.trim s ++ b := by
  obtain ⟨x, hx⟩ := List.dropWhile_suffix (l := s) U.isWhitespace
  obtain ⟨y, hy⟩ := List.dropWhile_suffix (l := (s.dropWhile U.isWhitespace).reverse) U.isWhitespace
  refine ⟨x, y.reverse, ?_⟩
  have := congrArg List.reverse hy
  simp only [List.reverse_append, List.reverse_reverse] at this
  rw [List.append_assoc]
  unfold Unicode.trim
  rw [this, hx]

end LengthProofs
open LengthProofs

/-- C103. Refined Soundex: at most one character more than the name has letters. -/
theorem refined_soundex_length (U : Unicode) (rs : RefinedSoundex) (s code : Str) (hs : AsciiStr s)
    (h : rs.encode U s = .ok code) : code.length ≤ (asciiLetters s).length + 1 := by
  rw [refinedSoundex_ascii U rs s hs] at h
  rw [← Except.ok.inj h]
  cases asciiLetters s with
  | nil => simp [refinedSoundex]
  | cons f r =>
    simp only [refinedSoundex, List.length_cons]
    have := collapse_length_le ((f :: r).map (codeOf rs.mapping.val))
    simp only [List.length_map, List.length_cons] at this
    omega

/-- C103. NYSIIS: at most as many characters as the name has letters. -/
theorem nysiis_length_le (U : Unicode) (s code : Str) (hs : AsciiStr s)
    (h : (Nysiis.new false).encode U s = .ok code) : code.length ≤ (asciiLetters s).length := by
  rw [← Except.ok.inj ((nysiis_eq_spec U s).1.symm.trans h), ← letters_ascii U hs]
  exact LocalProofs.nysiis_length U s

/-- C103. Metaphone: only X may become two characters. -/
theorem metaphone_length (U : Unicode) (s code : Str) (hs : AsciiStr s) (h1 : s.length ≠ 1)
    (h : (Metaphone.new none).encode U s = .ok code) :
    code.length ≤ (asciiLetters s).length + (asciiLetters s).count 'X' := by
  rw [← Except.ok.inj ((metaphone_eq_spec U s hs).1.symm.trans h), letter_split]
  unfold metaphone
  rw [List.length_map, if_neg h1, ← weigh_x]
  exact Nat.le_trans (metaCodes_length _ _) (metaInitial_weigh _)

/-- C103. Cologne: only X may become two digits. -/
theorem cologne_length (U : Unicode) (s : Str) (hs : AsciiStr s) :
    (Cologne.encode U s).length ≤ (asciiLetters s).length + (asciiLetters s).count 'X' := by
  rw [cologne_eq_spec, letter_split, ← weigh_x]
  have hw : cologneWord U s = s.map asciiUpper := by
    unfold cologneWord
    rw [strUpper_ascii U hs, List.map_map]
    apply List.map_congr_left
    intro c hc
    have : ∀ c, isAscii c = true → (unUmlaut ∘ asciiUpper) c = asciiUpper c := by apply forall_ascii; decide +kernel
    exact this c (hs c hc)
  unfold cologne
  rw [hw]
  exact Nat.le_trans (cologneFinish_length _) (cologneCodes_length _ _)

/-- C103. Match Rating: at most six characters, and at most as many as the name has (not counting those ignored). -/
theorem mra_length (U : Unicode) (s code : Str) (hs : AsciiStr s) (h : MatchRating.encode U s = .ok code) :
    code.length ≤ 6 ∧ code.length ≤ (mraAsciiKept s).length := by
  obtain ⟨c', hc', ha, hl⟩ := mra_ascii_no_panic U s hs
  obtain rfl := Except.ok.inj (hc'.symm.trans h)
  refine ⟨hl, ?_⟩
  by_cases hlong : 2 ≤ byteLen (U.trim s)
  · have hcut := ((mra_encode_spec U s hlong).1 c').mp h
    rw [CodeProofs.reduced_kept U s hs] at hcut
    have h1 := mraPairs_length (mraSkeleton (mraAsciiKept s))
    have h2 : (mraSkeleton (mraAsciiKept s)).length ≤ (mraAsciiKept s).length := by
      unfold mraSkeleton
      have := List.length_filter_le (fun c => !c!"AEIOUaeiou".contains c) ((mraAsciiKept s).drop 1)
      simp only [List.length_append, List.length_take, List.length_drop] at this ⊢
      omega
    rcases hcut with ⟨-, e⟩ | ⟨-, x, m, y, e1, -, -, e2⟩
    · rw [e]; omega
    · rw [e1] at h1
      simp only [List.length_append] at h1
      rw [e2, List.length_append]
      omega
  · rw [Except.ok.inj (h.symm.trans ((mra_code_short U s).2 (by omega)))]
    simp

/-- C103. Double Metaphone: only X may become two characters of the code, and Z in the alternate code. -/
theorem double_metaphone_length (U : Unicode) (s : Str) (hs : AsciiStr s) (p a : Str)
    (hp : (DoubleMetaphone.new none).encode U s = .ok p) (ha : (DoubleMetaphone.new none).encodeAlternate U s = .ok a) :
    p.length ≤ (asciiLetters s).length + (asciiLetters s).count 'X' ∧
    a.length ≤ (asciiLetters s).length + (asciiLetters s).count 'X' + (asciiLetters s).count 'Z' := by
  have hmax : Allocatable none := by intro n h; cases h
  obtain ⟨-, h2, h3⟩ := double_metaphone_spec U none s hs hmax
  rw [← Except.ok.inj (h2.symm.trans hp), ← Except.ok.inj (h3.symm.trans ha), letter_split,
    ← weigh_xz, ← weigh_x]
  have hm : AsciiStr ((U.trim s).map asciiUpper) := by
    rw [← strUpper_ascii U (DMProofs.ascii_trim U hs)]
    exact asciiStr_strUpper U (DMProofs.ascii_trim U hs)
  have := sounds_weigh ((U.trim s).map asciiUpper) _ [] (if DM.starts ((U.trim s).map asciiUpper)
    [c!"GN", c!"KN", c!"PN", c!"WR", c!"PS"] then 1 else 0) hm
  have hd : ∀ e n, weigh e (((U.trim s).map asciiUpper).drop n) ≤ weigh e (s.map asciiUpper) := by
    intro e n
    refine Nat.le_trans (weigh_drop _ _ _) ?_
    obtain ⟨x, y, hxy⟩ := trim_infix U s
    conv => rhs; rw [hxy]
    rw [List.map_append, List.map_append, weigh_append, weigh_append]
    omega
  exact ⟨Nat.le_trans this.1 (hd _ _), Nat.le_trans this.2 (hd _ _)⟩

/-- C103. The bounds are attained. -/
theorem lengths_attained :
    RefinedSoundex.default.encode .latin1 c!"Mabel" = .ok c!"M80107" ∧
    (Nysiis.new false).encode .latin1 c!"Bran" = .ok c!"BRAN" ∧
    (Metaphone.new none).encode .latin1 c!"Max" = .ok c!"MKS" ∧
    (Metaphone.new none).encode .latin1 c!"Axl" = .ok c!"AKSL" ∧
    Cologne.encode .latin1 c!"Xbx" = c!"48148" ∧
    MatchRating.encode .latin1 c!"Smith" = .ok c!"SMTH" ∧ MatchRating.encode .latin1 c!"M.T." = .ok c!"MT" ∧
    (DoubleMetaphone.new none).encode .latin1 c!"Axl" = .ok c!"AKSL" ∧
    (DoubleMetaphone.new none).encodeAlternate .latin1 c!"Axzk" = .ok c!"AKSTSK" := by decide +kernel

end Verif.Props
