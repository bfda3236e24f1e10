import Verif.Spec.FirstCharacter
import Verif.Props.CodesDoubleMetaphone
/-!
# C106: what the first character of a code says about the beginning of the name

Double Metaphone.
-/
namespace Verif.Props
open Verif.Spec
set_option linter.unusedSimpArgs false

namespace OnsetProofs
open Spec.DM

/-- The codes of a sound start with the given characters. -/
def Begins (P A : Str) (s : Sound) : Prop := (∃ x ∈ P, s.primary.head? = some x) ∧ ∃ x ∈ A, s.alternate.head? = some x

theorem s_onset (word before after : Str) (hb : before = [] ∨ before = c!"P") :
    Begins c!"SX" c!"SX" (sound word before after 'S') := by
  have e : around before after [(c!"I", c!"L"), (c!"Y", c!"L")] = false := by
    rcases hb with rfl | rfl <;> simp [around, List.isSuffixOf_iff_suffix, List.suffix_cons_iff]
  have e' : (after.isEmpty && ends before [c!"AI", c!"OI"]) = false := by
    have : ∀ b, (b = [] ∨ b = c!"P") → ends b [c!"AI", c!"OI"] = false := by rintro b (rfl | rfl) <;> decide
    rw [this before hb, Bool.and_false]
  simp only [sound, soundS, soundSC, e, e', Bool.false_eq_true, if_false]
  repeat' first
    | exact ⟨⟨_, by decide, rfl⟩, ⟨_, by decide, rfl⟩⟩
    | refine ite_ind (Begins _ _) (fun _ => ?_) (fun _ => ?_)

theorem sound_onset (word after : Str) (c : Char) (hc : c ∈ c!"ABCDEFGIJKLMNOPQRSTUVXYZ") :
    Begins (doubleMetaphoneOnset c) (doubleMetaphoneAlternateOnset c) (sound word [] after c) := by
  have e : ∀ l : List (Str × Str), (∀ p ∈ l, p.1 ≠ []) → around [] after l = false := by
    intro l hl
    unfold around
    rw [List.any_eq_false]
    intro p hp
    simp [List.isSuffixOf_iff_suffix, hl p hp]
  by_cases hS : c = 'S'
  · subst hS; exact s_onset word [] after (.inl rfl)
  simp only [List.mem_cons, List.not_mem_nil, or_false] at hc
  rcases hc with rfl | rfl | rfl | rfl | rfl | rfl | rfl | rfl | rfl | rfl | rfl | rfl | rfl | rfl | rfl | rfl | rfl |
    rfl | rfl | rfl | rfl | rfl | rfl | rfl <;> first | exact absurd rfl hS | skip
  all_goals
    simp only [sound, soundSimple, soundC, soundCH, soundCC, soundD, soundG, soundGH, soundH, soundJ, soundL, soundM, soundP, soundR,
      soundS, soundSC, soundT, soundW, soundX, soundZ]
    try simp (decide := true) only [e, List.isEmpty_nil, if_true, if_false, Bool.true_and, Bool.not_true, Bool.false_and, Bool.and_false,
      List.length_nil, ge_iff_le, Bool.false_eq_true, decide_false, decide_true, Bool.or_true, Bool.true_or]
    repeat' first
      | exact ⟨⟨_, by decide, rfl⟩, ⟨_, by decide, rfl⟩⟩
      | refine ite_ind (Begins _ _) (fun _ => ?_) (fun _ => ?_)
/-- The beginning of the sounds of a word. -/
theorem sounds_onset (c : Char) (r : Str) (hc : c ∈ c!"ABCDEFGIJKLMNOPQRSTUVXYZ") :
    ∃ s rest, sounds (c :: r) = s :: rest ∧ Begins (doubleMetaphoneOnset c) (doubleMetaphoneAlternateOnset c) s := by
  unfold sounds
  split
  · rename_i h
    have h : c!"GN" <+: c :: r ∨ c!"KN" <+: c :: r ∨ c!"PN" <+: c :: r ∨ c!"WR" <+: c :: r ∨ c!"PS" <+: c :: r := by
      simpa [starts, or_assoc] using h
    rcases h with ⟨t, h⟩ | ⟨t, h⟩ | ⟨t, h⟩ | ⟨t, h⟩ | ⟨t, h⟩ <;> injection h with h1 h2 <;> subst h1 <;> subst h2
    · exact ⟨_, _, rfl, ⟨⟨'N', by decide, rfl⟩, ⟨'N', by decide, rfl⟩⟩⟩
    · exact ⟨_, _, rfl, ⟨⟨'N', by decide, rfl⟩, ⟨'N', by decide, rfl⟩⟩⟩
    · exact ⟨_, _, rfl, ⟨⟨'N', by decide, rfl⟩, ⟨'N', by decide, rfl⟩⟩⟩
    · exact absurd hc (by decide)
    · refine ⟨_, _, rfl, ?_⟩
      obtain ⟨⟨x, hx, h1⟩, y, hy, h2⟩ := s_onset ('P' :: 'S' :: t) c!"P" t (.inr rfl)
      have sub : ∀ x ∈ c!"SX", x ∈ doubleMetaphoneOnset 'P' ∧ x ∈ doubleMetaphoneAlternateOnset 'P' := by decide
      exact ⟨⟨x, (sub x hx).1, h1⟩, y, (sub y hy).2, h2⟩
  · exact ⟨_, _, rfl, sound_onset (c :: r) r c hc⟩

end OnsetProofs

/-- C106. Double Metaphone: the first character of a code is one of those of the first character of the name without the
blanks around it, if this is a letter that is never silent. -/
theorem double_metaphone_onset (U : Unicode) (s : Str) (hs : AsciiStr s) (c : Char) (r : Str) (h : U.trim s = c :: r)
    (hc : doubleMetaphoneOnset (asciiUpper c) ≠ []) (max : Option Nat) (hm : Allocatable max) (h0 : max ≠ some 0) :
    ∃ p a x y, (DoubleMetaphone.new max).encode U s = .ok p ∧ (DoubleMetaphone.new max).encodeAlternate U s = .ok a ∧
      p.head? = some x ∧ x ∈ doubleMetaphoneOnset (asciiUpper c) ∧
      a.head? = some y ∧ y ∈ doubleMetaphoneAlternateOnset (asciiUpper c) := by
  obtain ⟨-, e1, e2⟩ := double_metaphone_spec U max s hs hm
  rw [h, List.map_cons] at e1 e2
  generalize asciiUpper c = d at *
  generalize r.map asciiUpper = t at *
  have hd : d ∈ c!"ABCDEFGIJKLMNOPQRSTUVXYZ" := by
    apply Decidable.byContradiction
    intro hn
    apply hc
    simp only [List.mem_cons, List.not_mem_nil, or_false, not_or] at hn
    simp [doubleMetaphoneOnset, hn]
  obtain ⟨s0, rest, hs0, ⟨x, hx, hp⟩, y, hy, ha⟩ := OnsetProofs.sounds_onset d t hd
  have lim : ∀ (l : Str) (x : Char), l.head? = some x → (DM.limited max l).head? = some x := by
    intro l x hl
    cases max with
    | none => exact hl
    | some n =>
      show (l.take n).head? = some x
      rw [List.head?_take, if_neg (by rintro rfl; exact h0 rfl), hl]
  have app : ∀ (l m : Str) (x : Char), l.head? = some x → (l ++ m).head? = some x := by
    intro l m x hl
    cases l with
    | nil => cases hl
    | cons z l => exact hl
  refine ⟨_, _, x, y, e1, e2, lim _ _ ?_, hx, lim _ _ ?_, hy⟩
  · unfold DM.primary
    rw [hs0, List.flatMap_cons]
    exact app _ _ _ hp
  · unfold DM.alternate
    rw [hs0, List.flatMap_cons]
    exact app _ _ _ ha

example : DoubleMetaphone.default.encode .latin1 c!"Psalm" = .ok c!"SLM" ∧ doubleMetaphoneOnset 'P' = c!"FNPSX" := by
  decide +kernel

namespace OnsetProofs
open Spec.DM

/-- A word whose primary code starts with A. -/
def VowelP (c : Char) (r : Str) : Prop := c ∈ c!"AEIOUY" ∨ (c = 'W' ∧ ∃ d t, r = d :: t ∧ d ∈ c!"AEIOUYH")

/-- A word whose alternate code starts with A. -/
def VowelA (c : Char) (r : Str) : Prop := c ∈ c!"AEIOUY" ∨ (c = 'W' ∧ c!"H" <+: r) ∨ (c = 'J' ∧ ¬ c!"OSE" <+: r)

/-- The first sound: its codes are A, or they have no A. -/
def Vowelled (P A : Prop) (s : Sound) : Prop :=
  (P ∧ s.primary = c!"A" ∨ ¬ P ∧ 'A' ∉ s.primary) ∧ (A ∧ s.alternate = c!"A" ∨ ¬ A ∧ 'A' ∉ s.alternate)

theorem vowelled_not {P A : Prop} {p a : Str} {n : Nat} (hP : ¬ P) (hA : ¬ A) (h1 : 'A' ∉ p) (h2 : 'A' ∉ a) :
    Vowelled P A ⟨p, a, n⟩ := ⟨.inr ⟨hP, h1⟩, .inr ⟨hA, h2⟩⟩

theorem vowelled_same {P A : Prop} {p : Str} {n : Nat} (hP : ¬ P) (hA : ¬ A) (h1 : 'A' ∉ p) :
    Vowelled P A (same p n) := ⟨.inr ⟨hP, h1⟩, .inr ⟨hA, h1⟩⟩

theorem vowelled_silent {P A : Prop} {n : Nat} (hP : ¬ P) (hA : ¬ A) :
    Vowelled P A (silent n) := ⟨.inr ⟨hP, by simp [silent]⟩, .inr ⟨hA, by simp [silent]⟩⟩

theorem sound_vowel (word after : Str) (c : Char) (hw : word = c :: after) (hR : ¬ (c = 'W' ∧ c!"R" <+: after)) :
    Vowelled (VowelP c after) (VowelA c after) (sound word [] after c) := by
  have vow : ∀ c ∈ c!"AEIOUY", Vowelled (VowelP c after) (VowelA c after) (same c!"A" 0) :=
    fun c hc => ⟨.inl ⟨.inl hc, rfl⟩, .inl ⟨.inl hc, rfl⟩⟩
  have no : ∀ c, c ∉ c!"AEIOUYWJ" → ¬ VowelP c after ∧ ¬ VowelA c after := by
    intro c hc
    constructor
    · rintro (h | ⟨rfl, _⟩)
      · exact hc (by simp at h ⊢; grind)
      · exact hc (by decide)
    · rintro (h | ⟨rfl, _⟩ | ⟨rfl, _⟩)
      · exact hc (by simp at h ⊢; grind)
      · exact hc (by decide)
      · exact hc (by decide)
  unfold sound
  split
  case h_13 =>
    have hs : starts word [c!"SAN "] = false := by rw [hw]; rfl
    have hP : ¬ VowelP 'J' after := by
      rintro (h | ⟨h, _⟩)
      · exact absurd h (by decide)
      · exact absurd h (by decide)
    rw [soundJ, hs]
    simp only [Bool.false_eq_true, if_false, List.isEmpty_nil, if_true, Bool.true_and]
    have ho : starts after [c!"OSE"] = true ↔ c!"OSE" <+: after := by simp [starts]
    by_cases h : starts after [c!"OSE"] = true
    · rw [if_pos h]
      have hA : ¬ VowelA 'J' after := by
        rintro (h' | ⟨h', _⟩ | ⟨_, h'⟩)
        · exact absurd h' (by decide)
        · exact absurd h' (by decide)
        · exact h' (ho.mp h)
      split
      · exact vowelled_same hP hA (by decide)
      · exact vowelled_not hP hA (by decide) (by decide)
    · rw [if_neg h]
      exact ⟨.inr ⟨hP, show 'A' ∉ c!"J" by decide⟩, .inl ⟨.inr (.inr ⟨rfl, fun h' => h (ho.mpr h')⟩), rfl⟩⟩
  case h_24 =>
    have hr : starts after [c!"R"] = false := by
      rw [← Bool.not_eq_true]
      intro h
      exact hR ⟨rfl, by simpa [starts] using h⟩
    have hw' : starts word [c!"SCH"] = false := by rw [hw]; rfl
    have a1 : around [] after [(c!"E", c!"SKI"), (c!"E", c!"SKY"), (c!"O", c!"SKI"), (c!"O", c!"SKY")] = false := by
      simp [around, List.isSuffixOf_iff_suffix]
    have a2 : (after.isEmpty && vowel (back [] 1)) = false := by simp [back, vowel, among]
    have hW : ¬ 'W' ∈ c!"AEIOUY" ∧ ¬ 'W' = 'J' := by decide
    rw [soundW, hr, hw', a1, a2]
    simp only [Bool.false_eq_true, if_false, List.isEmpty_nil, if_true, Bool.true_and]
    cases after with
    | nil =>
      have : VowelP 'W' [] = False ∧ VowelA 'W' [] = False := by simp [VowelP, VowelA]
      rw [this.1, this.2]
      exact vowelled_silent (fun h => h) (fun h => h)
    | cons d t =>
      have hv : vowel (d :: t).head? = true ↔ d ∈ c!"AEIOUY" := by simp [vowel, among]
      have hh : starts (d :: t) [c!"H"] = true ↔ d = 'H' := by simp [starts, List.isPrefixOf]; exact eq_comm
      by_cases h1 : d ∈ c!"AEIOUY"
      · rw [if_pos (hv.mpr h1)]
        refine ⟨.inl ⟨.inr ⟨rfl, d, t, rfl, ?_⟩, rfl⟩, .inr ⟨?_, by decide⟩⟩
        · simp at h1 ⊢; grind
        · rintro (h' | ⟨_, h'⟩ | ⟨h', _⟩)
          · exact hW.1 h'
          · have : 'H' = d := (List.cons_prefix_cons.mp h').1
            subst this; exact absurd h1 (by decide)
          · exact hW.2 h'
      · rw [if_neg (fun h => h1 (hv.mp h))]
        by_cases h2 : d = 'H'
        · rw [if_pos (hh.mpr h2)]
          subst h2
          exact ⟨.inl ⟨.inr ⟨rfl, _, t, rfl, by decide⟩, rfl⟩, .inl ⟨.inr (.inl ⟨rfl, by simp⟩), rfl⟩⟩
        · rw [if_neg (fun h => h2 (hh.mp h))]
          have nP : ¬ VowelP 'W' (d :: t) := by
            rintro (h' | ⟨_, d', t', h', hd⟩)
            · exact hW.1 h'
            · injection h' with h' _
              subst h'
              simp at hd h1; grind
          have nA : ¬ VowelA 'W' (d :: t) := by
            rintro (h' | ⟨_, h'⟩ | ⟨h', _⟩)
            · exact hW.1 h'
            · exact h2 (List.cons_prefix_cons.mp h').1.symm
            · exact hW.2 h'
          split
          · exact vowelled_not nP nA (by decide) (by decide)
          · exact vowelled_silent nP nA
  all_goals
    try simp only [soundSimple, soundC, soundCH, soundCC, soundD, soundG, soundGH, soundH, soundL, soundM, soundP, soundR,
      soundS, soundSC, soundT, soundX, soundZ]
    repeat' first
      | exact vow _ (by decide)
      | exact vowelled_same (no _ (by decide)).1 (no _ (by decide)).2 (by decide)
      | exact vowelled_not (no _ (by decide)).1 (no _ (by decide)).2 (by decide) (by decide)
      | exact vowelled_silent (no _ (by decide)).1 (no _ (by decide)).2
      | refine ite_ind (Vowelled _ _) (fun _ => ?_) (fun _ => ?_)
  have hc : c ∉ c!"AEIOUYWJ" := by
    simp only [List.mem_cons, List.not_mem_nil, or_false]
    rintro (h | h | h | h | h | h | h | h) <;> contradiction
  exact vowelled_silent (no c hc).1 (no c hc).2

/-- A code starts with A exactly if the first sound does. -/
theorem head_vowel (word : Str) :
    ((primary word).head? = some 'A' ↔ ∃ c r, word = c :: r ∧ VowelP c r) ∧
    ((alternate word).head? = some 'A' ↔ ∃ c r, word = c :: r ∧ VowelA c r) := by
  have quiet : ∀ (w before : Str) (n : Nat) (after : Str), before ≠ [] →
      'A' ∉ (soundsFrom w before n after).flatMap Sound.primary ∧ 'A' ∉ (soundsFrom w before n after).flatMap Sound.alternate := by
    intro w before n after hb
    obtain ⟨h1, rest, last, h2, h3, h4⟩ := DMCodes.sounds_inside w after before n hb
    constructor
    · intro h
      exact absurd (h1 'A' h) (by decide)
    · rw [h2]
      intro h
      rcases List.mem_append.mp h with h | h
      · exact absurd (h3 'A' h) (by decide)
      · rcases h4 with rfl | rfl
        · cases h
        · exact absurd h (by decide)
  unfold primary alternate sounds
  cases word with
  | nil => simp [soundsFrom, starts, List.isPrefixOf]
  | cons c r =>
    have red : ∀ P : Char → Str → Prop, (∃ c' r', c :: r = c' :: r' ∧ P c' r') ↔ P c r := by
      intro P
      constructor
      · rintro ⟨_, _, h, hp⟩
        injection h with h1 h2
        subst h1; subst h2; exact hp
      · exact fun h => ⟨c, r, rfl, h⟩
    rw [red, red]
    split
    · rename_i h
      have h : c!"GN" <+: c :: r ∨ c!"KN" <+: c :: r ∨ c!"PN" <+: c :: r ∨ c!"WR" <+: c :: r ∨ c!"PS" <+: c :: r := by
        simpa [starts, or_assoc] using h
      obtain ⟨q1, q2⟩ := quiet (c :: r) ([] ++ [c]) 0 r (by simp)
      rw [soundsFrom]
      have nP : ¬ VowelP c r := by
        rcases h with ⟨t, h⟩ | ⟨t, h⟩ | ⟨t, h⟩ | ⟨t, h⟩ | ⟨t, h⟩ <;> injection h with h1 h2 <;> subst h1 <;> subst h2 <;>
          simp [VowelP]
      have nA : ¬ VowelA c r := by
        rcases h with ⟨t, h⟩ | ⟨t, h⟩ | ⟨t, h⟩ | ⟨t, h⟩ | ⟨t, h⟩ <;> injection h with h1 h2 <;> subst h1 <;> subst h2 <;>
          simp [VowelA]
      exact ⟨⟨fun h => absurd (List.mem_of_mem_head? h) q1, fun h => absurd h nP⟩,
        ⟨fun h => absurd (List.mem_of_mem_head? h) q2, fun h => absurd h nA⟩⟩
    · rename_i h
      have hR : ¬ (c = 'W' ∧ c!"R" <+: r) := by
        rintro ⟨rfl, t, rfl⟩
        exact h rfl
      obtain ⟨h1, h2⟩ := sound_vowel (c :: r) r c rfl hR
      rw [soundsFrom]
      generalize sound (c :: r) [] r c = s at *
      obtain ⟨q1, q2⟩ := quiet (c :: r) ([] ++ [c]) s.covered r (by simp)
      simp only [List.flatMap_cons]
      have fin : ∀ (P : Prop) (x y : Str), (P ∧ x = c!"A" ∨ ¬ P ∧ 'A' ∉ x) → 'A' ∉ y → ((x ++ y).head? = some 'A' ↔ P) := by
        rintro P x y (⟨hp, rfl⟩ | ⟨hp, hx⟩) hy
        · simp [hp]
        · refine ⟨fun h => ?_, fun h => absurd h hp⟩
          rcases List.mem_append.mp (List.mem_of_mem_head? h) with h | h
          · exact absurd h hx
          · exact absurd h hy
      exact ⟨fin _ _ _ h1 q1, fin _ _ _ h2 q2⟩

end OnsetProofs

/-- C106. Double Metaphone, for a name in upper case without the blanks around it: the primary code starts with A exactly
if the name starts with one of A E I O U Y, or with W and one of these or H; the alternate code starts with A exactly if
the name starts with one of A E I O U Y, with WH, or with J but not JOSE. -/
theorem double_metaphone_vowel (U : Unicode) (s : Str) (hs : AsciiStr s) (max : Option Nat) (hm : Allocatable max)
    (h0 : max ≠ some 0) (name : Str) (hn : name = (U.trim s).map asciiUpper) :
    ∃ p a, (DoubleMetaphone.new max).encode U s = .ok p ∧ (DoubleMetaphone.new max).encodeAlternate U s = .ok a ∧
      (p.head? = some 'A' ↔ (∃ c ∈ c!"AEIOUY", [c] <+: name) ∨ ∃ c ∈ c!"AEIOUYH", ['W', c] <+: name) ∧
      (a.head? = some 'A' ↔ (∃ c ∈ c!"AEIOUY", [c] <+: name) ∨ c!"WH" <+: name ∨ (c!"J" <+: name ∧ ¬ c!"JOSE" <+: name)) := by
  obtain ⟨-, e1, e2⟩ := double_metaphone_spec U max s hs hm
  rw [← hn] at e1 e2
  have lim : ∀ (l : Str), (DM.limited max l).head? = l.head? := by
    intro l
    cases max with
    | none => rfl
    | some n =>
      show (l.take n).head? = _
      rw [List.head?_take, if_neg (by rintro rfl; exact h0 rfl)]
  refine ⟨_, _, e1, e2, ?_, ?_⟩
  · rw [lim, (OnsetProofs.head_vowel name).1]
    cases name with
    | nil => simp
    | cons c r =>
      simp only [List.cons.injEq, List.cons_prefix_cons, List.nil_prefix, and_true, OnsetProofs.VowelP]
      constructor
      · rintro ⟨_, _, ⟨rfl, rfl⟩, h | ⟨rfl, d, t, rfl, h⟩⟩
        · exact .inl ⟨_, h, rfl⟩
        · exact .inr ⟨d, h, rfl, by simp⟩
      · rintro (⟨_, h, rfl⟩ | ⟨d, h, rfl, t, rfl⟩)
        · exact ⟨_, _, ⟨rfl, rfl⟩, .inl h⟩
        · exact ⟨_, _, ⟨rfl, rfl⟩, .inr ⟨rfl, d, t, rfl, h⟩⟩
  · rw [lim, (OnsetProofs.head_vowel name).2]
    cases name with
    | nil => simp
    | cons c r =>
      simp only [List.cons.injEq, List.cons_prefix_cons (l₂ := r), List.nil_prefix, and_true, OnsetProofs.VowelA]
      constructor
      · rintro ⟨_, _, ⟨rfl, rfl⟩, h | ⟨rfl, h⟩ | ⟨rfl, h⟩⟩
        · exact .inl ⟨_, h, rfl⟩
        · exact .inr (.inl ⟨rfl, h⟩)
        · exact .inr (.inr ⟨rfl, fun h' => h h'.2⟩)
      · rintro (⟨_, h, rfl⟩ | ⟨rfl, h⟩ | ⟨rfl, h⟩)
        · exact ⟨_, _, ⟨rfl, rfl⟩, .inl h⟩
        · exact ⟨_, _, ⟨rfl, rfl⟩, .inr (.inl ⟨rfl, h⟩)⟩
        · exact ⟨_, _, ⟨rfl, rfl⟩, .inr (.inr ⟨rfl, fun h' => h ⟨rfl, h'⟩⟩)⟩

example : DoubleMetaphone.default.encode .latin1 c!"Wasserman" = .ok c!"ASRM" ∧
    DoubleMetaphone.default.encodeAlternate .latin1 c!"Wasserman" = .ok c!"FSRM" ∧
    DoubleMetaphone.default.encodeAlternate .latin1 c!"Jackson" = .ok c!"AKSN" := by decide +kernel

/-- C106. All the characters of the tables occur. -/
theorem double_metaphone_onset_sharp : ∀ c ∈ c!"ABCDEFGHIJKLMNOPQRSTUVWXYZ",
    (∀ d ∈ doubleMetaphoneOnset c, ∃ t ∈ [c!"a", c!"e", c!"h", c!"ose", c!"ia", c!"n", c!"ge", c!"hi", c!"ia", c!"s", c!"sh"],
      ((DoubleMetaphone.default.encode .latin1 (c :: t)).map fun code => code.head? == some d) = .ok true) ∧
    ∀ d ∈ doubleMetaphoneAlternateOnset c, ∃ t ∈ [c!"a", c!"e", c!"h", c!"hi", c!"ose", c!"ia", c!"n", c!"ge", c!"s", c!"sh", c!"li", c!"za"],
      ((DoubleMetaphone.default.encodeAlternate .latin1 (c :: t)).map fun code => code.head? == some d) = .ok true := by
  decide +kernel

end Verif.Props
