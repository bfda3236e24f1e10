import Verif.Props.DoubleMetaphoneSpec
import Verif.Props.CodesSoundex
/-!
# C93: which strings are codes (Double Metaphone)
-/

set_option linter.unusedSimpArgs false

namespace Verif.Props
open Spec

namespace DMCodes
open Spec.DM

def inside0 : Str := c!"0FHJKLMNPRSTX"
def inside : Str := c!"FHJKLMNPRSTX"

/-- What a letter may contribute. -/
def G (b : Bool) (after : Str) (s : Sound) : Prop :=
  ((∀ x ∈ s.primary, x ∈ inside0) ∨ b = true ∧ s.primary = c!"A") ∧
  ((∀ x ∈ s.alternate, x ∈ inside) ∨ b = true ∧ s.alternate = c!"A" ∨ s.alternate = c!" " ∧ after = [])

section
variable {b : Bool} {after : Str}

theorem g_same (code : Str) (n : Nat) (h : ∀ x ∈ code, x ∈ inside) : G b after (same code n) := by
  have : ∀ x ∈ inside, x ∈ inside0 := by decide
  exact ⟨Or.inl fun x hx => this x (h x hx), Or.inl h⟩

theorem g_pair (p q : Str) (n : Nat) (h : ∀ x ∈ p, x ∈ inside0) (h' : ∀ x ∈ q, x ∈ inside) : G b after ⟨p, q, n⟩ :=
  ⟨Or.inl h, Or.inl h'⟩

theorem g_silent (n : Nat) : G b after (silent n) := ⟨Or.inl (by simp [silent]), Or.inl (by simp [silent])⟩

theorem g_A (n : Nat) (h : b = true) : G b after (same c!"A" n) := ⟨Or.inr ⟨h, rfl⟩, Or.inr (Or.inl ⟨h, rfl⟩)⟩

theorem g_JA (n : Nat) (h : b = true) : G b after ⟨c!"J", c!"A", n⟩ :=
  ⟨Or.inl (show ∀ x ∈ c!"J", x ∈ inside0 by decide), Or.inr (Or.inl ⟨h, rfl⟩)⟩

theorem g_Jblank (n : Nat) (h : after.isEmpty = true) : G b after ⟨c!"J", c!" ", n⟩ :=
  ⟨Or.inl (show ∀ x ∈ c!"J", x ∈ inside0 by decide), Or.inr (Or.inr ⟨rfl, List.isEmpty_iff.mp h⟩)⟩

end

theorem sound_shape (word before after : Str) (c : Char) : G before.isEmpty after (sound word before after c) := by
  have hand : ∀ {x : Bool}, (before.isEmpty && x) = true → before.isEmpty = true := by
    intro x h; rw [Bool.and_eq_true] at h; exact h.1
  unfold sound
  split
  all_goals
    try simp only [soundSimple, soundC, soundCH, soundCC, soundD, soundG, soundGH, soundH, soundJ, soundL, soundM, soundP, soundR,
      soundS, soundSC, soundT, soundW, soundX, soundZ]
    repeat' first
      | exact g_same _ _ (by decide)
      | exact g_pair _ _ _ (by decide) (by decide)
      | exact g_silent _
      | exact g_A _ (by assumption)
      | exact g_A _ (hand (by assumption))
      | exact ⟨Or.inr ⟨hand (by assumption), rfl⟩, Or.inl (by decide)⟩
      | exact g_JA _ (by assumption)
      | exact g_Jblank _ (by assumption)
      | refine ite_ind (G _ _) (fun _ => ?_) (fun _ => ?_)

theorem sounds_inside (word after : Str) : ∀ (before : Str) (n : Nat), before ≠ [] →
    (∀ x ∈ (soundsFrom word before n after).flatMap Sound.primary, x ∈ inside0) ∧
    ∃ rest last : Str, (soundsFrom word before n after).flatMap Sound.alternate = rest ++ last ∧ (∀ x ∈ rest, x ∈ inside) ∧
      (last = [] ∨ last = c!" ") := by
  induction after with
  | nil => intro before n _; cases n <;> exact ⟨by simp [soundsFrom], [], [], by simp [soundsFrom], by simp, Or.inl rfl⟩
  | cons c after ih =>
    intro before n hb
    cases n with
    | succ n => rw [soundsFrom]; exact ih _ n (by simp)
    | zero =>
      rw [soundsFrom]
      obtain ⟨h1, h2⟩ := sound_shape word before after c
      have hne : ¬ before.isEmpty = true := by simpa using hb
      generalize sound word before after c = s at *
      obtain ⟨ih1, rest, last, ih2, ih3, ih4⟩ := ih (before ++ [c]) s.covered (by simp)
      rw [List.flatMap_cons, List.flatMap_cons, ih2]
      refine ⟨?_, ?_⟩
      · intro x hx
        rcases List.mem_append.mp hx with hx | hx
        · rcases h1 with h | h
          · exact h x hx
          · exact absurd h.1 hne
        · exact ih1 x hx
      · rcases h2 with h | h | ⟨h, rfl⟩
        · refine ⟨s.alternate ++ rest, last, by simp, ?_, ih4⟩
          intro x hx
          rcases List.mem_append.mp hx with hx | hx
          · exact h x hx
          · exact ih3 x hx
        · exact absurd h.1 hne
        · have : (soundsFrom word (before ++ [c]) s.covered []).flatMap Sound.alternate = [] := by
            cases s.covered <;> simp [soundsFrom]
          rw [this] at ih2
          refine ⟨[], c!" ", ?_, by simp, Or.inr rfl⟩
          rw [h, ← ih2]; rfl

theorem sounds_shape (word : Str) : PrimaryCode (primary word) ∧ AlternateCode (alternate word) := by
  have inner : ∀ (before : Str) (n : Nat) (after : Str), before ≠ [] →
      PrimaryCode ((soundsFrom word before n after).flatMap Sound.primary) ∧
      AlternateCode ((soundsFrom word before n after).flatMap Sound.alternate) := by
    intro before n after hb
    obtain ⟨h1, rest, last, h2, h3, h4⟩ := sounds_inside word after before n hb
    exact ⟨⟨[], _, rfl, Or.inl rfl, h1⟩, ⟨[], rest, last, h2, Or.inl rfl, h3, h4⟩⟩
  unfold primary alternate sounds
  generalize (if starts word [c!"GN", c!"KN", c!"PN", c!"WR", c!"PS"] then 1 else 0) = n
  have key : ∀ after : Str, PrimaryCode ((soundsFrom word [] n after).flatMap Sound.primary) ∧
      AlternateCode ((soundsFrom word [] n after).flatMap Sound.alternate) := by
    intro after
    cases after with
    | nil =>
      cases n <;>
        exact ⟨⟨[], [], rfl, Or.inl rfl, by simp⟩, ⟨[], [], [], rfl, Or.inl rfl, by simp, Or.inl rfl⟩⟩
    | cons c after =>
      cases n with
      | succ n => rw [soundsFrom]; exact inner _ n after (by simp)
      | zero =>
        rw [soundsFrom]
        obtain ⟨h1, h2⟩ := sound_shape word [] after c
        generalize sound word [] after c = s at *
        obtain ⟨ih1, rest, last, ih2, ih3, ih4⟩ := sounds_inside word after ([] ++ [c]) s.covered (by simp)
        rw [List.flatMap_cons, List.flatMap_cons]
        refine ⟨?_, ?_⟩
        · rcases h1 with h | ⟨_, h⟩
          · refine ⟨[], _, rfl, Or.inl rfl, ?_⟩
            intro x hx
            rcases List.mem_append.mp hx with hx | hx
            · exact h x hx
            · exact ih1 x hx
          · exact ⟨c!"A", _, by rw [h], Or.inr rfl, ih1⟩
        · rw [ih2]
          rcases h2 with h | ⟨_, h⟩ | ⟨h, rfl⟩
          · refine ⟨[], s.alternate ++ rest, last, by simp, Or.inl rfl, ?_, ih4⟩
            intro x hx
            rcases List.mem_append.mp hx with hx | hx
            · exact h x hx
            · exact ih3 x hx
          · exact ⟨c!"A", rest, last, by rw [h]; simp, Or.inr rfl, ih3, ih4⟩
          · have : (soundsFrom word ([] ++ [c]) s.covered []).flatMap Sound.alternate = [] := by
              cases s.covered <;> simp [soundsFrom]
            rw [this] at ih2
            refine ⟨[], [], c!" ", ?_, Or.inl rfl, by simp, Or.inr rfl⟩
            rw [h, ← ih2]; rfl
  exact key word

/-! ## A word for each code -/

/-- A syllable for each consonant. -/
def syl (x : Char) : Str :=
  if x = 'X' then c!"SHE" else if x = 'J' then c!"DGE" else if x = '0' then c!"THE" else [x, 'E']

/-- The contribution of a syllable to the alternate code. -/
def alt (x : Char) : Char := if x = '0' then 'T' else x

/-- A word without some beginnings. -/
def Plain (word : Str) : Prop := starts word [c!"VAN ", c!"VON ", c!"SCH"] = false ∧ starts word [c!"SAN "] = false ∧
  starts word [c!"GN", c!"KN", c!"PN", c!"WR", c!"PS"] = false

theorem syl_sounds (word : Str) (hw : Plain word) (x : Char) (hx : x ∈ inside0) (before rest : Str)
    (hb : before = [] ∨ vowel (back before 1) = true) (hr : rest.head? ≠ some 'I') :
    (soundsFrom word before 0 (syl x ++ rest)).flatMap Sound.primary =
      x :: (soundsFrom word (before ++ syl x) 0 rest).flatMap Sound.primary ∧
    (soundsFrom word before 0 (syl x ++ rest)).flatMap Sound.alternate =
      alt x :: (soundsFrom word (before ++ syl x) 0 rest).flatMap Sound.alternate := by
  have hH : (before.isEmpty || vowel (back before 1)) = true := by
    rcases hb with rfl | h
    · rfl
    · rw [h, Bool.or_true]
  have hI : starts ('H' :: 'E' :: rest) [c!"HEIM", c!"HOEK", c!"HOLM", c!"HOLZ"] = false := by
    cases rest with
    | nil => rfl
    | cons c r =>
      have : ¬ 'I' = c := fun h => hr (by rw [← h]; rfl)
      simp [starts, List.isPrefixOf, this]
  have hE : ∀ b : Str, b ≠ [] → sound word b rest 'E' = silent 0 := by
    intro b hb
    cases b with
    | nil => exact absurd rfl hb
    | cons => rfl
  have two : ∀ (y : Char), sound word before ('E' :: rest) y = same [y] 0 → syl y = [y, 'E'] → alt y = y →
      (soundsFrom word before 0 (syl y ++ rest)).flatMap Sound.primary =
        y :: (soundsFrom word (before ++ syl y) 0 rest).flatMap Sound.primary ∧
      (soundsFrom word before 0 (syl y ++ rest)).flatMap Sound.alternate =
        alt y :: (soundsFrom word (before ++ syl y) 0 rest).flatMap Sound.alternate := by
    intro y h1 h2 h3
    rw [h2, h3]
    show (soundsFrom word before 0 (y :: 'E' :: rest)).flatMap _ = _ ∧ (soundsFrom word before 0 (y :: 'E' :: rest)).flatMap _ = _
    rw [soundsFrom, h1]
    show (same [y] 0 :: soundsFrom word (before ++ [y]) 0 ('E' :: rest)).flatMap _ = _ ∧
      (same [y] 0 :: soundsFrom word (before ++ [y]) 0 ('E' :: rest)).flatMap _ = _
    rw [soundsFrom, hE _ (by simp)]
    simp [same, silent]
  simp only [inside0, List.mem_cons, List.not_mem_nil, or_false] at hx
  rcases hx with rfl | rfl | rfl | rfl | rfl | rfl | rfl | rfl | rfl | rfl | rfl | rfl | rfl
  · have h1 : sound word before ('H' :: 'E' :: rest) 'T' = ⟨c!"0", c!"T", 1⟩ := by
      show soundT word ('H' :: 'E' :: rest) = _
      unfold soundT
      rw [hw.1]
      rfl
    show (soundsFrom word before 0 ('T' :: 'H' :: 'E' :: rest)).flatMap _ = _ ∧
      (soundsFrom word before 0 ('T' :: 'H' :: 'E' :: rest)).flatMap _ = _
    rw [soundsFrom, h1]
    simp [soundsFrom, hE, syl, alt, silent]
  · exact two _ rfl rfl rfl
  · have h1 : sound word before ('E' :: rest) 'H' = same c!"H" 1 := by
      show soundH before ('E' :: rest) = _
      unfold soundH
      rw [hH]
      rfl
    show (soundsFrom word before 0 ('H' :: 'E' :: rest)).flatMap _ = _ ∧
      (soundsFrom word before 0 ('H' :: 'E' :: rest)).flatMap _ = _
    rw [soundsFrom, h1]
    simp [soundsFrom, same, syl, alt, silent]
  · show (soundsFrom word before 0 ('D' :: 'G' :: 'E' :: rest)).flatMap _ = _ ∧
      (soundsFrom word before 0 ('D' :: 'G' :: 'E' :: rest)).flatMap _ = _
    have h1 : sound word before ('G' :: 'E' :: rest) 'D' = same c!"J" 2 := rfl
    rw [soundsFrom, h1]
    simp [soundsFrom, same, syl, alt, silent]
  · exact two _ rfl rfl rfl
  · exact two _ rfl rfl rfl
  · exact two _ (by show soundM before ('E' :: rest) = _; unfold soundM; cases rest <;> simp [starts, List.isPrefixOf]) rfl rfl
  · exact two _ rfl rfl rfl
  · exact two _ rfl rfl rfl
  · exact two _ rfl rfl rfl
  · exact two _ (by
      show soundS word before ('E' :: rest) = _
      unfold soundS
      simp [starts, around, List.isPrefixOf]) rfl rfl
  · exact two _ rfl rfl rfl
  · have h1 : sound word before ('H' :: 'E' :: rest) 'S' = same c!"X" 1 := by
      show soundS word before ('H' :: 'E' :: rest) = _
      unfold soundS
      rw [hI]
      simp [starts, around, List.isPrefixOf]
    show (soundsFrom word before 0 ('S' :: 'H' :: 'E' :: rest)).flatMap _ = _ ∧
      (soundsFrom word before 0 ('S' :: 'H' :: 'E' :: rest)).flatMap _ = _
    rw [soundsFrom, h1]
    simp [soundsFrom, hE, syl, alt, silent, same]

/-- A word of such syllables, with an ending. -/
theorem syls_sounds (word : Str) (hw : Plain word) (last : Str) (hl : last.head? ≠ some 'I') :
    ∀ (rest before : Str), (∀ x ∈ rest, x ∈ inside0) → (before = [] ∨ vowel (back before 1) = true) →
    (soundsFrom word before 0 (rest.flatMap syl ++ last)).flatMap Sound.primary =
      rest ++ (soundsFrom word (before ++ rest.flatMap syl) 0 last).flatMap Sound.primary ∧
    (soundsFrom word before 0 (rest.flatMap syl ++ last)).flatMap Sound.alternate =
      rest.map alt ++ (soundsFrom word (before ++ rest.flatMap syl) 0 last).flatMap Sound.alternate := by
  intro rest
  induction rest with
  | nil => intro before _ _; simp
  | cons x rest ih =>
    intro before hr hb
    have hend : vowel (back (before ++ syl x) 1) = true := by
      unfold syl back
      repeat' refine ite_ind (fun t => vowel ((before ++ t).reverse[1 - 1]?) = true) (fun _ => ?_) (fun _ => ?_)
      all_goals simp [vowel, among]
    have hI : (rest.flatMap syl ++ last).head? ≠ some 'I' := by
      cases rest with
      | nil => exact hl
      | cons y t =>
        have hy : y ∈ inside0 := hr y (by simp)
        have : ∀ y ∈ inside0, (syl y).head? ≠ some 'I' ∧ syl y ≠ [] := by decide
        obtain ⟨h1, h2⟩ := this y hy
        rw [List.flatMap_cons]
        generalize syl y = u at h1 h2
        cases u with
        | nil => exact absurd rfl h2
        | cons a u => simpa using h1
    obtain ⟨h1, h2⟩ := syl_sounds word hw x (hr x (by simp)) before (rest.flatMap syl ++ last) hb hI
    obtain ⟨h3, h4⟩ := ih (before ++ syl x) (fun y hy => hr y (by simp [hy])) (Or.inr hend)
    rw [List.flatMap_cons, List.append_assoc, h1, h2, h3, h4]
    simp

theorem plain_syls (first rest last : Str) (hf : first = [] ∨ first = c!"A") (hr : ∀ x ∈ rest, x ∈ inside0)
    (hl : last = [] ∨ last = c!"J") : Plain (first ++ rest.flatMap syl ++ last) := by
  rcases hf with rfl | rfl
  · cases rest with
    | nil => rcases hl with rfl | rfl <;> (unfold Plain; decide)
    | cons x rest =>
      have hx : x ∈ inside0 := hr x (by simp)
      simp only [inside0, List.mem_cons, List.not_mem_nil, or_false] at hx
      rcases hx with rfl | rfl | rfl | rfl | rfl | rfl | rfl | rfl | rfl | rfl | rfl | rfl | rfl <;>
        simp [Plain, syl, starts, List.isPrefixOf]
  · simp [Plain, starts, List.isPrefixOf]

theorem word_codes (first rest last : Str) (hf : first = [] ∨ first = c!"A") (hr : ∀ x ∈ rest, x ∈ inside0)
    (hl : last = [] ∨ last = c!"J" ∧ first ++ rest ≠ []) :
    primary (first ++ rest.flatMap syl ++ last) = first ++ rest ++ last ∧
    alternate (first ++ rest.flatMap syl ++ last) = first ++ rest.map alt ++ (if last = [] then [] else c!" ") := by
  have hp := plain_syls first rest last hf hr (hl.imp_right And.left)
  have hl' : last.head? ≠ some 'I' := by rcases hl with rfl | ⟨rfl, _⟩ <;> decide
  unfold primary alternate sounds
  rw [hp.2.2]
  show (soundsFrom _ [] 0 _).flatMap _ = _ ∧ (soundsFrom _ [] 0 _).flatMap _ = _
  generalize hw : first ++ rest.flatMap syl ++ last = word at hp
  have hlast : ∀ before : Str, (last ≠ [] → before ≠ []) →
      (soundsFrom word before 0 last).flatMap Sound.primary = last ∧
      (soundsFrom word before 0 last).flatMap Sound.alternate = if last = [] then [] else c!" " := by
    intro before hb
    rcases hl with rfl | ⟨rfl, _⟩
    · simp [soundsFrom]
    · have hb' := hb (by decide)
      have : sound word before [] 'J' = ⟨c!"J", c!" ", 0⟩ := by
        show soundJ word before [] = _
        unfold soundJ
        rw [hp.2.1]
        cases before with
        | nil => exact absurd rfl hb'
        | cons a t => simp [starts, List.isPrefixOf]
      rw [soundsFrom, this]
      simp [soundsFrom]
  rcases hf with rfl | rfl
  · obtain ⟨h1, h2⟩ := syls_sounds word hp last hl' rest [] hr (Or.inl rfl)
    obtain ⟨h3, h4⟩ := hlast ([] ++ rest.flatMap syl) (by
      intro h
      rcases hl with rfl | ⟨rfl, h'⟩
      · exact absurd rfl h
      · cases rest with
        | nil => exact absurd rfl h'
        | cons x t =>
          have : ∀ y ∈ inside0, syl y ≠ [] := by decide
          have := this x (hr x (by simp))
          simp [this])
    rw [h3] at h1
    rw [h4] at h2
    simp only [List.nil_append] at h1 h2 hw ⊢
    rw [hw] at h1 h2
    exact ⟨h1, h2⟩
  · obtain ⟨h1, h2⟩ := syls_sounds word hp last hl' rest c!"A" hr (Or.inr rfl)
    obtain ⟨h3, h4⟩ := hlast (c!"A" ++ rest.flatMap syl) (by simp)
    rw [h3] at h1
    rw [h4] at h2
    have hA : soundsFrom word [] 0 word = same c!"A" 0 :: soundsFrom word c!"A" 0 (rest.flatMap syl ++ last) := by
      rw [← hw]; rfl
    rw [hA, List.flatMap_cons, List.flatMap_cons, h1, h2]
    simp [same]

/-- A word of ASCII capitals is left as it is. -/
theorem capital_word (U : Unicode) (w : Str) (h : ∀ c ∈ w, c ∈ capitals) :
    AsciiStr w ∧ (U.trim w).map asciiUpper = w := by
  have hc : ∀ c ∈ capitals, isAscii c = true ∧ isAsciiWs c = false ∧ asciiUpper c = c := by decide
  have hws : ∀ c ∈ w, U.isWhitespace c = false := by
    intro c hm
    obtain ⟨h1, h2, _⟩ := hc c (h c hm)
    rw [U.isWhitespace_ascii c h1, h2]
  have drop : ∀ v : Str, (∀ c ∈ v, U.isWhitespace c = false) → v.dropWhile U.isWhitespace = v := by
    intro v hv
    cases v with
    | nil => rfl
    | cons c v => rw [List.dropWhile_cons, hv c (by simp)]; rfl
  have ht : U.trim w = w := by
    unfold Unicode.trim
    rw [drop w hws, drop w.reverse (fun c hm => hws c (by simpa using hm)), List.reverse_reverse]
  refine ⟨fun c hm => (hc c (h c hm)).1, ?_⟩
  rw [ht]
  conv => rhs; rw [← List.map_id w]
  exact List.map_congr_left fun c hm => (hc c (h c hm)).2.2

theorem syls_capitals (first rest last : Str) (hf : first = [] ∨ first = c!"A") (hr : ∀ x ∈ rest, x ∈ inside0)
    (hl : last = [] ∨ last = c!"J") : ∀ c ∈ first ++ rest.flatMap syl ++ last, c ∈ capitals := by
  have hs : ∀ x ∈ inside0, ∀ c ∈ syl x, c ∈ capitals := by decide
  intro c hc
  rcases List.mem_append.mp hc with hc | hc
  · rcases List.mem_append.mp hc with hc | hc
    · rcases hf with rfl | rfl
      · cases hc
      · exact (by decide : ∀ c ∈ c!"A", c ∈ capitals) c hc
    · obtain ⟨x, hx, hc⟩ := List.mem_flatMap.mp hc
      exact hs x (hr x hx) c hc
  · rcases hl with rfl | rfl
    · cases hc
    · exact (by decide : ∀ c ∈ c!"J", c ∈ capitals) c hc

theorem limited_within (max : Option Nat) (code : Str) : Within max (limited max code) := by
  rintro n rfl
  exact List.length_take_le n code

theorem limited_id (max : Option Nat) (code : Str) (h : Within max code) : limited max code = code := by
  cases max with
  | none => rfl
  | some n => exact List.take_of_length_le (h n rfl)

theorem limited_cases (max : Option Nat) (code : Str) : ∃ n, limited max code = code.take n := by
  cases max with
  | none => exact ⟨code.length, List.take_length.symm⟩
  | some n => exact ⟨n, rfl⟩

theorem primary_take {code : Str} (h : PrimaryCode code) (n : Nat) : PrimaryCode (code.take n) := by
  obtain ⟨first, rest, rfl, hf, hr⟩ := h
  rw [List.take_append]
  refine ⟨_, _, rfl, ?_, fun x hx => hr x (List.mem_of_mem_take hx)⟩
  rcases hf with rfl | rfl
  · left; simp
  · cases n with
    | zero => left; rfl
    | succ n => right; simp

theorem alternate_take {code : Str} (h : AlternateCode code) (n : Nat) : AlternateCode (code.take n) := by
  obtain ⟨first, rest, last, rfl, hf, hr, hl⟩ := h
  rw [List.take_append, List.take_append]
  refine ⟨_, _, _, rfl, ?_, fun x hx => hr x (List.mem_of_mem_take hx), ?_⟩
  · rcases hf with rfl | rfl
    · left; simp
    · cases n with
      | zero => left; rfl
      | succ n => right; simp
  · rcases hl with rfl | rfl
    · left; simp
    · cases h : n - (first ++ rest).length with
      | zero => left; rfl
      | succ n => right; simp

end DMCodes

open DMCodes in
/-- C93. The primary Double Metaphone codes of ASCII texts, within a limit, are exactly the strings of the shape `PrimaryCode`
within the limit, and the alternate codes are exactly the strings of the shape `AlternateCode` within the limit. -/
theorem double_metaphone_codes (U : Unicode) (max : Option Nat) (hmax : Allocatable max) (code : Str) :
    ((∃ s, AsciiStr s ∧ (DoubleMetaphone.new max).encode U s = .ok code) ↔ PrimaryCode code ∧ Within max code) ∧
    ((∃ s, AsciiStr s ∧ (DoubleMetaphone.new max).encodeAlternate U s = .ok code) ↔
      AlternateCode code ∧ Within max code) := by
  refine ⟨⟨?_, ?_⟩, ⟨?_, ?_⟩⟩
  · rintro ⟨s, hs, h⟩
    have := Except.ok.inj (h.symm.trans (double_metaphone_spec U max s hs hmax).2.1)
    rw [this]
    refine ⟨?_, limited_within _ _⟩
    obtain ⟨n, hn⟩ := limited_cases max (DM.primary ((U.trim s).map asciiUpper))
    rw [hn]
    exact primary_take (sounds_shape _).1 n
  · rintro ⟨⟨first, rest, rfl, hf, hr⟩, hw⟩
    obtain ⟨ha, ht⟩ := capital_word U _ (syls_capitals first rest [] hf hr (Or.inl rfl))
    refine ⟨_, ha, ?_⟩
    rw [(double_metaphone_spec U max _ ha hmax).2.1, ht, (word_codes first rest [] hf hr (Or.inl rfl)).1, List.append_nil,
      limited_id _ _ hw]
  · rintro ⟨s, hs, h⟩
    have := Except.ok.inj (h.symm.trans (double_metaphone_spec U max s hs hmax).2.2)
    rw [this]
    refine ⟨?_, limited_within _ _⟩
    obtain ⟨n, hn⟩ := limited_cases max (DM.alternate ((U.trim s).map asciiUpper))
    rw [hn]
    exact alternate_take (sounds_shape _).2 n
  · rintro ⟨⟨first, rest, last, rfl, hf, hr, hl⟩, hw⟩
    have hr0 : ∀ x ∈ rest, x ∈ inside0 := fun x hx => (by decide : ∀ x ∈ inside, x ∈ inside0) x (hr x hx)
    have halt : rest.map alt = rest := by
      conv => rhs; rw [← List.map_id rest]
      exact List.map_congr_left fun x hx => (by decide : ∀ x ∈ inside, alt x = id x) x (hr x hx)
    by_cases hblank : first ++ rest = [] ∧ last = c!" "
    · obtain ⟨h1, h2⟩ := hblank
      obtain ⟨ha, ht⟩ := capital_word U c!"HJ" (by decide)
      refine ⟨_, ha, ?_⟩
      rw [(double_metaphone_spec U max _ ha hmax).2.2, ht]
      rw [h1, h2] at hw ⊢
      have : DM.alternate c!"HJ" = [] ++ c!" " := by decide +kernel
      rw [this, limited_id _ _ hw]
    · rcases hl with rfl | rfl
      · obtain ⟨ha, ht⟩ := capital_word U _ (syls_capitals first rest [] hf hr0 (Or.inl rfl))
        refine ⟨_, ha, ?_⟩
        rw [(double_metaphone_spec U max _ ha hmax).2.2, ht, (word_codes first rest [] hf hr0 (Or.inl rfl)).2, halt]
        exact congrArg _ (limited_id _ _ hw)
      · obtain ⟨ha, ht⟩ := capital_word U _ (syls_capitals first rest c!"J" hf hr0 (Or.inr rfl))
        refine ⟨_, ha, ?_⟩
        rw [(double_metaphone_spec U max _ ha hmax).2.2, ht,
          (word_codes first rest c!"J" hf hr0 (Or.inr ⟨rfl, fun h => hblank ⟨h, rfl⟩⟩)).2, halt]
        exact congrArg _ (limited_id _ _ hw)

/-- A primary and an alternate code, within a limit. -/
theorem double_metaphone_codes_example : PrimaryCode c!"A0X" ∧ Within (some 3) c!"A0X" ∧ AlternateCode c!"ATX " ∧
    Allocatable (some 3) ∧ (DoubleMetaphone.new (some 4)).encodeAlternate .latin1 c!"atheshej" = .ok c!"ATX " := by
  refine ⟨⟨c!"A", c!"0X", rfl, Or.inr rfl, by decide⟩, ?_, ⟨c!"A", c!"TX", c!" ", rfl, Or.inr rfl, by decide, Or.inr rfl⟩,
    ?_, by decide +kernel⟩
  · rintro n h; cases h; decide
  · rintro n h; cases h; decide

end Verif.Props
