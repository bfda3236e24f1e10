import Verif.Props.CodesSoundex
import Verif.Props.CaverphoneSpec
import Verif.Proofs.Res
/-!
# C93: which strings are codes (Caverphone)
-/

set_option linter.unusedSimpArgs false

namespace Verif.Props
open Spec

namespace CodeProofs
open Spec.Caverphone

/-- The small letters. -/
def smalls : Str := c!"abcdefghijklmnopqrstuvwxyz"

/-- The consonants of a version. -/
def heard : Version → Str
  | .v1 => c!"FKLMNPRSTWY"
  | .v2 => c!"FKLMNPRSTW"

/-- What a sound may be, inside a word. -/
def Inner (v : Version) (s : Sound) : Prop := ∀ x, s = .letter x → x ∈ heard v

/-- What the first sound may be. -/
def Outer (v : Version) (s : Sound) : Prop := s = .letter 'A' ∨ (v = .v2 ∧ s = .letter 'Y') ∨ Inner v s

theorem inner_letter {v : Version} {x : Char} (h : x ∈ heard v) : Inner v (.letter x) := by
  intro y hy; cases hy; exact h

theorem sound_shape (v : Version) (before after : Str) (c : Char) (hc : c ∈ smalls) :
    (before ≠ [] → Inner v (sound v before after c)) ∧ Outer v (sound v before after c) := by
  have hs : Inner v .silent := fun x h => by cases h
  have hv : Inner v .vowel := fun x h => by cases h
  have hl : ∀ x ∈ c!"FKLMNPRSTW", Inner v (.letter x) := by
    intro x hx
    refine inner_letter ?_
    cases v
    · have : ∀ x ∈ c!"FKLMNPRSTW", x ∈ heard .v1 := by decide
      exact this x hx
    · exact hx
  have both : ∀ s, Inner v s → (before ≠ [] → Inner v s) ∧ Outer v s := fun s h => ⟨fun _ => h, Or.inr (Or.inr h)⟩
  simp only [smalls, List.mem_cons, List.not_mem_nil, or_false] at hc
  rcases hc with rfl | rfl | rfl | rfl | rfl | rfl | rfl | rfl | rfl | rfl | rfl | rfl | rfl | rfl | rfl | rfl | rfl |
    rfl | rfl | rfl | rfl | rfl | rfl | rfl | rfl | rfl
  all_goals
    simp only [sound, soundGH, soundW, soundR, soundL, soundY]
    cases v <;> try simp only [reduceCtorEq, false_and, true_and, if_false]
    all_goals
      by_cases hb : before = []
      · simp only [hb, ne_eq, not_true_eq_false, false_implies, true_and, if_true]
        repeat' first
          | exact Or.inl rfl
          | exact Or.inr (Or.inl ⟨rfl, rfl⟩)
          | exact Or.inr (Or.inr hs)
          | exact Or.inr (Or.inr hv)
          | exact Or.inr (Or.inr (hl _ (by decide)))
          | exact Or.inr (Or.inr (inner_letter (by decide)))
          | refine ite_ind (Outer _) (fun _ => ?_) (fun _ => ?_)
      · try simp only [hb, if_false]
        refine both _ ?_
        repeat' first
          | exact hs
          | exact hv
          | exact hl _ (by decide)
          | exact inner_letter (by decide)
          | refine ite_ind (Inner _) (fun _ => ?_) (fun _ => ?_)

theorem sounds_inner (v : Version) (after : Str) : ∀ before, before ≠ [] → (∀ c ∈ after, c ∈ smalls) →
    ∀ s ∈ soundsFrom v before after, Inner v s := by
  induction after with
  | nil => intro _ _ _ s hs; simp [soundsFrom] at hs
  | cons c after ih =>
    intro before hb hc s hs
    rw [soundsFrom] at hs
    rcases List.mem_cons.mp hs with rfl | hs
    · exact (sound_shape v before after c (hc c (by simp))).1 hb
    · exact ih (before ++ [c]) (by simp) (fun x hx => hc x (by simp [hx])) s hs

theorem once_cons (a : Sound) (l : List Sound) :
    once (a :: l) = a :: once l ∨ (once (a :: l) = once l ∧ a ∈ c!"STPKFMN".map Sound.letter) := by
  cases l with
  | nil => exact Or.inl rfl
  | cons b r =>
    rw [once]
    split
    · rename_i h; exact Or.inr ⟨rfl, h.2⟩
    · exact Or.inl rfl

theorem written_inner {v : Version} {l : List Sound} (h : ∀ s ∈ l, Inner v s) : ∀ x ∈ l.flatMap written, x ∈ heard v := by
  intro x hx
  obtain ⟨s, hs, hx⟩ := List.mem_flatMap.mp hx
  cases s with
  | silent => simp [written] at hx
  | vowel => simp [written] at hx
  | letter y =>
    simp only [written, List.mem_cons, List.not_mem_nil, or_false] at hx
    subst hx
    exact h _ hs x rfl

theorem code1_shape (w : Str) (hw : ∀ c ∈ w, c ∈ smalls) : ∃ first rest : Str, code .v1 w = first ++ rest ∧
    (first = [] ∨ first = c!"A") ∧ ∀ c ∈ rest, c ∈ c!"FKLMNPRSTWY" := by
  cases w with
  | nil => exact ⟨[], [], rfl, Or.inl rfl, by simp⟩
  | cons c r =>
    have hi := sounds_inner .v1 r [c] (by simp) fun x hx => hw x (by simp [hx])
    have ho := (sound_shape .v1 [] r c (hw c (by simp))).2
    simp only [code, soundsFrom, List.nil_append]
    generalize soundsFrom .v1 [c] r = l at *
    generalize sound .v1 [] r c = a at *
    have hi' : ∀ s ∈ once l, Inner .v1 s := fun s hs => hi s (CavSpec.mem_once hs)
    rcases once_cons a l with h | ⟨h, _⟩
    · rw [h]
      rcases ho with rfl | ⟨hv, _⟩ | ha
      · exact ⟨c!"A", (once l).flatMap written, rfl, Or.inr rfl, written_inner hi'⟩
      · cases hv
      · refine ⟨[], (a :: once l).flatMap written, rfl, Or.inl rfl, written_inner (v := .v1) ?_⟩
        intro s hs
        rcases List.mem_cons.mp hs with rfl | hs
        · exact ha
        · exact hi' s hs
    · rw [h]
      exact ⟨[], _, rfl, Or.inl rfl, written_inner hi'⟩

/-- The next sound that is heard is a vowel. -/
def VowelNext (l : List Sound) : Prop := (l.filter (· ≠ .silent)).head? = some .vowel

/-- L, R, W and Y are followed by a vowel. -/
def Followed : List Sound → Prop
  | [] => True
  | a :: t => (a ∈ c!"LRWY".map Sound.letter → VowelNext t) ∧ Followed t

theorem vowel_sound (before after : Str) (c : Char) (hb : before ≠ []) (hc : c ∈ c!"aeiouyj") :
    sound .v2 before after c = .vowel := by
  simp only [List.mem_cons, List.not_mem_nil, or_false] at hc
  rcases hc with rfl | rfl | rfl | rfl | rfl | rfl | rfl <;> simp [sound, soundY, hb]

theorem ahead_cases {after : Str} (h : vowelAhead .v2 after = true) : ∃ c r, after = c :: r ∧ c ∈ c!"aeiouyj" := by
  cases after with
  | nil => exact absurd h (by decide)
  | cons c r =>
    refine ⟨c, r, rfl, ?_⟩
    simp [vowelAhead, starts, vocal] at h
    simp only [List.mem_cons, List.not_mem_nil, or_false]
    grind

theorem starts_cases {after : Str} {ws : List Str} (h : starts after ws = true) : ∃ w ∈ ws, w <+: after := by
  simp only [starts, List.any_eq_true] at h
  obtain ⟨w, hw, h⟩ := h
  exact ⟨w, hw, List.isPrefixOf_iff_prefix.mp h⟩

theorem next_vowel2 (before : Str) (c : Char) (r : Str) (hb : before ≠ []) (hc : c ∈ c!"aeiouyj") :
    VowelNext (soundsFrom .v2 before (c :: r)) := by
  unfold VowelNext
  rw [soundsFrom, vowel_sound before r c hb hc]
  rfl

theorem next_starts (before after : Str) (hb : before ≠ []) (h : vowelAhead .v2 after = true ∨ starts after [c!"y"] = true ∨
    starts after [c!"a", c!"e", c!"i", c!"o", c!"u"] = true) : VowelNext (soundsFrom .v2 before after) := by
  have : ∃ c r, after = c :: r ∧ c ∈ c!"aeiouyj" := by
    rcases h with h | h | h
    · exact ahead_cases h
    · obtain ⟨w, hw, t, rfl⟩ := starts_cases h
      simp only [List.mem_cons, List.not_mem_nil, or_false] at hw
      subst hw
      exact ⟨'y', t, rfl, by decide⟩
    · obtain ⟨w, hw, t, rfl⟩ := starts_cases h
      simp only [List.mem_cons, List.not_mem_nil, or_false] at hw
      rcases hw with rfl | rfl | rfl | rfl | rfl <;> exact ⟨_, t, rfl, by decide⟩
  obtain ⟨c, r, rfl, hc⟩ := this
  exact next_vowel2 before c r hb hc

theorem silent_h (before after : Str) (h : VowelNext (soundsFrom .v2 (before ++ c!"w" ++ c!"h") after)) :
    VowelNext (soundsFrom .v2 (before ++ c!"w") ('h' :: after)) := by
  have hs : sound .v2 (before ++ c!"w") after 'h' = .silent := by
    simp only [sound]
    rw [if_neg (by simp), if_neg]
    intro hm
    rw [List.contains_iff_mem] at hm
    simp only [tough, List.map_cons, List.map_nil, List.mem_cons, List.not_mem_nil, or_false] at hm
    have hl : (before ++ c!"w").getLast? = some 'w' := by simp
    rcases hm with hm | hm | hm | hm | hm <;> rw [hm] at hl <;> simp at hl
  unfold VowelNext at h ⊢
  rw [soundsFrom, hs, List.filter_cons_of_neg (by simp)]
  exact h

theorem followed_sounds (after : Str) : ∀ before, (∀ c ∈ after, c ∈ smalls) → Followed (soundsFrom .v2 before after) := by
  induction after with
  | nil => intros; trivial
  | cons c after ih =>
    intro before hc
    rw [soundsFrom]
    refine ⟨?_, ih (before ++ [c]) fun x hx => hc x (by simp [hx])⟩
    intro hm
    have hcs := hc c (by simp)
    have quiet : ∀ s : Sound, s ∉ c!"LRWY".map Sound.letter → s ∈ c!"LRWY".map Sound.letter →
        VowelNext (soundsFrom .v2 (before ++ [c]) after) := fun s h h' => absurd h' h
    have yj : sound .v2 before after 'y' ∈ c!"LRWY".map Sound.letter →
        starts after [c!"a", c!"e", c!"i", c!"o", c!"u"] = true := by
      simp only [sound, soundY]
      intro h
      split at h
      · split at h
        · assumption
        · exact absurd h (by decide)
      · exact absurd h (by decide)
    have hl : c ∈ c!"lrwyj" ∨ c ∈ c!"abcdefghikmnopqstuvxz" := by
      have : ∀ c ∈ smalls, c ∈ c!"lrwyj" ∨ c ∈ c!"abcdefghikmnopqstuvxz" := by decide +kernel
      exact this c hcs
    rcases hl with hl | hl
    · simp only [List.mem_cons, List.not_mem_nil, or_false] at hl
      rcases hl with rfl | rfl | rfl | rfl | rfl
      · simp only [sound, soundL] at hm
        split at hm
        · rename_i h
          simp only [Bool.or_eq_true, decide_eq_true_eq, true_and] at h
          rcases h with (h | h) | h | h
          · exact next_starts _ _ (by simp) (Or.inl h)
          · exact next_starts _ _ (by simp) (Or.inr (Or.inl h))
          · subst h; simp [VowelNext, soundsFrom, sound, soundW, vowelAhead, starts, vocal]
          · subst h; simp [VowelNext, soundsFrom, sound, soundR, vowelAhead, starts, vocal]
        · split at hm <;> exact absurd hm (by decide)
      · simp only [sound, soundR] at hm
        split at hm
        · rename_i h
          simp only [Bool.or_eq_true, decide_eq_true_eq, true_and] at h
          rcases h with (h | h) | h
          · exact next_starts _ _ (by simp) (Or.inl h)
          · exact next_starts _ _ (by simp) (Or.inr (Or.inl h))
          · subst h; simp [VowelNext, soundsFrom, sound, soundW, vowelAhead, starts, vocal]
        · split at hm <;> exact absurd hm (by decide)
      · simp only [sound, soundW] at hm
        split at hm
        · rename_i h
          simp only [Bool.or_eq_true, Bool.and_eq_true] at h
          rcases h with (h | h) | ⟨h, h'⟩
          · exact next_starts _ _ (by simp) (Or.inl h)
          · exact next_starts _ _ (by simp) (Or.inr (Or.inl h))
          · obtain ⟨w, hw, t, rfl⟩ := starts_cases h
            simp only [List.mem_cons, List.not_mem_nil, or_false] at hw
            subst hw
            refine silent_h before t (next_starts _ _ (by simp) ?_)
            rcases h' with h' | h'
            · exact Or.inl h'
            · refine Or.inr (Or.inl ?_)
              simpa [starts] using h'
        · split at hm <;> exact absurd hm (by decide)
      · exact next_starts _ _ (by simp) (Or.inr (Or.inr (yj hm)))
      · exact next_starts _ _ (by simp) (Or.inr (Or.inr (yj hm)))
    · refine quiet _ ?_ hm
      clear hm
      simp only [List.mem_cons, List.not_mem_nil, or_false] at hl
      rcases hl with rfl | rfl | rfl | rfl | rfl | rfl | rfl | rfl | rfl | rfl | rfl | rfl | rfl | rfl | rfl | rfl | rfl |
        rfl | rfl | rfl | rfl
      all_goals
        simp only [sound, soundGH]
        repeat' first
          | decide
          | refine ite_ind (fun s => s ∉ c!"LRWY".map Sound.letter) (fun _ => ?_) (fun _ => ?_)

theorem vowelNext_once (l : List Sound) : VowelNext (once l) ↔ VowelNext l := by
  have key : ∀ l : List Sound, ((once l).filter (· ≠ .silent)).head? = (l.filter (· ≠ .silent)).head? := by
    intro l
    induction l with
    | nil => rfl
    | cons a l ih =>
      cases l with
      | nil => rfl
      | cons b r =>
        rw [once]
        split
        · rename_i h
          rw [ih, h.1]
          obtain ⟨rfl, hm⟩ := h
          by_cases ha : a = .silent
          · subst ha; exact absurd hm (by decide)
          · rw [List.filter_cons_of_pos (by simpa using ha), List.filter_cons_of_pos (by simpa using ha)]
            rfl
        · by_cases ha : a = .silent
          · subst ha
            rw [List.filter_cons_of_neg (by simp), List.filter_cons_of_neg (by simp)]
            exact ih
          · rw [List.filter_cons_of_pos (by simpa using ha), List.filter_cons_of_pos (by simpa using ha)]
            rfl
  unfold VowelNext
  rw [key]

theorem followed_once {l : List Sound} (h : Followed l) : Followed (once l) := by
  induction l with
  | nil => exact h
  | cons a l ih =>
    rcases once_cons a l with e | ⟨e, _⟩ <;> rw [e]
    · exact ⟨fun ha => (vowelNext_once l).mpr (h.1 ha), ih h.2⟩
    · exact ih h.2

theorem followed_filter {l : List Sound} (h : Followed l) : Followed (l.filter (· ≠ .silent)) := by
  induction l with
  | nil => exact h
  | cons a l ih =>
    by_cases ha : a = .silent
    · rw [List.filter_cons_of_neg (by simpa using ha)]; exact ih h.2
    · rw [List.filter_cons_of_pos (by simpa using ha)]
      refine ⟨fun hm => ?_, ih h.2⟩
      have := h.1 hm
      unfold VowelNext at this ⊢
      rw [List.filter_filter]
      simpa using this

theorem followed_last (l : List Sound) (a : Sound) (h : Followed (l ++ [a])) : a ∉ c!"LRWY".map Sound.letter := by
  induction l with
  | nil =>
    intro ha
    have := h.1 ha
    cases this
  | cons b l ih => exact ih h.2

/-- The end of a code of the second version. -/
theorem tail2 (H : List Sound) (hn : ∀ s ∈ H, s ≠ .silent) (hf : Followed H) :
    (H.getLast? = some .vowel) ∨ H = [] ∨ ∃ H' x, H = H' ++ [Sound.letter x] ∧ x ∉ c!"LRWY" := by
  rcases List.eq_nil_or_concat H with rfl | ⟨H', a, rfl⟩
  · exact Or.inr (Or.inl rfl)
  · rw [List.concat_eq_append] at hn hf ⊢
    have := followed_last H' a hf
    cases a with
    | silent => exact absurd rfl (hn .silent (by simp))
    | vowel => left; simp
    | letter x =>
      refine Or.inr (Or.inr ⟨H', x, rfl, fun hx => this ?_⟩)
      exact List.mem_map.mpr ⟨x, hx, rfl⟩

theorem code2_shape (w : Str) (hw : ∀ c ∈ w, c ∈ smalls) : ∃ first middle last : Str,
    code .v2 w = first ++ middle ++ last ∧ (first = [] ∨ first = c!"A" ∨ first = c!"Y") ∧
    (∀ c ∈ middle, c ∈ c!"FKLMNPRSTW") ∧
    (last = c!"A" ∨ last = [] ∧ ∀ c, (first ++ middle).getLast? = some c → c ∉ c!"LRWY") := by
  have hw' : ∀ c ∈ (if w.getLast? = some 'e' then w.dropLast else w), c ∈ smalls := by
    split
    · exact fun c hc => hw c (List.dropLast_subset _ hc)
    · exact hw
  simp only [code]
  generalize (if w.getLast? = some 'e' then w.dropLast else w) = u at *
  have hf := followed_filter (followed_once (followed_sounds u [] hw'))
  have main : ∃ first : List Sound, ∃ middle : List Sound,
      (once (soundsFrom .v2 [] u)).filter (· ≠ .silent) = first ++ middle ∧
      (first = [] ∨ first = [.letter 'A'] ∨ first = [.letter 'Y']) ∧ ∀ s ∈ middle, Inner .v2 s := by
    cases u with
    | nil => exact ⟨[], [], rfl, Or.inl rfl, by simp⟩
    | cons c r =>
      have hi := sounds_inner .v2 r [c] (by simp) fun x hx => hw' x (by simp [hx])
      have ho := (sound_shape .v2 [] r c (hw' c (by simp))).2
      clear hf
      simp only [soundsFrom, List.nil_append]
      generalize soundsFrom .v2 [c] r = l at *
      generalize sound .v2 [] r c = a at *
      have hi' : ∀ s ∈ (once l).filter (· ≠ .silent), Inner .v2 s :=
        fun s hs => hi s (CavSpec.mem_once (List.mem_filter.mp hs).1)
      rcases once_cons a l with h | ⟨h, _⟩
      · rw [h]
        rcases ho with rfl | ⟨_, rfl⟩ | ha
        · exact ⟨[.letter 'A'], _, List.filter_cons_of_pos (by simp), Or.inr (Or.inl rfl), hi'⟩
        · exact ⟨[.letter 'Y'], _, List.filter_cons_of_pos (by simp), Or.inr (Or.inr rfl), hi'⟩
        · refine ⟨[], (a :: once l).filter (· ≠ .silent), rfl, Or.inl rfl, ?_⟩
          intro s hs
          rcases List.mem_cons.mp (List.mem_filter.mp hs).1 with rfl | hs'
          · exact ha
          · exact hi s (CavSpec.mem_once hs')
      · rw [h]
        exact ⟨[], _, rfl, Or.inl rfl, hi'⟩
  obtain ⟨first, middle, e, h1, h2⟩ := main
  have hn : ∀ s ∈ (once (soundsFrom .v2 [] u)).filter (· ≠ .silent), s ≠ .silent :=
    fun s hs => by simpa using (List.mem_filter.mp hs).2
  generalize (once (soundsFrom .v2 [] u)).filter (· ≠ .silent) = H at *
  have hfm : H.flatMap written = first.flatMap written ++ middle.flatMap written := by rw [e, List.flatMap_append]
  refine ⟨first.flatMap written, middle.flatMap written, if H.getLast? = some .vowel then c!"A" else [], ?_, ?_, ?_, ?_⟩
  · rw [hfm]
  · rcases h1 with rfl | rfl | rfl
    · exact Or.inl rfl
    · exact Or.inr (Or.inl rfl)
    · exact Or.inr (Or.inr rfl)
  · exact written_inner h2
  · rw [← hfm]
    rcases tail2 H hn hf with h | rfl | ⟨H', x, rfl, hx⟩
    · rw [if_pos h]; exact Or.inl rfl
    · exact Or.inr ⟨rfl, by simp⟩
    · right
      rw [if_neg (by simp)]
      refine ⟨rfl, ?_⟩
      intro c hc
      rw [List.flatMap_append] at hc
      simp [written] at hc
      subst hc; exact hx

/-- A syllable for each consonant. -/
def cavSyllable (x : Char) : Str := [asciiLower x, 'a']

theorem cav_syllable (v : Version) (x : Char) (hx : x ∈ heard v) (before rest : Str) :
    soundsFrom v before (cavSyllable x ++ rest) =
      .letter x :: .vowel :: soundsFrom v (before ++ cavSyllable x) rest := by
  cases v <;> simp only [heard, List.mem_cons, List.not_mem_nil, or_false] at hx
  · rcases hx with rfl | rfl | rfl | rfl | rfl | rfl | rfl | rfl | rfl | rfl | rfl <;>
      simp [cavSyllable, soundsFrom, sound, soundL, soundR, soundW, soundY, asciiLower, isAsciiUpper, vowelAhead, starts, vocal]
  · rcases hx with rfl | rfl | rfl | rfl | rfl | rfl | rfl | rfl | rfl | rfl <;>
      simp [cavSyllable, soundsFrom, sound, soundL, soundR, soundW, soundY, asciiLower, isAsciiUpper, vowelAhead, starts, vocal]

/-- The sounds of a syllable for each letter. -/
def pairs (l : Str) : List Sound := l.flatMap fun x => [.letter x, .vowel]

theorem cav_syllables (v : Version) (m : Str) : ∀ (before rest : Str), (∀ x ∈ m, x ∈ heard v) →
    soundsFrom v before (m.flatMap cavSyllable ++ rest) =
      pairs m ++ soundsFrom v (before ++ m.flatMap cavSyllable) rest := by
  induction m with
  | nil => intro before rest _; simp [pairs]
  | cons x m ih =>
    intro before rest h
    rw [List.flatMap_cons, List.append_assoc, cav_syllable v x (h x (by simp)),
      ih _ rest fun y hy => h y (by simp [hy])]
    simp [pairs, List.append_assoc]

theorem once_vowel (l : List Sound) : once (.vowel :: l) = .vowel :: once l := by
  rcases once_cons .vowel l with h | ⟨_, h⟩
  · exact h
  · exact absurd h (by decide)

theorem once_pair (x : Char) (l : List Sound) : once (.letter x :: .vowel :: l) = .letter x :: .vowel :: once l := by
  rw [once, if_neg (by simp), once_vowel]

theorem once_pairs (m : Str) (l : List Sound) : once (pairs m ++ l) = pairs m ++ once l := by
  induction m with
  | nil => rfl
  | cons x m ih =>
    show once (.letter x :: .vowel :: (pairs m ++ l)) = .letter x :: .vowel :: (pairs m ++ once l)
    rw [once_pair, ih]

theorem written_pairs (m : Str) : (pairs m).flatMap written = m := by
  induction m with
  | nil => rfl
  | cons x m ih =>
    show [x] ++ ([] ++ (pairs m).flatMap written) = x :: m
    rw [ih]; rfl

theorem filter_pairs (m : Str) : (pairs m).filter (· ≠ .silent) = pairs m := by
  rw [List.filter_eq_self]
  intro s hs
  obtain ⟨x, _, hs⟩ := List.mem_flatMap.mp hs
  simp only [List.mem_cons, List.not_mem_nil, or_false] at hs
  rcases hs with rfl | rfl <;> simp

theorem last_pairs (m : Str) (h : m ≠ []) : (pairs m).getLast? = some .vowel := by
  rcases List.eq_nil_or_concat m with rfl | ⟨l, a, rfl⟩
  · exact absurd rfl h
  · rw [List.concat_eq_append]; simp [pairs]

theorem syll_small (v : Version) (m : Str) (h : ∀ x ∈ m, x ∈ heard v) : ∀ c ∈ m.flatMap cavSyllable, c ∈ smalls := by
  intro c hc
  obtain ⟨x, hx, hc⟩ := List.mem_flatMap.mp hc
  have : ∀ x ∈ heard v, ∀ c ∈ cavSyllable x, c ∈ smalls := by cases v <;> decide +kernel
  exact this x (h x hx) c hc

theorem word1 (first rest : Str) (hf : first = [] ∨ first = c!"A") (hr : ∀ c ∈ rest, c ∈ c!"FKLMNPRSTWY") :
    ∃ w : Str, (∀ c ∈ w, c ∈ smalls) ∧ code .v1 w = first ++ rest := by
  have hr' : ∀ c ∈ rest, c ∈ heard .v1 := hr
  rcases hf with rfl | rfl
  · refine ⟨rest.flatMap cavSyllable, syll_small .v1 rest hr', ?_⟩
    have := cav_syllables .v1 rest [] [] hr'
    rw [List.append_nil] at this
    have h2 := once_pairs rest []
    simp only [List.append_nil, once] at h2
    simp only [code, this, soundsFrom, List.append_nil, h2, written_pairs, List.nil_append]
  · refine ⟨'a' :: rest.flatMap cavSyllable, ?_, ?_⟩
    · intro c hc
      rcases List.mem_cons.mp hc with rfl | hc
      · decide
      · exact syll_small .v1 rest hr' c hc
    · have := cav_syllables .v1 rest ([] ++ ['a']) [] hr'
      rw [List.append_nil] at this
      have e : sound .v1 [] (rest.flatMap cavSyllable) 'a' = .letter 'A' := by simp [sound]
      simp only [code, soundsFrom]
      rw [this, e]
      simp only [soundsFrom, List.append_nil]
      have : once (.letter 'A' :: pairs rest) = .letter 'A' :: once (pairs rest) := by
        rcases once_cons (.letter 'A') (pairs rest) with h | ⟨_, h⟩
        · exact h
        · exact absurd h (by decide)
      have h2 := once_pairs rest []
      simp only [List.append_nil, once] at h2
      rw [this, h2, List.flatMap_cons, written_pairs]
      rfl

/-- The syllable of the first letter. -/
def opening (x : Char) : Str := if x = 'Y' then c!"ya" else c!"aa"

theorem sounds2 (first b rest : Str) (hf : first = [] ∨ first = c!"A" ∨ first = c!"Y") (hb : ∀ c ∈ b, c ∈ heard .v2) :
    soundsFrom .v2 [] (first.flatMap opening ++ b.flatMap cavSyllable ++ rest) =
      pairs (first ++ b) ++ soundsFrom .v2 (first.flatMap opening ++ b.flatMap cavSyllable) rest := by
  rw [List.append_assoc]
  rcases hf with rfl | rfl | rfl
  · exact cav_syllables .v2 b [] rest hb
  · have := cav_syllables .v2 b c!"aa" rest hb
    show soundsFrom .v2 [] ('a' :: 'a' :: (b.flatMap cavSyllable ++ rest)) = _
    simp only [soundsFrom]
    show sound .v2 [] _ 'a' :: sound .v2 ['a'] _ 'a' :: soundsFrom .v2 c!"aa" _ = _
    rw [this]
    simp [sound, pairs, opening]
  · have := cav_syllables .v2 b c!"ya" rest hb
    show soundsFrom .v2 [] ('y' :: 'a' :: (b.flatMap cavSyllable ++ rest)) = _
    simp only [soundsFrom]
    show sound .v2 [] _ 'y' :: sound .v2 ['y'] _ 'a' :: soundsFrom .v2 c!"ya" _ = _
    rw [this]
    simp [sound, soundY, starts, pairs, opening]

theorem opening_small (first : Str) (hf : first = [] ∨ first = c!"A" ∨ first = c!"Y") :
    ∀ c ∈ first.flatMap opening, c ∈ smalls := by
  rcases hf with rfl | rfl | rfl <;> decide

theorem last_a (first b : Str) (hn : first ++ b ≠ []) :
    (first.flatMap opening ++ b.flatMap cavSyllable).getLast? = some 'a' := by
  rcases List.eq_nil_or_concat b with rfl | ⟨l, a, rfl⟩
  · rcases List.eq_nil_or_concat first with rfl | ⟨l, a, rfl⟩
    · exact absurd rfl hn
    · simp only [List.concat_eq_append, List.flatMap_append, List.flatMap_cons, List.flatMap_nil, List.append_nil, opening]
      split <;> simp
  · simp [cavSyllable]

theorem word2 (first middle last : Str) (hf : first = [] ∨ first = c!"A" ∨ first = c!"Y")
    (hm : ∀ c ∈ middle, c ∈ c!"FKLMNPRSTW")
    (hl : last = c!"A" ∨ last = [] ∧ ∀ c, (first ++ middle).getLast? = some c → c ∉ c!"LRWY") :
    ∃ w : Str, (∀ c ∈ w, c ∈ smalls) ∧ code .v2 w = first ++ middle ++ last := by
  have hm' : ∀ c ∈ middle, c ∈ heard .v2 := hm
  rcases hl with rfl | ⟨rfl, hl⟩
  · by_cases hn : first ++ middle = []
    · rw [hn]
      exact ⟨c!"a", by decide, by decide⟩
    · refine ⟨first.flatMap opening ++ middle.flatMap cavSyllable, ?_, ?_⟩
      · intro c hc
        rcases List.mem_append.mp hc with hc | hc
        · exact opening_small first hf c hc
        · exact syll_small .v2 middle hm' c hc
      · have := sounds2 first middle [] hf hm'
        simp only [List.append_nil, soundsFrom] at this
        have h2 := once_pairs (first ++ middle) []
        simp only [List.append_nil, once] at h2
        simp only [code, last_a first middle hn]
        rw [if_neg (by decide), this, h2, filter_pairs, last_pairs _ hn, if_pos rfl, written_pairs]
  · rcases List.eq_nil_or_concat middle with rfl | ⟨b, x, rfl⟩
    · rcases hf with rfl | rfl | rfl
      · exact ⟨[], by simp, rfl⟩
      · exact ⟨c!"a", by decide, by decide⟩
      · exact absurd (by decide) (hl 'Y' rfl)
    · rw [List.concat_eq_append] at *
      have hx : x ∈ c!"FKMNPST" := by
        have h1 := hm x (by simp)
        have h2 := hl x (by simp)
        have : ∀ x ∈ c!"FKLMNPRSTW", x ∉ c!"LRWY" → x ∈ c!"FKMNPST" := by decide
        exact this x h1 h2
      have hb : ∀ c ∈ b, c ∈ heard .v2 := fun c hc => hm' c (by simp [hc])
      refine ⟨first.flatMap opening ++ b.flatMap cavSyllable ++ [asciiLower x], ?_, ?_⟩
      · intro c hc
        rcases List.mem_append.mp hc with hc | hc
        · rcases List.mem_append.mp hc with hc | hc
          · exact opening_small first hf c hc
          · exact syll_small .v2 b hb c hc
        · have : ∀ x ∈ c!"FKMNPST", asciiLower x ∈ smalls := by decide +kernel
          rw [List.mem_singleton.mp hc]
          exact this x hx
      · have hs : ∀ before : Str, soundsFrom .v2 before [asciiLower x] = [.letter x] := by
          intro before
          simp only [List.mem_cons, List.not_mem_nil, or_false] at hx
          rcases hx with rfl | rfl | rfl | rfl | rfl | rfl | rfl <;>
            simp [soundsFrom, sound, asciiLower, isAsciiUpper, starts]
        have he : asciiLower x ≠ 'e' := by
          have : ∀ x ∈ c!"FKMNPST", asciiLower x ≠ 'e' := by decide +kernel
          exact this x hx
        have := sounds2 first b [asciiLower x] hf hb
        rw [hs] at this
        have h2 := once_pairs (first ++ b) [.letter x]
        simp only [code, List.getLast?_append, List.getLast?_singleton, Option.some_or, Option.some.injEq]
        rw [if_neg he, this, h2, List.filter_append, filter_pairs, List.flatMap_append, written_pairs]
        simp [once, written]

theorem small_letters (w : Str) (h : ∀ c ∈ w, c ∈ smalls) : AsciiStr w ∧ (asciiLetters w).map asciiLower = w := by
  have hs : ∀ c ∈ smalls, isAscii c = true ∧ isAsciiAlpha c = true ∧ asciiLower (asciiUpper c) = c := by decide +kernel
  refine ⟨fun c hc => (hs c (h c hc)).1, ?_⟩
  have e : w.filter isAsciiAlpha = w := by
    rw [List.filter_eq_self]
    exact fun c hc => (hs c (h c hc)).2.1
  rw [asciiLetters, e, List.map_map]
  have : w.map (asciiLower ∘ asciiUpper) = w.map id := List.map_congr_left fun c hc => (hs c (h c hc)).2.2
  rw [this, List.map_id]

theorem lower_letters (s : Str) (h : AsciiStr s) : ∀ c ∈ (asciiLetters s).map asciiLower, c ∈ smalls := by
  intro c hc
  obtain ⟨d, hd, rfl⟩ := List.mem_map.mp hc
  obtain ⟨e, he, rfl⟩ := List.mem_map.mp hd
  obtain ⟨he, ha⟩ := List.mem_filter.mp he
  have : ∀ c, isAscii c = true → isAsciiAlpha c = true → asciiLower (asciiUpper c) ∈ smalls := by
    apply forall_ascii; decide +kernel
  exact this e (h e he) ha

end CodeProofs

open CodeProofs

/-- C93. The Caverphone 1 codes of ASCII texts. -/
theorem caverphone1_codes (U : Unicode) (code : Str) :
    (∃ s, AsciiStr s ∧ Caverphone1.encode U s = .ok code) ↔ Caverphone1Code code := by
  constructor
  · rintro ⟨s, hs, h⟩
    obtain ⟨first, rest, e, h1, h2⟩ := code1_shape _ (lower_letters s hs)
    rw [(caverphone_spec_ascii U s hs).1, e] at h
    exact ⟨first, rest, h1, h2, (Except.ok.inj h).symm⟩
  · rintro ⟨first, rest, h1, h2, rfl⟩
    obtain ⟨w, hw, e⟩ := word1 first rest h1 h2
    obtain ⟨ha, hl⟩ := small_letters w hw
    refine ⟨w, ha, ?_⟩
    rw [(caverphone_spec_ascii U w ha).1, hl, e]
    rfl

/-- C93. The Caverphone 2 codes of ASCII texts. -/
theorem caverphone2_codes (U : Unicode) (code : Str) :
    (∃ s, AsciiStr s ∧ Caverphone2.encode U s = .ok code) ↔ Caverphone2Code code := by
  constructor
  · rintro ⟨s, hs, h⟩
    obtain ⟨first, middle, last, e, h1, h2, h3⟩ := code2_shape _ (lower_letters s hs)
    rw [(caverphone_spec_ascii U s hs).2, e] at h
    exact ⟨first, middle, last, h1, h2, h3, (Except.ok.inj h).symm⟩
  · rintro ⟨first, middle, last, h1, h2, h3, rfl⟩
    obtain ⟨w, hw, e⟩ := word2 first middle last h1 h2 h3
    obtain ⟨ha, hl⟩ := small_letters w hw
    refine ⟨w, ha, ?_⟩
    rw [(caverphone_spec_ascii U w ha).2, hl, e]
    rfl

example : Caverphone1Code c!"AWTY11" := ⟨c!"A", c!"WTY", Or.inr rfl, by decide, rfl⟩
example : Caverphone2Code c!"YLTA111111" := ⟨c!"Y", c!"LT", c!"A", Or.inr (Or.inr rfl), by decide, Or.inl rfl, rfl⟩

end Verif.Props
