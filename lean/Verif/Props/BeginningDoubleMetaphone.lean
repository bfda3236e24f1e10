import Verif.Props.DoubleMetaphoneSpec
/-!
# The beginning of a word decides the beginning of its Double Metaphone codes (C99)
-/

set_option linter.unusedSimpArgs false
set_option linter.unusedVariables false

namespace Verif.Props
open Verif.DMProofs Verif.DoubleMetaphone Verif.Spec

namespace DMBeginning
open DM

theorem isPrefixOf_append {w x : Str} (u : Str) (h : w.length ≤ x.length) : w.isPrefixOf (x ++ u) = w.isPrefixOf x := by
  induction w generalizing x with
  | nil => simp
  | cons a w ih =>
    cases x with
    | nil => simp at h
    | cons b x =>
      simp only [List.cons_append, List.isPrefixOf]
      rw [ih (by simpa using h)]

theorem starts_append {x : Str} (u : Str) {ws : List Str} {n : Nat} (hn : n ≤ x.length) (h : ∀ w ∈ ws, w.length ≤ n) :
    starts (x ++ u) ws = starts x ws := by
  unfold starts
  induction ws with
  | nil => rfl
  | cons w ws ih =>
    rw [List.any_cons, List.any_cons, isPrefixOf_append u (Nat.le_trans (h w List.mem_cons_self) hn),
      ih fun v hv => h v (List.mem_cons_of_mem _ hv)]

/-- Far from the end, a sound is decided by what follows closely, provided the word as a whole looks the same. -/
theorem sound_append (word before after u : Str) (c : Char) (h : 5 ≤ after.length) (hl : 6 ≤ word.length)
    (hs : slavoGermanic (word ++ u) = slavoGermanic word)
    (he : c = 'L' → ends (word ++ u) [c!"AS", c!"OS", c!"A", c!"O"] = ends word [c!"AS", c!"OS", c!"A", c!"O"]) :
    sound (word ++ u) before (after ++ u) c = sound word before after c := by
  have hst : ∀ ws : List Str, (∀ w ∈ ws, w.length ≤ 6) → starts (word ++ u) ws = starts word ws :=
    fun ws => starts_append u hl
  have l1 : ((word ++ u).length == 4) = false := by simp; omega
  have l2 : (word.length == 4) = false := by simp; omega
  rcases after with _ | ⟨a1, _ | ⟨a2, _ | ⟨a3, _ | ⟨a4, _ | ⟨a5, rest⟩⟩⟩⟩⟩
  any_goals (simp at h; done)
  clear h
  have hC : soundC (word ++ u) before (a1 :: a2 :: a3 :: a4 :: a5 :: rest ++ u) =
      soundC word before (a1 :: a2 :: a3 :: a4 :: a5 :: rest) := by
    unfold soundC soundCH
    rw [hst _ (by decide), hst _ (by decide)]
    rfl
  have hG : soundG (word ++ u) before (a1 :: a2 :: a3 :: a4 :: a5 :: rest ++ u) =
      soundG word before (a1 :: a2 :: a3 :: a4 :: a5 :: rest) := by
    unfold soundG
    rw [hst _ (by decide), hst _ (by decide), hs]
    rfl
  have hJ : soundJ (word ++ u) before (a1 :: a2 :: a3 :: a4 :: a5 :: rest ++ u) =
      soundJ word before (a1 :: a2 :: a3 :: a4 :: a5 :: rest) := by
    unfold soundJ
    rw [hst _ (by decide), hs, l1, l2]
    rfl
  have hL : c = 'L' → soundL (word ++ u) before (a1 :: a2 :: a3 :: a4 :: a5 :: rest ++ u) =
      soundL word before (a1 :: a2 :: a3 :: a4 :: a5 :: rest) := by
    intro hc
    unfold soundL
    rw [he hc]
    rfl
  have hR : soundR (word ++ u) before (a1 :: a2 :: a3 :: a4 :: a5 :: rest ++ u) =
      soundR word before (a1 :: a2 :: a3 :: a4 :: a5 :: rest) := by
    unfold soundR
    rw [hs]
    rfl
  have hS : soundS (word ++ u) before (a1 :: a2 :: a3 :: a4 :: a5 :: rest ++ u) =
      soundS word before (a1 :: a2 :: a3 :: a4 :: a5 :: rest) := by
    unfold soundS
    rw [hs]
    rfl
  have hT : soundT (word ++ u) (a1 :: a2 :: a3 :: a4 :: a5 :: rest ++ u) =
      soundT word (a1 :: a2 :: a3 :: a4 :: a5 :: rest) := by
    unfold soundT
    rw [hst _ (by decide)]
    rfl
  have hW : soundW (word ++ u) before (a1 :: a2 :: a3 :: a4 :: a5 :: rest ++ u) =
      soundW word before (a1 :: a2 :: a3 :: a4 :: a5 :: rest) := by
    unfold soundW
    rw [hst _ (by decide)]
    rfl
  have hZ : soundZ (word ++ u) before (a1 :: a2 :: a3 :: a4 :: a5 :: rest ++ u) =
      soundZ word before (a1 :: a2 :: a3 :: a4 :: a5 :: rest) := by
    unfold soundZ
    rw [hs]
    rfl
  by_cases hc : c = 'L'
  · subst hc
    exact hL rfl
  · have key : ∀ w b a, sound w b a c = if c = 'L' then same [] 0 else sound w b a c := by
      intro w b a; rw [if_neg hc]
    unfold sound
    rw [hC, hG, hJ, hR, hS, hT, hW, hZ]
    split <;> first | rfl | exact absurd rfl hc

theorem sound_primary (word before after u : Str) (c : Char) (h : 5 ≤ after.length) (hl : 6 ≤ word.length)
    (hs : slavoGermanic (word ++ u) = slavoGermanic word) :
    (sound (word ++ u) before (after ++ u) c).primary = (sound word before after c).primary ∧
    (sound (word ++ u) before (after ++ u) c).covered = (sound word before after c).covered := by
  by_cases hc : c = 'L'
  · subst hc
    show (soundL _ _ _).primary = (soundL _ _ _).primary ∧ (soundL _ _ _).covered = (soundL _ _ _).covered
    have key : ∀ w b a, (soundL w b a).primary = c!"L" ∧ (soundL w b a).covered = if starts a [c!"L"] then 1 else 0 := by
      intro w b a
      unfold soundL
      split
      · split
        · exact ⟨rfl, rfl⟩
        · split <;> exact ⟨rfl, rfl⟩
      · exact ⟨rfl, rfl⟩
    rw [(key _ _ _).1, (key _ _ _).1, (key _ _ _).2, (key _ _ _).2, starts_append u (n := 1) (by omega) (by decide)]
    exact ⟨rfl, rfl⟩
  · rw [sound_append word before after u c h hl hs fun h => absurd h hc]
    exact ⟨rfl, rfl⟩

/-- No more than two characters for each code. -/
def Short (x : Sound) : Prop := x.primary.length ≤ 2 ∧ x.alternate.length ≤ 2

theorem short_ite {c : Prop} [Decidable c] {x y : Sound} (hx : Short x) (hy : Short y) : Short (if c then x else y) := by
  split
  · exact hx
  · exact hy

theorem sound_short (word before after : Str) (c : Char) : Short (sound word before after c) := by
  unfold sound
  split
  all_goals try unfold soundC
  all_goals try unfold soundCH soundCC
  all_goals try unfold soundD
  all_goals try unfold soundG
  all_goals try unfold soundGH
  all_goals try unfold soundH
  all_goals try unfold soundJ
  all_goals try unfold soundL
  all_goals try unfold soundM
  all_goals try unfold soundP
  all_goals try unfold soundR
  all_goals try unfold soundS
  all_goals try unfold soundSC
  all_goals try unfold soundT
  all_goals try unfold soundW
  all_goals try unfold soundX
  all_goals try unfold soundZ
  all_goals try unfold soundSimple
  all_goals try dsimp only
  all_goals repeat' apply short_ite
  all_goals exact ⟨by simp [same, silent], by simp [same, silent]⟩

theorem soundsFrom_length (word : Str) (after : Str) : ∀ before n, (soundsFrom word before n after).length ≤ after.length := by
  induction after with
  | nil => intro before n; cases n <;> simp [soundsFrom]
  | cons c after ih =>
    intro before n
    cases n with
    | zero => simp only [soundsFrom, List.length_cons]; exact Nat.succ_le_succ (ih _ _)
    | succ n => simp only [soundsFrom, List.length_cons]; exact Nat.le_succ_of_le (ih _ _)

theorem soundsFrom_short (word : Str) (after : Str) : ∀ before n, ∀ x ∈ soundsFrom word before n after, Short x := by
  induction after with
  | nil => intro before n x hx; cases n <;> simp [soundsFrom] at hx
  | cons c after ih =>
    intro before n x hx
    cases n with
    | zero =>
      simp only [soundsFrom, List.mem_cons] at hx
      rcases hx with rfl | hx
      · exact sound_short _ _ _ _
      · exact ih _ _ x hx
    | succ n => exact ih _ _ x hx

/-- The sounds of a word and of a longer one: the same, but for those of the last letters. -/
theorem soundsFrom_append {α : Type} (f : Sound → α) (word u : Str)
    (hf : ∀ before after c, word = before ++ c :: after → 5 ≤ after.length →
      f (sound (word ++ u) before (after ++ u) c) = f (sound word before after c) ∧
      (sound (word ++ u) before (after ++ u) c).covered = (sound word before after c).covered)
    (after : Str) : ∀ before n, word = before ++ after → ∃ L L' Q Q', soundsFrom word before n after = L ++ Q ∧
      soundsFrom (word ++ u) before n (after ++ u) = L' ++ Q' ∧ L.map f = L'.map f ∧ Q.length ≤ 5 := by
  induction after with
  | nil => intro before n hw; exact ⟨[], [], _, _, rfl, rfl, rfl, by cases n <;> simp [soundsFrom]⟩
  | cons c after ih =>
    intro before n hw
    by_cases h : 5 ≤ after.length
    · cases n with
      | zero =>
        obtain ⟨e1, e2⟩ := hf before after c hw h
        obtain ⟨L, L', Q, Q', k1, k2, k3, k4⟩ := ih (before ++ [c]) (sound word before after c).covered (by simp [hw])
        refine ⟨sound word before after c :: L, sound (word ++ u) before (after ++ u) c :: L', Q, Q', ?_, ?_, ?_, k4⟩
        · simp only [soundsFrom, k1, List.cons_append]
        · simp only [List.cons_append, soundsFrom, e2, k2]
        · simp only [List.map_cons, e1, k3]
      | succ n =>
        obtain ⟨L, L', Q, Q', k1, k2, k3, k4⟩ := ih (before ++ [c]) n (by simp [hw])
        exact ⟨L, L', Q, Q', k1, k2, k3, k4⟩
    · exact ⟨[], [], _, _, rfl, rfl, rfl, Nat.le_trans (soundsFrom_length _ _ _ _) (by simp; omega)⟩

theorem flatMap_short {f : Sound → Str} {Q : List Sound} (h : ∀ x ∈ Q, (f x).length ≤ 2) :
    (Q.flatMap f).length ≤ 2 * Q.length := by
  induction Q with
  | nil => simp
  | cons x Q ih =>
    rw [List.flatMap_cons, List.length_append, List.length_cons]
    have := h x List.mem_cons_self
    have := ih fun y hy => h y (List.mem_cons_of_mem _ hy)
    omega

theorem sounds_append (f : Sound → Str) (word u : Str) (hshort : ∀ x, Short x → (f x).length ≤ 2)
    (hf : ∀ before after c, word = before ++ c :: after → 5 ≤ after.length →
      f (sound (word ++ u) before (after ++ u) c) = f (sound word before after c) ∧
      (sound (word ++ u) before (after ++ u) c).covered = (sound word before after c).covered) :
    ∃ p q r : Str, (sounds word).flatMap f = p ++ q ∧ (sounds (word ++ u)).flatMap f = p ++ r ∧ q.length ≤ 10 := by
  by_cases hw : 2 ≤ word.length
  · unfold sounds
    rw [starts_append u hw (by decide)]
    obtain ⟨L, L', Q, Q', k1, k2, k3, k4⟩ := soundsFrom_append f word u hf word []
      (if starts word [c!"GN", c!"KN", c!"PN", c!"WR", c!"PS"] then 1 else 0) (by simp)
    refine ⟨L.flatMap f, Q.flatMap f, Q'.flatMap f, ?_, ?_, ?_⟩
    · rw [k1, List.flatMap_append]
    · rw [k2, List.flatMap_append, List.flatMap_def, List.flatMap_def, List.flatMap_def, k3]
    · have hs := soundsFrom_short word word [] (if starts word [c!"GN", c!"KN", c!"PN", c!"WR", c!"PS"] then 1 else 0)
      have := flatMap_short (f := f) (Q := Q) fun x hx => hshort x (hs x (by rw [k1]; exact List.mem_append_right _ hx))
      omega
  · refine ⟨[], (sounds word).flatMap f, (sounds (word ++ u)).flatMap f, rfl, rfl, ?_⟩
    have hs := soundsFrom_short word word [] (if starts word [c!"GN", c!"KN", c!"PN", c!"WR", c!"PS"] then 1 else 0)
    have := flatMap_short (f := f) (Q := sounds word) fun x hx => hshort x (hs x hx)
    have h2 : (sounds word).length ≤ word.length := soundsFrom_length _ _ _ _
    omega

theorem trim_prefix (U : Unicode) (s t : Str) : U.trim s <+: U.trim (s ++ t) := by
  unfold Unicode.trim
  by_cases h : s.all U.isWhitespace = true
  · have : s.dropWhile U.isWhitespace = [] := by
      induction s with
      | nil => rfl
      | cons c s ih =>
        simp only [List.all_cons, Bool.and_eq_true] at h
        rw [List.dropWhile_cons_of_pos h.1]
        exact ih h.2
    rw [this]
    simp
  · have h1 : (s ++ t).dropWhile U.isWhitespace = s.dropWhile U.isWhitespace ++ t := by
      induction s with
      | nil => simp at h
      | cons c s ih =>
        by_cases hc : U.isWhitespace c = true
        · rw [List.cons_append, List.dropWhile_cons_of_pos hc, List.dropWhile_cons_of_pos hc]
          apply ih
          simpa [hc] using h
        · rw [List.cons_append, List.dropWhile_cons_of_neg hc, List.dropWhile_cons_of_neg hc]
          rfl
    rw [h1, List.reverse_append]
    generalize s.dropWhile U.isWhitespace = x
    generalize t.reverse = y
    induction y with
    | nil => simp
    | cons c y ih =>
      by_cases hc : U.isWhitespace c = true
      · rw [List.cons_append, List.dropWhile_cons_of_pos hc]
        exact ih
      · rw [List.cons_append, List.dropWhile_cons_of_neg hc, ← List.cons_append, List.reverse_append, List.reverse_reverse]
        refine List.IsPrefix.trans ?_ (List.prefix_append _ _)
        rw [← List.reverse_suffix, List.reverse_reverse]
        exact List.dropWhile_suffix _

/-- What a longer text adds to the trimmed text in upper case. -/
theorem value_append (U : Unicode) (s t : Str) :
    ∃ u, (U.trim (s ++ t)).map asciiUpper = (U.trim s).map asciiUpper ++ u := by
  obtain ⟨u, hu⟩ := trim_prefix U s t
  exact ⟨u.map asciiUpper, by rw [← hu, List.map_append]⟩

theorem length_of {word before after : Str} {c : Char} (h : word = before ++ c :: after) (h5 : 5 ≤ after.length) :
    6 ≤ word.length := by rw [h]; simp; omega

end DMBeginning

open DMBeginning

/-- C99: letters appended to a word change at most the last ten characters of its primary code without a limit, as long as
they do not make it look Slavic or Germanic (W, K, CZ); the rest is the beginning of the new code. -/
theorem double_metaphone_extends (U : Unicode) (s t : Str) (hs : AsciiStr s) (ht : AsciiStr t)
    (hg : DM.slavoGermanic ((U.trim (s ++ t)).map asciiUpper) = DM.slavoGermanic ((U.trim s).map asciiUpper)) :
    ∃ p q r, (DoubleMetaphone.new none).encode U s = .ok (p ++ q) ∧
      (DoubleMetaphone.new none).encode U (s ++ t) = .ok (p ++ r) ∧ q.length ≤ 10 := by
  obtain ⟨u, hu⟩ := value_append U s t
  have hst : AsciiStr (s ++ t) := fun c hc => (List.mem_append.mp hc).elim (hs c) (ht c)
  rw [hu] at hg
  obtain ⟨p, q, r, k1, k2, k3⟩ := sounds_append DM.Sound.primary ((U.trim s).map asciiUpper) u (fun x h => h.1)
    fun before after c hw h => sound_primary _ before after u c h (length_of hw h) hg
  refine ⟨p, q, r, ?_, ?_, k3⟩
  · rw [(double_metaphone_spec U none s hs (by rintro _ ⟨⟩)).2.1]
    exact congrArg _ k1
  · rw [(double_metaphone_spec U none (s ++ t) hst (by rintro _ ⟨⟩)).2.1, hu]
    exact congrArg _ k2

/-- C99: the same holds of the alternate code if, besides, both words have one of the endings -as, -os, -a, -o or neither
has. -/
theorem double_metaphone_extends_alternate (U : Unicode) (s t : Str) (hs : AsciiStr s) (ht : AsciiStr t)
    (hg : DM.slavoGermanic ((U.trim (s ++ t)).map asciiUpper) = DM.slavoGermanic ((U.trim s).map asciiUpper))
    (he : DM.ends ((U.trim (s ++ t)).map asciiUpper) [c!"AS", c!"OS", c!"A", c!"O"] =
      DM.ends ((U.trim s).map asciiUpper) [c!"AS", c!"OS", c!"A", c!"O"]) :
    ∃ p q r, (DoubleMetaphone.new none).encodeAlternate U s = .ok (p ++ q) ∧
      (DoubleMetaphone.new none).encodeAlternate U (s ++ t) = .ok (p ++ r) ∧ q.length ≤ 10 := by
  obtain ⟨u, hu⟩ := value_append U s t
  have hst : AsciiStr (s ++ t) := fun c hc => (List.mem_append.mp hc).elim (hs c) (ht c)
  rw [hu] at hg he
  obtain ⟨p, q, r, k1, k2, k3⟩ := sounds_append DM.Sound.alternate ((U.trim s).map asciiUpper) u (fun x h => h.2)
    fun before after c hw h => by
      rw [sound_append _ before after u c h (length_of hw h) hg fun _ => he]
      exact ⟨rfl, rfl⟩
  refine ⟨p, q, r, ?_, ?_, k3⟩
  · rw [(double_metaphone_spec U none s hs (by rintro _ ⟨⟩)).2.2]
    exact congrArg _ k1
  · rw [(double_metaphone_spec U none (s ++ t) hst (by rintro _ ⟨⟩)).2.2, hu]
    exact congrArg _ k2

/-- C99: with a limit: a word whose unlimited primary code exceeds the limit by ten characters has the primary code of every
word that begins with it and does not look Slavic or Germanic for the first time. -/
theorem double_metaphone_beginning (U : Unicode) (n : Nat) (s t c : Str) (hs : AsciiStr s) (ht : AsciiStr t)
    (hg : DM.slavoGermanic ((U.trim (s ++ t)).map asciiUpper) = DM.slavoGermanic ((U.trim s).map asciiUpper))
    (hmax : Allocatable (some n)) (hc : (DoubleMetaphone.new none).encode U s = .ok c) (hn : n + 10 ≤ c.length) :
    (DoubleMetaphone.new (some n)).encode U (s ++ t) = (DoubleMetaphone.new (some n)).encode U s := by
  obtain ⟨p, q, r, k1, k2, k3⟩ := double_metaphone_extends U s t hs ht hg
  have hst : AsciiStr (s ++ t) := fun c hc => (List.mem_append.mp hc).elim (hs c) (ht c)
  have e1 := (double_metaphone_spec U none s hs (by rintro _ ⟨⟩)).2.1
  have e2 := (double_metaphone_spec U none (s ++ t) hst (by rintro _ ⟨⟩)).2.1
  rw [k1] at e1
  rw [k2] at e2
  rw [(double_metaphone_spec U (some n) s hs hmax).2.1, (double_metaphone_spec U (some n) (s ++ t) hst hmax).2.1]
  have g1 : DM.primary ((U.trim s).map asciiUpper) = p ++ q := (Except.ok.inj e1).symm
  have g2 : DM.primary ((U.trim (s ++ t)).map asciiUpper) = p ++ r := (Except.ok.inj e2).symm
  rw [g1, g2]
  have : c = p ++ q := Except.ok.inj (hc.symm.trans k1)
  rw [this, List.length_append] at hn
  show Except.ok ((p ++ r).take n) = Except.ok ((p ++ q).take n)
  rw [List.take_append_of_le_length (by omega), List.take_append_of_le_length (by omega)]

/-- C99: it is enough that the longer word has none of the letters W and K, and no CZ. -/
theorem double_metaphone_not_slavic (w u : Str) (h : DM.slavoGermanic (w ++ u) = false) : DM.slavoGermanic w = false := by
  induction w with
  | nil => rfl
  | cons c w ih =>
    simp only [List.cons_append, DM.slavoGermanic, Bool.or_eq_false_iff, Bool.and_eq_false_iff] at h ⊢
    refine ⟨⟨h.1.1, h.1.2.imp_right fun h => ?_⟩, ih h.2⟩
    cases w with
    | nil => rfl
    | cons d w => exact h

/-- C99: the condition is necessary: a letter at the end that makes the word look Slavic or Germanic can change the code at
the beginning; and the ending -a the alternate code. -/
theorem double_metaphone_extends_sharp :
    (DoubleMetaphone.new none).encode .latin1 c!"abgnabababababababababab" = .ok c!"APNPPPPPPPPPP" ∧
    (DoubleMetaphone.new none).encode .latin1 c!"abgnababababababababababk" = .ok c!"APKNPPPPPPPPPPK" ∧
    (DoubleMetaphone.new none).encodeAlternate .latin1 c!"allebababababababababab" = .ok c!"ALPPPPPPPPPP" ∧
    (DoubleMetaphone.new none).encodeAlternate .latin1 c!"allebabababababababababa" = .ok c!"APPPPPPPPPP" := by
  decide +kernel

/-- C99, not vacuous. -/
example : DM.slavoGermanic ((Unicode.latin1.trim (c!" peregrinationibus " ++ c!"magnis ")).map asciiUpper) =
      DM.slavoGermanic ((Unicode.latin1.trim c!" peregrinationibus ").map asciiUpper) ∧
    (DoubleMetaphone.new none).encode .latin1 c!"lalalalalalalalalalalalala" = .ok c!"LLLLLLLLLLLLL" ∧
    (DoubleMetaphone.new (some 3)).encode .latin1 c!"lalalalalalalalalalalalalax" = .ok c!"LLL" := by
  decide +kernel

end Verif.Props
