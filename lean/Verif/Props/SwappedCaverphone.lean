import Verif.Props.Swapped
import Verif.Props.PartsSoundex
/-!
# Caverphone: A and O, E and I may change places (C120)
-/

set_option linter.unusedSimpArgs false
set_option linter.unusedVariables false

namespace Verif.Props
open Spec

namespace SwappedCavProofs
open Verif.Spec.Caverphone InterchangeProofs

/-- a and o, or e and i, in lower case. -/
def Two (a b : Char) : Prop := (a = 'a' ∧ b = 'o') ∨ (a = 'o' ∧ b = 'a') ∨ (a = 'e' ∧ b = 'i') ∨ (a = 'i' ∧ b = 'e')

/-- The texts look alike for the letter before them. -/
structure Alike (v : Version) (x y : Str) : Prop where
  s1 : starts x [c!"q"] = starts y [c!"q"]
  s2 : starts x [c!"i", c!"e", c!"y"] = starts y [c!"i", c!"e", c!"y"]
  s3 : starts x [c!"g"] = starts y [c!"g"]
  s4 : starts x [c!"n"] = starts y [c!"n"]
  s5 : starts x [c!"h"] = starts y [c!"h"]
  s6 : starts x [c!"a", c!"e", c!"i", c!"o", c!"u"] = starts y [c!"a", c!"e", c!"i", c!"o", c!"u"]
  s7 : starts x [c!"ch"] = starts y [c!"ch"]
  s8 : starts x [c!"io", c!"ia"] = starts y [c!"io", c!"ia"]
  s9 : starts x [c!"y"] = starts y [c!"y"]
  s10 : starts x [c!"hy"] = starts y [c!"hy"]
  v1 : vowelAhead v x = vowelAhead v y
  v2 : starts y [c!"h"] = true → vowelAhead v (x.drop 1) = vowelAhead v (y.drop 1)
  e1 : (x = []) = (y = [])
  e2 : (x = c!"w") = (y = c!"w")
  e3 : (x = c!"r") = (y = c!"r")

theorem Alike.sound {v : Version} {x y : Str} (h : Alike v x y) (before : Str) (c : Char) :
    sound v before x c = sound v before y c := by
  unfold Verif.Spec.Caverphone.sound soundGH soundW soundR soundL soundY
  by_cases hh : starts y [c!"h"] = true
  · simp only [h.s1, h.s2, h.s3, h.s4, h.s5, h.s6, h.s7, h.s8, h.s9, h.s10, h.v1, h.v2 hh, h.e1, h.e2, h.e3]
  · simp only [h.s1, h.s2, h.s3, h.s4, h.s5, h.s6, h.s7, h.s8, h.s9, h.s10, h.v1, h.e1, h.e2, h.e3, hh, Bool.false_and,
      if_false, Bool.or_false, Bool.false_eq_true]

theorem alike_swap (v : Version) {a b : Char} (h : Two a b) (p q : Str) : Alike v (p ++ a :: b :: q) (p ++ b :: a :: q) := by
  match p with
  | [] =>
    rcases h with ⟨rfl, rfl⟩ | ⟨rfl, rfl⟩ | ⟨rfl, rfl⟩ | ⟨rfl, rfl⟩ <;> cases v <;>
      constructor <;> simp [starts, vowelAhead, vocal, List.isPrefixOf]
  | [x] =>
    rcases h with ⟨rfl, rfl⟩ | ⟨rfl, rfl⟩ | ⟨rfl, rfl⟩ | ⟨rfl, rfl⟩ <;> cases v <;>
      constructor <;> simp [starts, vowelAhead, vocal, List.isPrefixOf]
  | x :: y :: p =>
    cases v <;> constructor <;> simp [starts, vowelAhead, vocal, List.isPrefixOf]

/-- The end of a word in ei, or in i alone. -/
theorem alike_ei (v : Version) (p : Str) : Alike v (p ++ c!"ei") (p ++ c!"i") := by
  match p with
  | [] => cases v <;> constructor <;> simp [starts, vowelAhead, vocal, List.isPrefixOf]
  | [x] => cases v <;> constructor <;> simp [starts, vowelAhead, vocal, List.isPrefixOf]
  | x :: y :: p => cases v <;> constructor <;> simp [starts, vowelAhead, vocal, List.isPrefixOf]

theorem not_tough (v : Version) {a b : Char} (h : Two a b) (p q : Str) :
    (tough v).contains (p ++ a :: b :: q) = false ∧ ((tough v).map (· ++ c!"g")).contains (p ++ a :: b :: q) = false := by
  have key : ∀ w : Str, [a, b] <:+: w ∨ p ++ a :: b :: q ≠ w := fun w => by
    by_cases e : p ++ a :: b :: q = w
    · exact .inl ⟨p, q, by rw [← e]; simp⟩
    · exact .inr e
  constructor
  · rw [Bool.eq_false_iff]
    intro hm
    have hm := List.contains_iff_mem.mp hm
    have : ∀ w ∈ tough v, ¬ [a, b] <:+: w := by
      rcases h with ⟨rfl, rfl⟩ | ⟨rfl, rfl⟩ | ⟨rfl, rfl⟩ | ⟨rfl, rfl⟩ <;> cases v <;> decide
    exact (key _).elim (this _ hm) fun h => h rfl
  · rw [Bool.eq_false_iff]
    intro hm
    have hm := List.contains_iff_mem.mp hm
    have : ∀ w ∈ (tough v).map (· ++ c!"g"), ¬ [a, b] <:+: w := by
      rcases h with ⟨rfl, rfl⟩ | ⟨rfl, rfl⟩ | ⟨rfl, rfl⟩ | ⟨rfl, rfl⟩ <;> cases v <;> decide
    exact (key _).elim (this _ hm) fun h => h rfl

theorem two_symm {a b : Char} (h : Two a b) : Two b a := by
  unfold Two at h ⊢
  rcases h with ⟨rfl, rfl⟩ | ⟨rfl, rfl⟩ | ⟨rfl, rfl⟩ | ⟨rfl, rfl⟩ <;> simp

theorem two_vowel (v : Version) {a b : Char} (h : Two a b) :
    (vocal v).contains a = true ∧ a ≠ 'h' ∧ a ≠ 'g' ∧ a ≠ 'm' := by
  rcases h with ⟨rfl, rfl⟩ | ⟨rfl, rfl⟩ | ⟨rfl, rfl⟩ | ⟨rfl, rfl⟩ <;> cases v <;> decide

theorem hard_else (v : Version) (c d e : Char) (r : Str) (h : ¬ (d = 'h' ∧ e = 'g')) :
    hardAfter v (c :: d :: e :: r) = (vocal v).contains c := by
  rw [hardAfter]
  rintro _ rfl he
  simp only [List.cons.injEq] at he
  exact h ⟨rfl, he.1⟩

theorem hard_swap (v : Version) {a b : Char} (h : Two a b) (s : Str) : ∀ (n : Nat) (r : Str), r.length ≤ n →
    hardAfter v (r ++ a :: b :: s) = hardAfter v (r ++ b :: a :: s) := by
  obtain ⟨a1, a2, a3, _⟩ := two_vowel v h
  obtain ⟨b1, b2, b3, _⟩ := two_vowel v (two_symm h)
  have base : hardAfter v (a :: b :: s) = hardAfter v (b :: a :: s) := by
    cases s with
    | nil => simp only [hardAfter]; rw [a1, b1]
    | cons x s => rw [hard_else v _ _ _ _ (fun e => b2 e.1), hard_else v _ _ _ _ (fun e => a2 e.1), a1, b1]
  intro n
  induction n with
  | zero =>
    intro r hr
    have : r = [] := List.length_eq_zero_iff.mp (by omega)
    subst this
    exact base
  | succ n ih =>
    intro r hr
    match r with
    | [] => exact base
    | [c] =>
      simp only [List.cons_append, List.nil_append]
      rw [hard_else v _ _ _ _ (fun e => a2 e.1), hard_else v _ _ _ _ (fun e => b2 e.1)]
    | [c, d] =>
      simp only [List.cons_append, List.nil_append]
      rw [hard_else v _ _ _ _ (fun e => a3 e.2), hard_else v _ _ _ _ (fun e => b3 e.2)]
    | c :: d :: e :: r =>
      simp only [List.cons_append]
      by_cases hh : d = 'h' ∧ e = 'g'
      · obtain ⟨rfl, rfl⟩ := hh
        have t1 := (not_tough v (two_symm h) s.reverse r.reverse).1
        have t2 := (not_tough v h s.reverse r.reverse).1
        have r1 : (r ++ a :: b :: s).reverse = s.reverse ++ b :: a :: r.reverse := by simp
        have r2 : (r ++ b :: a :: s).reverse = s.reverse ++ a :: b :: r.reverse := by simp
        simp only [hardAfter, ih r (by simp at hr; omega), r1, r2, t1, t2]
      · rw [hard_else v _ _ _ _ hh, hard_else v _ _ _ _ hh]

theorem sound_before (v : Version) {a b : Char} (h : Two a b) (p q : Str) (after : Str) (c : Char) :
    sound v (p ++ a :: b :: q) after c = sound v (p ++ b :: a :: q) after c := by
  have t1 := not_tough v h p q
  have t2 := not_tough v (two_symm h) p q
  have n1 : (p ++ a :: b :: q = []) = (p ++ b :: a :: q = []) := by simp
  have hh : hardAfter v (p ++ a :: b :: q).reverse = hardAfter v (p ++ b :: a :: q).reverse := by
    have := hard_swap v (two_symm h) p.reverse _ q.reverse (Nat.le_refl _)
    simpa using this
  have hl : ((p ++ a :: b :: q).getLast? = some 'm') = ((p ++ b :: a :: q).getLast? = some 'm') := by
    have ma := (two_vowel v h).2.2.2
    have mb := (two_vowel v (two_symm h)).2.2.2
    rcases List.eq_nil_or_concat q with rfl | ⟨q, x, rfl⟩
    · simp [ma, mb]
    · simp [List.getLast?_append, List.getLast?_cons]
  have d1 : decide (p ++ a :: b :: q = []) = decide (p ++ b :: a :: q = []) := by simp
  unfold Verif.Spec.Caverphone.sound soundGH soundY
  simp only [t1, t2, n1, hh, hl, d1]

theorem sound_two (v : Version) {a b : Char} (h : Two a b) (before after : Str) :
    sound v before after a = if before = [] then .letter 'A' else .vowel := by
  rcases h with ⟨rfl, rfl⟩ | ⟨rfl, rfl⟩ | ⟨rfl, rfl⟩ | ⟨rfl, rfl⟩ <;> rfl

theorem sound_two' (v : Version) {a b : Char} (h : Two a b) (before after : Str) (hb : before ≠ []) :
    sound v before after a = .vowel := by
  rcases h with ⟨rfl, rfl⟩ | ⟨rfl, rfl⟩ | ⟨rfl, rfl⟩ | ⟨rfl, rfl⟩ <;> simp [Verif.Spec.Caverphone.sound, hb]

theorem sounds_after (v : Version) {a b : Char} (h : Two a b) (p : Str) (r : Str) : ∀ q,
    soundsFrom v (p ++ a :: b :: q) r = soundsFrom v (p ++ b :: a :: q) r := by
  induction r with
  | nil => intro q; rfl
  | cons c r ih =>
    intro q
    have := ih (q ++ [c])
    simp only [soundsFrom, sound_before v h p q, List.append_assoc, List.cons_append, this]

theorem sounds_swap (v : Version) {a b : Char} (h : Two a b) (q : Str) (p : Str) : ∀ before,
    soundsFrom v before (p ++ a :: b :: q) = soundsFrom v before (p ++ b :: a :: q) := by
  induction p with
  | nil =>
    intro before
    have := sounds_after v h before q []
    simp only [List.nil_append, soundsFrom, List.append_assoc, List.singleton_append, this,
      sound_two v h before, sound_two v (two_symm h) before, sound_two' v h (before ++ [b]) _ (by simp),
      sound_two' v (two_symm h) (before ++ [a]) _ (by simp)]
  | cons c p ih =>
    intro before
    simp only [List.cons_append, soundsFrom, (alike_swap v h p q).sound before c, ih (before ++ [c])]

theorem sounds_ei (v : Version) (p : Str) : ∀ before, before ++ p ≠ [] →
    ∃ S, soundsFrom v before (p ++ c!"ei") = S ++ [.vowel, .vowel] ∧ soundsFrom v before (p ++ c!"i") = S ++ [.vowel] := by
  induction p with
  | nil =>
    intro before hb
    rw [List.append_nil] at hb
    refine ⟨[], ?_, ?_⟩
    · simp [soundsFrom, Verif.Spec.Caverphone.sound, hb]
    · simp [soundsFrom, Verif.Spec.Caverphone.sound, hb]
  | cons c p ih =>
    intro before hb
    obtain ⟨S, h1, h2⟩ := ih (before ++ [c]) (by simp)
    refine ⟨sound v before (p ++ c!"i") c :: S, ?_, ?_⟩
    · simp only [List.cons_append, soundsFrom, (alike_ei v p).sound before c, h1]
    · simp only [List.cons_append, soundsFrom, h2]

theorem once_vowels : ∀ S : List Sound, once (S ++ [.vowel, .vowel]) = once (S ++ [.vowel]) ++ [.vowel]
  | [] => by simp [once]
  | [x] => by
    simp only [List.cons_append, List.nil_append]
    have e0 : ∀ l, once (x :: .vowel :: l) = if x = .vowel ∧ x ∈ c!"STPKFMN".map Sound.letter then once (.vowel :: l) else
      x :: once (.vowel :: l) := fun l => by rw [once]
    rw [e0, e0]
    have e : once [Sound.vowel, .vowel] = [.vowel, .vowel] ∧ once [Sound.vowel] = [.vowel] := by decide
    rw [e.1, e.2]
    by_cases h : x = .vowel ∧ x ∈ c!"STPKFMN".map Sound.letter
    · exact absurd (h.1 ▸ h.2) (by decide)
    · rw [if_neg h, if_neg h]; rfl
  | x :: y :: S => by
    have ih := once_vowels (y :: S)
    simp only [List.cons_append] at ih ⊢
    rw [once, once, ih]
    split <;> simp

theorem code_swap (ver : Version) {a b : Char} (h : Two a b) (p q : Str) (hp : p ≠ [] ∨ ver = .v1 ∨ a ∈ c!"ao") :
    code ver (p ++ a :: b :: q) = code ver (p ++ b :: a :: q) := by
  cases ver with
  | v1 =>
    simp only [code]
    rw [sounds_swap .v1 h q p []]
  | v2 =>
    rcases List.eq_nil_or_concat q with rfl | ⟨q, x, rfl⟩
    rotate_left
    · simp only [List.concat_eq_append]
      have l1 : ∀ a b : Char, (p ++ a :: b :: (q ++ [x])).getLast? = some x := fun a b => by
        simp [List.getLast?_append, List.getLast?_cons]
      have l2 : ∀ a b : Char, (p ++ a :: b :: (q ++ [x])).dropLast = p ++ a :: b :: q := fun a b => by
        have : p ++ a :: b :: (q ++ [x]) = (p ++ a :: b :: q) ++ [x] := by simp
        rw [this, List.dropLast_concat]
      simp only [code, l1, l2]
      by_cases hx : some x = some 'e'
      · simp only [if_pos hx, sounds_swap .v2 h q p []]
      · simp only [if_neg hx, sounds_swap .v2 h (q ++ [x]) p []]
    · have ei : p ≠ [] → code .v2 (p ++ c!"ei") = code .v2 (p ++ c!"ie") := by
        intro hp
        obtain ⟨S, h1, h2⟩ := sounds_ei .v2 p [] (by simpa using hp)
        have l1 : (p ++ c!"ei").getLast? ≠ some 'e' := by simp [List.getLast?_append]
        have l2 : (p ++ c!"ie").getLast? = some 'e' := by simp [List.getLast?_append]
        have l3 : (p ++ c!"ie").dropLast = p ++ c!"i" := by
          have : p ++ c!"ie" = (p ++ c!"i") ++ c!"e" := by simp
          rw [this, List.dropLast_concat]
        have last : ∀ S : List Sound, ∃ T, once (S ++ [.vowel]) = T ++ [.vowel] := by
          intro S
          induction S with
          | nil => exact ⟨[], rfl⟩
          | cons x S ih =>
            obtain ⟨T, hT⟩ := ih
            rcases once_cons' x (S ++ [.vowel]) with e | e
            · exact ⟨x :: T, by rw [List.cons_append, e, hT]; rfl⟩
            · exact ⟨T, by rw [List.cons_append, e, hT]⟩
        obtain ⟨T, hT⟩ := last S
        simp only [code]
        simp only [if_neg l1, if_pos l2, l3, h1, h2, once_vowels, hT]
        simp [Verif.Spec.Caverphone.written]
      rcases h with ⟨rfl, rfl⟩ | ⟨rfl, rfl⟩ | ⟨rfl, rfl⟩ | ⟨rfl, rfl⟩
      · simp only [code, show (p ++ ['a', 'o']).getLast? ≠ some 'e' by simp [List.getLast?_append],
          show (p ++ ['o', 'a']).getLast? ≠ some 'e' by simp [List.getLast?_append], if_false,
          sounds_swap .v2 (.inl ⟨rfl, rfl⟩) [] p []]
      · simp only [code, show (p ++ ['a', 'o']).getLast? ≠ some 'e' by simp [List.getLast?_append],
          show (p ++ ['o', 'a']).getLast? ≠ some 'e' by simp [List.getLast?_append], if_false,
          sounds_swap .v2 (.inl ⟨rfl, rfl⟩) [] p []]
      · exact ei (by simpa using hp)
      · exact (ei (by simpa using hp)).symm
where
  once_cons' (x : Sound) (l : List Sound) : once (x :: l) = x :: once l ∨ once (x :: l) = once l := by
    cases l with
    | nil => exact .inl rfl
    | cons y l =>
      rw [once]
      split
      · exact .inr rfl
      · exact .inl rfl

end SwappedCavProofs
open InterchangeProofs SwappedProofs SwappedCavProofs

/-- C120: for both versions of Caverphone S and Z, F and V, K and X, A and O, E and I may change places in a text without capital
sigma, and no other letters; for Caverphone 1 everywhere, for Caverphone 2 A and O also at the beginning, E and I only after a
letter. (A and O, E and I are not confused: C100.) -/
theorem caverphone_swappable_exactly (U : Unicode) (a b : Char) (ha : a ∈ allLetters) (hb : b ∈ allLetters) :
    (Swappable (Caverphone1.encode U) withoutSigma withoutSigma a b ↔
      together [c!"SZ", c!"FV", c!"KX", c!"AO", c!"EI"] a b = true) ∧
    (Swappable (Caverphone1.encode U) letterWithoutSigma withoutSigma a b ↔
      together [c!"SZ", c!"FV", c!"KX", c!"AO", c!"EI"] a b = true) ∧
    (Swappable (Caverphone2.encode U) withoutSigma withoutSigma a b ↔
      together [c!"SZ", c!"FV", c!"KX", c!"AO"] a b = true) ∧
    (Swappable (Caverphone2.encode U) letterWithoutSigma withoutSigma a b ↔
      together [c!"SZ", c!"FV", c!"KX", c!"AO", c!"EI"] a b = true) := by
  have base := caverphone_swappable U a b ha hb
  have ascii : ∀ s, AsciiStr s → withoutSigma s := fun s hs hm => absurd (hs _ hm) (by decide)
  have facts : ∀ a ∈ allLetters, ∀ b ∈ allLetters, together [c!"SZ", c!"FV", c!"KX", c!"AO", c!"EI"] a b = true →
      together [c!"SZ", c!"FV", c!"KX"] a b = true ∨
      ((asciiLower a = 'a' ∧ asciiLower b = 'o') ∨ (asciiLower a = 'o' ∧ asciiLower b = 'a') ∨
        (asciiLower a = 'e' ∧ asciiLower b = 'i') ∨ (asciiLower a = 'i' ∧ asciiLower b = 'e')) := by decide
  have sub : ∀ a ∈ allLetters, ∀ b ∈ allLetters, together [c!"SZ", c!"FV", c!"KX", c!"AO"] a b = true →
      together [c!"SZ", c!"FV", c!"KX", c!"AO", c!"EI"] a b = true ∧
      (together [c!"SZ", c!"FV", c!"KX"] a b = true ∨ asciiLower a ∈ c!"ao") := by decide
  have super : ∀ a ∈ allLetters, ∀ b ∈ allLetters, together [c!"SZ", c!"FV", c!"KX", c!"AO", c!"EI"] a b = true →
      together [c!"SZ", c!"FV", c!"KX", c!"AO"] a b = true ∨ (a = 'E' ∧ b = 'I') ∨ (a = 'I' ∧ b = 'E') := by decide
  have nos : ∀ b ∈ allLetters, b ≠ 'Σ' := by decide
  have word : ∀ u v, withoutSigma u → withoutSigma v → ∃ p q, (hasLetter u → p ≠ []) ∧
      (U.strLower (u ++ a :: b :: v)).filter U.isLowercase = p ++ asciiLower a :: asciiLower b :: q ∧
      (U.strLower (u ++ b :: a :: v)).filter U.isLowercase = p ++ asciiLower b :: asciiLower a :: q := by
    intro u v hu hv
    have sig : ∀ {c : Char}, c ∈ allLetters → withoutSigma (c :: v) := fun hc hm => by
      rcases List.mem_cons.mp hm with h' | h'
      · exact nos _ hc h'.symm
      · exact hv h'
    have one : ∀ {c : Char}, c ∈ allLetters → ((c :: v).flatMap U.toLower).filter U.isLowercase =
        asciiLower c :: (v.flatMap U.toLower).filter U.isLowercase := by
      intro c hc
      have h1 := cav_word U [] v (by intro h; cases h) hv hc
      unfold Unicode.strLower at h1
      rw [List.nil_append, lower_noSigma U _ [] (sig hc)] at h1
      simpa using h1
    refine ⟨(u.flatMap U.toLower).filter U.isLowercase, (v.flatMap U.toLower).filter U.isLowercase, ?_, ?_, ?_⟩
    · rintro ⟨c, hc, hl⟩
      obtain ⟨x, hx, hxl⟩ : ∃ x, x ∈ U.toLower c ∧ U.isLowercase x = true := by
        have hca : isAscii c = true := (SoundexCutProofs.letter_of hl).1
        refine ⟨asciiLower c, by rw [U.toLower_ascii c hca]; simp, ?_⟩
        have f : ∀ c, isAscii c = true → isAsciiAlpha c = true → isAscii (asciiLower c) = true ∧ isAsciiLower (asciiLower c) = true := by
          apply forall_ascii; decide +kernel
        rw [U.isLowercase_ascii _ (f c hca hl).1]
        exact (f c hca hl).2
      intro e
      have : x ∈ (u.flatMap U.toLower).filter U.isLowercase :=
        List.mem_filter.mpr ⟨List.mem_flatMap.mpr ⟨c, hc, hx⟩, hxl⟩
      rw [e] at this
      cases this
    · rw [cav_word U u (b :: v) hu (sig hb) ha, one hb]
    · rw [cav_word U u (a :: v) hu (sig ha) hb, one ha]
  have pos1 : together [c!"SZ", c!"FV", c!"KX", c!"AO", c!"EI"] a b = true →
      Swappable (Caverphone1.encode U) withoutSigma withoutSigma a b := by
    intro h
    rcases facts a ha b hb h with h | h
    · exact (base.1 h).1
    · intro u v hu hv
      obtain ⟨p, q, hp, e1, e2⟩ := word u v hu hv
      rw [caverphone1_spec, caverphone1_spec, e1, e2, code_swap .v1 h p q (.inr (.inl rfl))]
  have pos2 : together [c!"SZ", c!"FV", c!"KX", c!"AO"] a b = true →
      Swappable (Caverphone2.encode U) withoutSigma withoutSigma a b := by
    intro h
    obtain ⟨h1, h2⟩ := sub a ha b hb h
    rcases h2 with h2 | h2
    · exact (base.1 h2).2
    · rcases facts a ha b hb h1 with h | h
      · exact (base.1 h).2
      · intro u v hu hv
        obtain ⟨p, q, hp, e1, e2⟩ := word u v hu hv
        rw [caverphone2_spec, caverphone2_spec, e1, e2, code_swap .v2 h p q (.inr (.inr h2))]
  have pos3 : together [c!"SZ", c!"FV", c!"KX", c!"AO", c!"EI"] a b = true →
      Swappable (Caverphone2.encode U) letterWithoutSigma withoutSigma a b := by
    intro h
    rcases facts a ha b hb h with h | h
    · exact fun u v hu hv => (base.1 h).2 u v hu.1 hv
    · intro u v hu hv
      obtain ⟨p, q, hp, e1, e2⟩ := word u v hu.1 hv
      rw [caverphone2_spec, caverphone2_spec, e1, e2, code_swap .v2 h p q (.inl (hp hu.2))]
  have neg1 : Swappable (Caverphone1.encode U) letterWithoutSigma withoutSigma a b →
      together [c!"SZ", c!"FV", c!"KX", c!"AO", c!"EI"] a b = true :=
    fun h => base.2.1 fun u v hu hv => h u v ⟨ascii u hu.1, hu.2⟩ (ascii v hv)
  have neg2 : Swappable (Caverphone2.encode U) letterWithoutSigma withoutSigma a b →
      together [c!"SZ", c!"FV", c!"KX", c!"AO", c!"EI"] a b = true :=
    fun h => base.2.2 fun u v hu hv => h u v ⟨ascii u hu.1, hu.2⟩ (ascii v hv)
  have ei : Caverphone2.encode U c!"EI" ≠ Caverphone2.encode U c!"IE" := by
    rw [(ascii_tables U .latin1 c!"EI" (by decide)).2.2.2.2.1, (ascii_tables U .latin1 c!"IE" (by decide)).2.2.2.2.1]
    decide +kernel
  refine ⟨⟨fun h => neg1 fun u v hu hv => h u v hu.1 hv, pos1⟩, ⟨neg1, fun h u v hu hv => pos1 h u v hu.1 hv⟩,
    ⟨fun h => ?_, pos2⟩, ⟨neg2, pos3⟩⟩
  rcases super a ha b hb (neg2 fun u v hu hv => h u v hu.1 hv) with h' | ⟨rfl, rfl⟩ | ⟨rfl, rfl⟩
  · exact h'
  · exact absurd (h [] [] (by intro h; cases h) (by intro h; cases h)) ei
  · exact absurd (h [] [] (by intro h; cases h) (by intro h; cases h)) ei.symm

/-- C120: Phonex with a maximum of at least two: the same letters may change places at the beginning, although there B and P, K
and Q are told apart by C100 (before H and N). -/
theorem phonex_swappable_beginning (U : Unicode) (n : Nat) (h2 : 2 ≤ n) (hn : n < 2 ^ 63) (a b : Char) (ha : a ∈ allLetters)
    (hb : b ∈ allLetters) :
    Swappable ((Phonex.new n).encode U) anyText anyText a b ↔
      together [c!"AEIOUY", c!"BP", c!"FV", c!"KQ"] a b = true := by
  refine ⟨fun h => (phonex_swappable U n h2 hn a b ha hb).mp fun u v _ hv => h u v trivial hv, fun h => ?_⟩
  have facts : ∀ a ∈ allLetters, ∀ b ∈ allLetters, together [c!"AEIOUY", c!"BP", c!"FV", c!"KQ"] a b = true →
      together [c!"AEIOUY", c!"FV"] a b = true ∨
      (a ∈ c!"BPKQ" ∧ b ∈ c!"BPKQ" ∧ phCanon a = phCanon b ∧ phonexFirst a = phonexFirst b) := by decide
  rcases facts a ha b hb h with h1 | ⟨h1, h2', h3, h4⟩
  · exact of_interchangeable (fun u h => trivial) (fun v h => h) ((phonex_interchangeable U n h2 hn a b ha hb).1.mpr h1)
  · intro u v _ _
    have caps : ∀ {a b : Char}, a ∈ allLetters → b ∈ allLetters →
        letters U (u ++ a :: b :: v) = letters U u ++ a :: b :: letters U v := by
      intro a b ha hb
      rw [letters_cap U u _ ha]
      have := letters_cap U [] v hb
      rw [List.nil_append, show letters U [] = [] from rfl, List.nil_append] at this
      rw [this]
    have gen : ∀ a ∈ c!"BPKQ", ∀ b ∈ c!"BPKQ", ∀ t : Str, phonexPrepare (a :: b :: t) = phonexFirst a :: b :: dropFinalS t := by
      intro a ha b hb t
      have hS : ∀ a ∈ c!"BPKQ", a ≠ 'S' ∧ a ≠ 'N' ∧ a ≠ 'H' ∧ a ≠ 'W' := by decide
      obtain ⟨b1, b2, b3, b4⟩ := hS b hb
      obtain ⟨a1, a2, a3, a4⟩ := hS a ha
      have hd : ∀ (c : Char) (t : Str), c ≠ 'S' → dropFinalS (c :: t) = c :: dropFinalS t := by
        intro c t hc
        rw [dropS_cons, if_neg hc]
        by_cases h0 : dropFinalS t = []
        · rw [if_pos h0, h0]
        · rw [if_neg h0]
      unfold phonexPrepare
      rw [hd a _ a1, hd b _ b1]
      simp only [List.cons_prefix_cons, Ne.symm b2, Ne.symm b3, Ne.symm a3, Ne.symm a4, false_and, and_false, if_false]
    cases hl : letters U u with
    | nil =>
      rw [phonex_model, phonex_model]
      congr 1
      funext result
      rw [caps ha hb, caps hb ha, hl, List.nil_append, List.nil_append, gen a h1 b h2', gen b h2' a h1, h4]
      rw [← ph_loop_tail, ← ph_loop_tail n (phonexFirst b :: a :: _)]
      simp only [tailMap, List.map_cons, h3]
    | cons c r =>
      have hu : letters U u ≠ [] := by rw [hl]; simp
      rw [phonex_swap_later U n u (b :: v) hu ha hb h3]
      have := phonex_swap_later U n (u ++ [b]) v (by rw [letters_append]; simp [hl]) hb ha h3.symm
      simpa using this

example : (Phonex.new 4).encode .latin1 c!"Kqa" = (Phonex.new 4).encode .latin1 c!"Qka" ∧
    (Phonex.new 4).encode .latin1 c!"Kna" ≠ (Phonex.new 4).encode .latin1 c!"Qna" := by decide +kernel

example : Caverphone2.encode .latin1 c!"Neil" = Caverphone2.encode .latin1 c!"Niel" ∧
    Caverphone1.encode .latin1 c!"Joan" = Caverphone1.encode .latin1 c!"Jaon" ∧
    Caverphone2.encode .latin1 c!"Cea" ≠ Caverphone2.encode .latin1 c!"Cae" ∧ letterWithoutSigma c!"N" := by
  unfold letterWithoutSigma withoutSigma; decide +kernel

end Verif.Props
