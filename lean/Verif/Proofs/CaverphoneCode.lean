import Verif.Proofs.CaverphoneSound
/-!
# Caverphone: the encoders compute the specified code
-/

set_option linter.unusedSimpArgs false

namespace Verif.CavSpec
open Spec.Caverphone

theorem soundsFrom_get (v : Version) (b w : Str) (n : Nat) :
    (soundsFrom v b w)[n]? = w[n]?.map (fun c => sound v (b ++ w.take n) (w.drop (n + 1)) c) := by
  induction w generalizing b n with
  | nil => simp [soundsFrom]
  | cons c cs ih =>
    cases n with
    | zero => simp [soundsFrom]
    | succ n => simp [soundsFrom, ih]

theorem ext_sounds {v : Version} {w t : Str} (hnone : ∀ i, g t i = none ↔ g w i = none)
    (h : ∀ (n : Nat) (c : Char), w[n]? = some c → g t n = some (sym (sound v (w.take n) (w.drop (n + 1)) c))) :
    t = (soundsFrom v [] w).map sym := by
  apply List.ext_getElem?
  intro n
  rw [List.getElem?_map, soundsFrom_get]
  rcases hc : w[n]? with _ | c
  · have := (hnone n).2 (by rw [g_nat]; exact hc)
    rw [g_nat] at this
    rw [this]; rfl
  · have := h n c hc
    rw [g_nat] at this
    rw [this]; rfl

/-- Written in the code. -/
def out : Sound → Char
  | .silent => '2'
  | .vowel => '3'
  | .letter c => c

/-- Sounds that occur. -/
def good : Sound → Prop
  | .letter c => c ∉ c!"stpkfmn23"
  | _ => True

theorem sound_good (v : Version) {w : Str} (hw : Plain w) {n : Nat} {c : Char} (hc : w[n]? = some c) :
    good (sound v (w.take n) (w.drop (n + 1)) c) := by
  have pplain := hw c (List.mem_of_getElem? hc)
  unfold sound
  split
  case h_27 =>
    simp only [List.mem_cons, List.not_mem_nil, or_false, not_or] at pplain
    simp only [good, List.mem_cons, List.not_mem_nil, or_false, not_or]
    grind
  all_goals try simp only [soundGH, soundW, soundR, soundL, soundY]
  all_goals (repeat' split)
  all_goals simp [good]

theorem sounds_good (v : Version) {w : Str} (hw : Plain w) : ∀ s ∈ soundsFrom v [] w, good s := by
  intro s hs
  obtain ⟨n, hn⟩ := List.mem_iff_getElem?.1 hs
  rw [soundsFrom_get] at hn
  rcases hc : w[n]? with _ | c
  · rw [hc] at hn; simp at hn
  · rw [hc] at hn
    simp only [Option.map_some, List.nil_append, Option.some.injEq] at hn
    rw [← hn]; exact sound_good v hw hc

/-- Sounds that are heard once. -/
def active (s : Sound) : Prop := s ∈ c!"STPKFMN".map Sound.letter

theorem active_iff (s : Sound) : active s ↔ s = .letter 'S' ∨ s = .letter 'T' ∨ s = .letter 'P' ∨ s = .letter 'K' ∨
    s = .letter 'F' ∨ s = .letter 'M' ∨ s = .letter 'N' := by simp [active]

theorem sym_active {s : Sound} (h : active s) : compactChars.contains (sym s) = true ∧ asciiUpper (sym s) = out s := by
  rw [active_iff] at h
  rcases h with rfl | rfl | rfl | rfl | rfl | rfl | rfl <;> decide

theorem sym_inactive {s : Sound} (h : ¬ active s) (hg : good s) : compactChars.contains (sym s) = false ∧ sym s = out s := by
  cases s with
  | silent => decide
  | vowel => decide
  | letter c =>
    rw [active_iff] at h
    simp only [Sound.letter.injEq, not_or] at h
    simp only [good, List.mem_cons, List.not_mem_nil, or_false, not_or] at hg
    have : sym (.letter c) = c := by
      simp only [sym, List.mem_cons, List.not_mem_nil, or_false]
      rw [if_neg (by grind)]
    rw [this]
    refine ⟨?_, rfl⟩
    simp only [compactChars]
    simp [hg]

theorem sym_inj {a b : Sound} (ha : active a) (hb : active b) (h : sym a = sym b) : a = b := by
  rw [active_iff] at ha hb
  rcases ha with rfl | rfl | rfl | rfl | rfl | rfl | rfl <;>
    rcases hb with rfl | rfl | rfl | rfl | rfl | rfl | rfl <;> first | rfl | exact absurd h (by decide)

instance (s : Sound) : Decidable (active s) := by unfold active; infer_instance

theorem once_cons2 (a b : Sound) (r : List Sound) :
    once (a :: b :: r) = if a = b ∧ active a then once (b :: r) else a :: once (b :: r) := by
  rw [once]; rfl

theorem once_compact (S : List Sound) (a : Sound) (hS : ∀ s ∈ S, good s) :
    (once (a :: S)).map out =
      out a :: compactLoop compactChars (if active a then some (sym a) else none) (S.map sym) := by
  induction S generalizing a with
  | nil => simp [once, compactLoop]
  | cons b S ih =>
    have hb : good b := hS b (by simp)
    have ihb := ih b (fun s hs => hS s (by simp [hs]))
    rw [once_cons2, List.map_cons]
    by_cases hab : a = b ∧ active a
    · obtain ⟨rfl, ha⟩ := hab
      rw [if_pos ⟨rfl, ha⟩, ihb, if_pos ha, compactLoop_active _ (sym_active ha).1, if_pos rfl]
    · rw [if_neg hab, List.map_cons, ihb]
      by_cases hb' : active b
      · rw [if_pos hb', compactLoop_active _ (sym_active hb').1, if_neg, (sym_active hb').2]
        by_cases ha : active a
        · rw [if_pos ha, Option.some.injEq]
          exact fun h => hab ⟨sym_inj ha hb' h, ha⟩
        · rw [if_neg ha]; simp
      · rw [compactLoop_inert _ (sym_inactive hb' hb).1, if_neg hb', (sym_inactive hb' hb).2]

theorem compact_sounds (S : List Sound) (hS : ∀ s ∈ S, good s) : compact (S.map sym) = (once S).map out := by
  cases S with
  | nil => rfl
  | cons a S =>
    rw [once_compact S a (fun s hs => hS s (by simp [hs]))]
    unfold compact replaceCompactAllToUppercase
    have ha := hS a (by simp)
    rw [List.map_cons]
    by_cases hact : active a
    · rw [compactLoop_active _ (sym_active hact).1, if_neg (by simp), if_pos hact, (sym_active hact).2]
    · rw [compactLoop_inert _ (sym_inactive hact ha).1, if_neg hact, (sym_inactive hact ha).2]

theorem mem_once {s : Sound} {S : List Sound} (h : s ∈ once S) : s ∈ S := by
  induction S with
  | nil => simp [once] at h
  | cons a S ih =>
    cases S with
    | nil => simpa [once] using h
    | cons b S =>
      rw [once] at h
      split at h
      · exact List.mem_cons_of_mem _ (ih h)
      · rcases List.mem_cons.1 h with rfl | h
        · simp
        · exact List.mem_cons_of_mem _ (ih h)

theorem written_out {s : Sound} (hg : good s) : written s = ([out s].filter (· ≠ '2')).filter (· ≠ '3') := by
  cases s with
  | silent => rfl
  | vowel => rfl
  | letter c =>
    simp only [good, List.mem_cons, List.not_mem_nil, or_false, not_or] at hg
    simp [written, out, hg]

theorem erase_out (S : List Sound) (hS : ∀ s ∈ S, good s) :
    ((S.map out).filter (· ≠ '2')).filter (· ≠ '3') = S.flatMap written := by
  induction S with
  | nil => rfl
  | cons a S ih =>
    rw [List.flatMap_cons, ← ih (fun s hs => hS s (by simp [hs])), written_out (hS a (by simp)), List.map_cons]
    rw [show out a :: S.map out = [out a] ++ S.map out from rfl, List.filter_append, List.filter_append]

theorem erase_silent (S : List Sound) (hS : ∀ s ∈ S, good s) :
    (S.map out).filter (· ≠ '2') = (S.filter (· ≠ .silent)).map out := by
  induction S with
  | nil => rfl
  | cons a S ih =>
    have ih := ih (fun s hs => hS s (by simp [hs]))
    have ha := hS a (by simp)
    have : (out a ≠ '2') ↔ a ≠ .silent := by
      cases a with
      | silent => simp [out]
      | vowel => simp [out]
      | letter c =>
        simp only [good, List.mem_cons, List.not_mem_nil, or_false, not_or] at ha
        simp [out, ha]
    rw [List.map_cons, List.filter_cons, List.filter_cons]
    by_cases h : a = .silent
    · rw [if_neg (by simpa using fun h' => this.1 h' h), if_neg (by simp [h]), ih]
    · rw [if_pos (by simpa using this.2 h), if_pos (by simp [h]), ih, List.map_cons]

theorem code1 {w : Str} (hw : Plain w) : Caverphone1.vowels (cavConsonants (Caverphone1.prefixes w)) = code .v1 w := by
  have X := text1_ok hw
  rw [vowels1_eq]
  generalize replaceChar (replaceChar (cavConsonants (Caverphone1.prefixes w)) vowelStartF) vowelF = t at *
  have L := late1_ok t
  have hT := ext_sounds (v := .v1) (w := w) (t := late1 t) (fun i => by rw [L.none, X.none]) (fun n c hc => sound1_ok hw X hc)
  have hgood := sounds_good .v1 hw
  rw [hT, compact_sounds _ hgood, replaceAll_single_nil, replaceAll_single_nil,
    erase_out _ (fun s hs => hgood s (mem_once hs))]
  rfl

theorem getLast_out (S : List Sound) (hS : ∀ s ∈ S, good s) : (S.map out).getLast? = some '3' ↔ S.getLast? = some .vowel := by
  rcases List.eq_nil_or_concat S with rfl | ⟨l, a, rfl⟩
  · simp
  · rw [List.concat_eq_append] at *
    have ha := hS a (by simp)
    simp only [List.map_append, List.map_cons, List.map_nil, List.getLast?_append, List.getLast?_singleton, Option.some_or,
      Option.some.injEq]
    cases a with
    | silent => simp [out]
    | vowel => simp [out]
    | letter c =>
      simp only [good, List.mem_cons, List.not_mem_nil, or_false, not_or] at ha
      simp [out, ha]

theorem replaceEnd_last (t : Str) (p : Char) (to : Str) :
    replaceEnd t [p] to = if t.getLast? = some p then t.dropLast ++ to else t := by
  unfold replaceEnd
  rcases List.eq_nil_or_concat t with rfl | ⟨l, a, rfl⟩
  · rfl
  · rw [List.concat_eq_append]
    by_cases h : a = p
    · subst h
      rw [if_pos (by simp [endsWith]), if_pos (by simp), List.dropLast_concat,
        show (l ++ [a]).length - [a].length = l.length by simp, List.take_left' rfl]
    · rw [if_neg, if_neg (by simpa using h)]
      simp only [endsWith, List.isSuffixOf_iff_suffix]
      rintro ⟨m, hm⟩
      have := (List.append_inj' hm rfl).2
      simp at this; exact h this.symm

theorem erase_vowels (R : List Sound) (hR : ∀ s ∈ R, good s) (hRs : ∀ s ∈ R, s ≠ .silent) :
    (R.map out).filter (· ≠ '3') = R.flatMap written := by
  rw [← erase_out R hR]
  congr 1
  symm
  rw [List.filter_eq_self]
  intro c hc
  obtain ⟨s, hs, rfl⟩ := List.mem_map.1 hc
  have h1 := hR s hs
  have h2 := hRs s hs
  cases s with
  | silent => exact absurd rfl h2
  | vowel => decide
  | letter c =>
    simp only [good, List.mem_cons, List.not_mem_nil, or_false, not_or] at h1
    simp [out, h1]

theorem finish2 (R : List Sound) (hH : ∀ s ∈ R, good s) (hN : ∀ s ∈ R, s ≠ .silent) :
    (replaceEnd (R.map out) c!"3" c!"A").filter (· ≠ '3') =
      R.flatMap written ++ if R.getLast? = some .vowel then c!"A" else [] := by
  rw [replaceEnd_last]
  by_cases hl : R.getLast? = some .vowel
  · rw [if_pos ((getLast_out R hH).2 hl), if_pos hl]
    rcases List.eq_nil_or_concat R with rfl | ⟨l, a, rfl⟩
    · simp at hl
    · rw [List.concat_eq_append] at *
      simp at hl
      subst hl
      rw [List.map_append, List.map_cons, List.map_nil, List.dropLast_concat, List.filter_append,
        erase_vowels l (fun s hs => hH s (by simp [hs])) (fun s hs => hN s (by simp [hs])), List.flatMap_append]
      simp [written]
  · rw [if_neg (fun h => hl ((getLast_out R hH).1 h)), if_neg hl, erase_vowels R hH hN, List.append_nil]

theorem code2 {w : Str} (hw : Plain w) : Caverphone2.vowels (cavConsonants (Caverphone2.prefixes w)) = code .v2 w := by
  have hdrop : replaceEnd w c!"e" [] = if w.getLast? = some 'e' then w.dropLast else w := by
    rw [replaceEnd_last]; simp
  have hw' : Plain (replaceEnd w c!"e" []) := by
    rw [hdrop]
    intro c hc
    split at hc
    · exact hw c (List.dropLast_subset _ hc)
    · exact hw c hc
  have X := text2_ok hw'
  rw [vowels2_eq]
  unfold code
  dsimp only
  rw [← hdrop]
  generalize mid2 (replaceChar (replaceChar (cavConsonants (Caverphone2.prefixes w)) vowelStartF) vowelF) = t at *
  generalize replaceEnd w c!"e" [] = w at *
  have L := late2_ok t
  have hT := ext_sounds (v := .v2) (w := w) (t := late2 t) (fun i => by rw [L.none, X.none]) (fun n c hc => sound2_ok hw' X hc)
  have hgood : ∀ s ∈ once (soundsFrom .v2 [] w), good s := fun s hs => sounds_good .v2 hw' s (mem_once hs)
  rw [hT, compact_sounds _ (sounds_good .v2 hw'), replaceAll_single_nil, replaceAll_single_nil, erase_silent _ hgood]
  exact finish2 _ (fun s hs => hgood s (List.mem_filter.1 hs).1) (fun s hs => by simpa using (List.mem_filter.1 hs).2)

theorem plain_letters (U : Unicode) (s : Str) : Plain (s.filter U.isLowercase) := by
  intro c hc hm
  have h := (List.mem_filter.1 hc).2
  have ha : isAscii c = true := by
    simp only [List.mem_cons, List.not_mem_nil, or_false] at hm
    rcases hm with rfl | rfl | rfl | rfl | rfl | rfl | rfl | rfl | rfl | rfl | rfl | rfl | rfl | rfl <;> decide
  rw [U.isLowercase_ascii c ha] at h
  simp only [List.mem_cons, List.not_mem_nil, or_false] at hm
  rcases hm with rfl | rfl | rfl | rfl | rfl | rfl | rfl | rfl | rfl | rfl | rfl | rfl | rfl | rfl <;> exact absurd h (by decide)

theorem body1 (U : Unicode) (s : Str) : Caverphone1.body U s = code .v1 ((U.strLower s).filter U.isLowercase) :=
  code1 (plain_letters U _)

theorem body2 (U : Unicode) (s : Str) : Caverphone2.body U s = code .v2 ((U.strLower s).filter U.isLowercase) :=
  code2 (plain_letters U _)

end Verif.CavSpec
