import Verif.Props.CodesSoundex
import Verif.Props.MetaphoneUnicode
/-!
# C93: which strings are codes (Metaphone)
-/

set_option linter.unusedSimpArgs false

namespace Verif.Props
open Spec

namespace CodeProofs
open MetaphoneProofs

theorem metaShape_nil : MetaphoneCode [] := ⟨[], [], rfl, by simp, by simp, by simp⟩

theorem metaShape_append {w x : Str} (h : MetaphoneCode w) (hx : ∀ y ∈ x, y ∈ c!"0BFHJKLMNPRSTWXY") :
    MetaphoneCode (w ++ x) := by
  obtain ⟨a, b, rfl, h1, h2, h3⟩ := h
  refine ⟨a, b ++ x, by simp, h1, h2, ?_⟩
  intro y hy
  rcases List.mem_append.mp hy with hy | hy
  · exact h3 y hy
  · exact hx y hy

theorem metaShape_take {w : Str} (h : MetaphoneCode w) (n : Nat) : MetaphoneCode (w.take n) := by
  obtain ⟨a, b, rfl, h1, h2, h3⟩ := h
  rw [List.take_append]
  exact ⟨_, _, rfl, by simp only [List.length_take]; omega, fun x hx => h2 x (List.mem_of_mem_take hx),
    fun x hx => h3 x (List.mem_of_mem_take hx)⟩

theorem alphabet_sub {x : Char} (h : metaAlphabet.contains x = true) : x ∈ c!"0BFHJKLMNPRSTWXY" := by
  have : ∀ x ∈ metaAlphabet, x ∈ c!"0BFHJKLMNPRSTWXY" := by decide
  exact this x (List.contains_iff_mem.mp h)

/-- What a letter writes at its place. -/
theorem letterAt_shape (w before : Str) (c : Char) (after x : Str) (h : metaLetterAt w before c after = some x) :
    (∀ y ∈ x, y ∈ c!"0BFHJKLMNPRSTWXY") ∨ (before = [] ∧ ∃ v ∈ c!"AEIOU", x = [v]) := by
  let M : Str → Prop := fun w => ∀ y ∈ w, y ∈ c!"0BFHJKLMNPRSTWXY"
  let P : Option Str → Prop := fun o => ∀ w, o = some w → M w
  have one : ∀ l : Str, l.all (c!"0BFHJKLMNPRSTWXY".contains ·) = true → M l :=
    fun l hl x hx => List.contains_iff_mem.mp (List.all_eq_true.mp hl x hx)
  have some1 : ∀ l : Str, M l → P (some l) := fun l hl w hw => by cases hw; exact hl
  have map1 : ∀ (o : Option Str) (f : Str → Str), (∀ p, M (f p)) → P (o.map f) := by
    intro o f hf w hw
    cases o with
    | none => cases hw
    | some p => cases hw; exact hf p
  by_cases hB : c = 'B' ∨ c = 'C' ∨ c = 'G' ∨ c = 'S' ∨ c = 'T'
  · left
    have : P (metaLetterAt w before c after) := by
      unfold metaLetterAt
      rcases hB with rfl | rfl | rfl | rfl | rfl <;> dsimp only <;>
      repeat' first
        | exact one _ rfl
        | refine some1 _ ?_
        | refine map1 _ _ fun p => ?_
        | refine ite_ind P (fun _ => ?_) (fun _ => ?_)
        | refine ite_ind M (fun _ => ?_) (fun _ => ?_)
        | (exfalso; contradiction)
    exact this x h
  · have hn : c ≠ 'B' ∧ c ≠ 'C' ∧ c ≠ 'G' ∧ c ≠ 'S' ∧ c ≠ 'T' := by grind
    unfold metaLetterAt at h
    rw [if_neg hn.1, if_neg hn.2.1, if_neg hn.2.2.1, if_neg hn.2.2.2.1, if_neg hn.2.2.2.2] at h
    have h := Option.some.inj h
    rcases metaLetter_alphabet before c after with h' | ⟨hb, hv, he⟩
    · left
      rw [← h]
      exact fun y hy => alphabet_sub (h' y hy)
    · exact .inr ⟨hb, c, List.contains_iff_mem.mp hv, by rw [← h, he]⟩

theorem pieces_shape (w : Str) (after : Str) : ∀ before, before ≠ [] → ∀ p ∈ metaPieces w before after, ∀ x, p = some x →
    ∀ y ∈ x, y ∈ c!"0BFHJKLMNPRSTWXY" := by
  induction after with
  | nil => intro before _ p hp; simp [metaPieces] at hp
  | cons c after ih =>
    intro before hb p hp x hx
    rw [metaPieces] at hp
    rcases List.mem_cons.mp hp with hp | hp
    · subst hp
      split at hx
      · cases hx; simp
      · rcases letterAt_shape _ _ _ _ _ hx with h | ⟨h, _⟩
        · exact h
        · exact absurd h hb
    · exact ih (c :: before) (by simp) p hp x hx

theorem write_shape (limit : Option Nat) (ps : List (Option Str)) : ∀ (code : Str), MetaphoneCode code →
    (∀ p ∈ ps, ∀ x, p = some x → ∀ y ∈ x, y ∈ c!"0BFHJKLMNPRSTWXY") → ∀ r, writePieces limit code ps = some r →
    MetaphoneCode r := by
  induction ps with
  | nil => intro code hc _ r hr; cases hr; exact hc
  | cons p ps ih =>
    intro code hc hp r hr
    cases p with
    | none =>
      simp only [writePieces] at hr
      split at hr
      · cases hr; exact hc
      · cases hr
    | some x =>
      simp only [writePieces] at hr
      split at hr
      · cases hr; exact hc
      ·
        have hx := metaShape_append hc (hp _ (by simp) x rfl)
        refine ih _ ?_ (fun q hq => hp q (by simp [hq])) r hr
        cases limit with
        | none => exact hx
        | some n => exact metaShape_take hx n

theorem any_shape (limit : Option Nat) (text r : Str) (h : metaphoneAny limit text = some r) : MetaphoneCode r := by
  unfold metaphoneAny at h
  cases hw : metaInitial text with
  | nil => rw [hw] at h; cases h; exact metaShape_nil
  | cons c after =>
    rw [hw, metaPieces] at h
    generalize hx : (if metaAbsorbed [] c after ∨ (c ≠ 'C' ∧ [c] <+: []) then some []
     else metaLetterAt (c :: after) [] c after) = p at h
    cases p with
    | none =>
      simp only [writePieces] at h
      split at h
      · cases h; exact metaShape_nil
      · cases h
    | some x =>
      simp only [writePieces] at h
      split at h
      · cases h; exact metaShape_nil
      ·
        have hs : MetaphoneCode x := by
          split at hx
          · cases hx; exact metaShape_nil
          · rcases letterAt_shape _ _ _ _ _ hx with h | ⟨_, v, hv, rfl⟩
            · exact ⟨[], x, rfl, by simp, by simp, h⟩
            · exact ⟨[v], [], rfl, by simp, by simpa using hv, by simp⟩
        refine write_shape _ _ _ ?_ (pieces_shape _ _ _ (by simp)) r h
        cases limit with
        | none => simpa using hs
        | some n => simpa using metaShape_take hs n

/-- A syllable for each character of a code. -/
def metaSyllable (x : Char) : Str := if x = '0' then c!"THA" else if x = 'X' then c!"SHA" else [x, 'A']

theorem syllable_codes (x : Char) (hx : x ∈ c!"0BFHJKLMNPRSTWXY") (before rest : Str)
    (hb : before = [] ∨ ∃ b, before = 'A' :: b) :
    ∃ b, metaCodes before (metaSyllable x ++ rest) = x :: metaCodes ('A' :: b) rest := by
  refine ⟨(metaSyllable x).dropLast.reverse ++ before, ?_⟩
  simp only [List.mem_cons, List.not_mem_nil, or_false] at hx
  rcases hb with rfl | ⟨b, rfl⟩ <;>
    rcases hx with rfl | rfl | rfl | rfl | rfl | rfl | rfl | rfl | rfl | rfl | rfl | rfl | rfl | rfl | rfl | rfl <;>
    simp [metaSyllable, metaCodes, metaLetter, metaAbsorbed, startsIn, startsVowel, plainD]

theorem syllables_codes (ds : Str) (hd : ∀ x ∈ ds, x ∈ c!"0BFHJKLMNPRSTWXY") : ∀ before,
    (before = [] ∨ ∃ b, before = 'A' :: b) → metaCodes before (ds.flatMap metaSyllable) = ds := by
  induction ds with
  | nil => intros; rfl
  | cons d r ih =>
    intro before hb
    simp only [List.flatMap_cons]
    obtain ⟨b, h⟩ := syllable_codes d (hd d (by simp)) before (r.flatMap metaSyllable) hb
    rw [h, ih (fun x hx => hd x (by simp [hx])) _ (Or.inr ⟨b, rfl⟩)]

/-- A word with the code. -/
def metaWord (first rest : Str) : Str := first ++ (if first = [] then [] else c!"A") ++ rest.flatMap metaSyllable

theorem syllable_caps : ∀ x ∈ c!"0BFHJKLMNPRSTWXY", ∀ c ∈ metaSyllable x, isAsciiUpper c = true := by decide +kernel

theorem syllable_start (x : Char) (hx : x ∈ c!"0BFHJKLMNPRSTWXY") (rest : Str) :
    metaInitial (metaSyllable x ++ rest) = metaSyllable x ++ rest ∧ (metaSyllable x ++ rest).length ≠ 1 := by
  simp only [List.mem_cons, List.not_mem_nil, or_false] at hx
  rcases hx with rfl | rfl | rfl | rfl | rfl | rfl | rfl | rfl | rfl | rfl | rfl | rfl | rfl | rfl | rfl | rfl <;>
    simp [metaSyllable, metaInitial]

theorem word_spec (first rest : Str) (h1 : first.length ≤ 1) (hf : ∀ x ∈ first, x ∈ c!"AEIOU")
    (hr : ∀ x ∈ rest, x ∈ c!"0BFHJKLMNPRSTWXY") :
    (∀ c ∈ metaWord first rest, isAsciiUpper c = true) ∧ (metaWord first rest).length ≠ 1 ∧
    metaphone (metaWord first rest) = first ++ rest := by
  have hcaps : ∀ c ∈ rest.flatMap metaSyllable, isAsciiUpper c = true := by
    intro c hc
    obtain ⟨d, hx, hc⟩ := List.mem_flatMap.mp hc
    exact syllable_caps d (hr d hx) c hc
  match first, h1 with
  | [], _ =>
    simp only [metaWord, List.nil_append, if_true]
    cases rest with
    | nil => simp [metaphone, metaInitial, metaCodes]
    | cons d r =>
      have hs := syllable_start d (hr d (by simp)) (r.flatMap metaSyllable)
      refine ⟨hcaps, by simpa using hs.2, ?_⟩
      unfold metaphone
      have e : (d :: r).flatMap metaSyllable = metaSyllable d ++ r.flatMap metaSyllable := by simp
      rw [e, if_neg hs.2, hs.1, ← e]
      exact syllables_codes _ hr [] (Or.inl rfl)
  | [v], _ =>
    have hv := hf v (by simp)
    have ew : metaWord [v] rest = v :: 'A' :: rest.flatMap metaSyllable := by simp [metaWord]
    rw [ew]
    refine ⟨?_, by simp, ?_⟩
    · intro c hc
      have : ∀ v ∈ c!"AEIOU", isAsciiUpper v = true := by decide
      simp only [List.mem_cons] at hc
      rcases hc with rfl | rfl | hc
      · exact this _ hv
      · decide
      · exact hcaps c hc
    · unfold metaphone
      rw [if_neg (by simp)]
      have hrest := syllables_codes rest hr ('A' :: [v]) (Or.inr ⟨_, rfl⟩)
      simp only [List.mem_cons, List.not_mem_nil, or_false] at hv
      rcases hv with rfl | rfl | rfl | rfl | rfl <;>
        simp [metaInitial, metaCodes, metaLetter, metaAbsorbed, startsIn, startsVowel, plainD, hrest]
  | a :: b :: t, h => simp at h

end CodeProofs

open CodeProofs

/-- C93. The Metaphone codes within a limit are exactly the strings of the shape `MetaphoneCode` within the limit, for
texts whose upper case is not a single byte (a single byte is its own code: `metaphone_one_letter`); each is the code of
an ASCII word. -/
theorem metaphone_codes (U : Unicode) (max : Option Nat) (code : Str) :
    ((∃ s, byteLen (U.strUpper s) ≠ 1 ∧ (Metaphone.new max).encode U s = .ok code) ↔ MetaphoneCode code ∧ Within max code) ∧
    ((∃ s, AsciiStr s ∧ s.length ≠ 1 ∧ (Metaphone.new max).encode U s = .ok code) ↔
      MetaphoneCode code ∧ Within max code) := by
  have h1 : (∃ s, byteLen (U.strUpper s) ≠ 1 ∧ (Metaphone.new max).encode U s = .ok code) →
      MetaphoneCode code ∧ Within max code := by
    rintro ⟨s, hs, h⟩
    refine ⟨any_shape max _ _ (((metaphone_any U max s hs).1 code).mp h), ?_⟩
    rintro n rfl
    exact (metaphone_limit U s n code hs h).1
  have h2 : MetaphoneCode code ∧ Within max code →
      ∃ s, AsciiStr s ∧ s.length ≠ 1 ∧ (Metaphone.new max).encode U s = .ok code := by
    rintro ⟨⟨first, rest, rfl, hf, hv, hr⟩, hw⟩
    obtain ⟨wc, wl, wm⟩ := word_spec first rest hf hv hr
    refine ⟨_, upper_ascii wc, wl, ?_⟩
    have := metaphone_eq_spec U _ (upper_ascii wc)
    rw [map_upper wc, wm] at this
    cases max with
    | none => exact this.1
    | some n => rw [this.2 n (.inl wl), List.take_of_length_le (hw n rfl)]
  have h3 : (∃ s, AsciiStr s ∧ s.length ≠ 1 ∧ (Metaphone.new max).encode U s = .ok code) →
      ∃ s, byteLen (U.strUpper s) ≠ 1 ∧ (Metaphone.new max).encode U s = .ok code := by
    rintro ⟨s, hs, hl, h⟩
    refine ⟨s, ?_, h⟩
    rw [byteLen_ascii (asciiStr_strUpper U hs), strUpper_ascii U hs, List.length_map]
    exact hl
  exact ⟨⟨h1, fun h => h3 (h2 h)⟩, ⟨fun h => h1 (h3 h), h2⟩⟩

example : MetaphoneCode c!"E0XY" ∧ Within (some 4) c!"E0XY" :=
  ⟨⟨c!"E", c!"0XY", rfl, by decide, by decide, by decide⟩, by rintro n hn; cases hn; decide⟩

end Verif.Props
