import Verif.Proofs.BMSets
import Verif.Spec.BMLanguages
/-!
# Properties of language sets, phonemes, enumerations and the guessing of languages (C41, C42, C46, C47)
-/

namespace Verif.Props
open BM Spec BMProofs

/-! ## C41: language sets -/

/-- C41. `restrict_to` is intersection. -/
theorem languageSet_restrictTo (a b : LanguageSet) (l : Str) :
    Denotes (a.restrictTo b) l ↔ Denotes a l ∧ Denotes b l := by
  cases a <;> cases b <;> simp [LanguageSet.restrictTo, Denotes, StrSet.inter]

theorem mem_union (a b : StrSet) (l : Str) : l ∈ a.union b ↔ l ∈ a ∨ l ∈ b := by
  have := foldl_setInsert_keys id strCmp strSet_cmp b a l
  simpa [StrSet.union] using this

/-- C41. `merge` is union. -/
theorem languageSet_merge (a b : LanguageSet) (l : Str) :
    Denotes (a.merge b) l ↔ Denotes a l ∨ Denotes b l := by
  cases a <;> cases b <;> simp [LanguageSet.merge, Denotes, mem_union]

/-- C41. `restrict_to` and `merge` yield proper sets again. -/
theorem languageSet_wf (a b : LanguageSet) (ha : LanguageSetWF a) (hb : LanguageSetWF b) :
    LanguageSetWF (a.restrictTo b) ∧ LanguageSetWF (a.merge b) := by
  cases a <;> cases b <;> simp only [LanguageSet.restrictTo, LanguageSet.merge, LanguageSetWF] at * <;>
    try exact ⟨trivial, trivial⟩
  · exact ⟨hb, trivial⟩
  · exact ⟨trivial, hb⟩
  · exact ⟨ha, trivial⟩
  · exact ⟨trivial, ha⟩
  · exact ⟨List.Pairwise.filter _ ha, foldl_setInsert_sorted id strCmp strSet_cmp _ _ ha⟩

/-- C41. `is_empty` says that no language is denoted. -/
theorem languageSet_isEmpty (a : LanguageSet) : a.isEmpty = true ↔ ∀ l, ¬ Denotes a l := by
  cases a with
  | any => simp [LanguageSet.isEmpty, Denotes]
  | noLanguages => simp [LanguageSet.isEmpty, Denotes]
  | someLanguages s =>
    simp only [LanguageSet.isEmpty, Denotes]
    cases s with
    | nil => simp
    | cons x xs => simp only [List.isEmpty_cons, Bool.false_eq_true, false_iff]; exact fun h => h x (by simp)

/-- C41. `is_singleton` says that exactly one language is denoted. -/
theorem languageSet_isSingleton (a : LanguageSet) (ha : LanguageSetWF a) :
    a.isSingleton = true ↔ ∃ l, ∀ x, Denotes a x ↔ x = l := by
  cases a with
  | any =>
    simp only [LanguageSet.isSingleton, Denotes, Bool.false_eq_true, false_iff]
    rintro ⟨l, h⟩
    have h1 := (h []).mp trivial
    have h2 := (h ['a']).mp trivial
    rw [← h1] at h2
    exact absurd h2 (by simp)
  | noLanguages =>
    simp only [LanguageSet.isSingleton, Denotes, Bool.false_eq_true, false_iff]
    rintro ⟨l, h⟩
    exact h l rfl
  | someLanguages s =>
    simp only [LanguageSet.isSingleton, Denotes]
    match s, ha with
    | [], _ =>
      simp only [List.length_nil, List.not_mem_nil, false_iff]
      constructor
      · intro h; exact absurd h (by decide)
      · rintro ⟨l, h⟩; exact absurd rfl (h l)
    | [x], _ => simpa using ⟨x, fun y => Iff.rfl⟩
    | x :: y :: r, ha =>
      constructor
      · intro h; simp at h
      · rintro ⟨l, h⟩
        have h1 := (h x).mp (by simp)
        have h2 := (h y).mp (by simp)
        have := (List.pairwise_cons.mp ha).1 y (by simp)
        rw [h1, h2] at this
        exact absurd this (List.lt_irrefl _)

/-- C41. `any` returns the least language of a finite set, and nothing for `Any` or when there is none. -/
theorem languageSet_any (a : LanguageSet) (ha : LanguageSetWF a) (l : Str) :
    a.first = some l ↔ a ≠ .any ∧ Denotes a l ∧ ∀ x, Denotes a x → x = l ∨ l < x := by
  cases a with
  | any => simp [LanguageSet.first]
  | noLanguages => simp [LanguageSet.first, Denotes]
  | someLanguages s =>
    simp only [LanguageSet.first, Denotes, ne_eq, reduceCtorEq, not_false_eq_true, true_and]
    cases s with
    | nil => simp
    | cons y ys =>
      have hp := List.pairwise_cons.mp ha
      simp only [List.head?_cons, Option.some.injEq]
      constructor
      · rintro rfl
        refine ⟨by simp, fun x hx => ?_⟩
        rcases List.mem_cons.mp hx with h | h
        · exact .inl h
        · exact .inr (hp.1 x h)
      · rintro ⟨h1, h2⟩
        rcases List.mem_cons.mp h1 with h | h
        · exact h.symm
        · rcases h2 y (by simp) with h3 | h3
          · exact h3
          · exact absurd (List.lt_trans h3 (hp.1 l h)) (List.lt_irrefl _)

/-- C41. Two language sets that denote the same languages are equal, except that the empty set has two
representations (`NoLanguages`, and `SomeLanguages` of nothing). -/
theorem languageSet_ext (a b : LanguageSet) (ha : LanguageSetWF a) (hb : LanguageSetWF b)
    (h : ∀ l, Denotes a l ↔ Denotes b l) : a = b ∨ (a.isEmpty = true ∧ b.isEmpty = true) := by
  have fin : ∀ s : StrSet, ¬ ∀ l, l ∈ s := by
    intro s hs
    have key : ∀ n, ∃ l : Str, l.length ≥ n ∧ l ∈ s := fun n => ⟨List.replicate n 'a', by simp, hs _⟩
    have bound : ∀ l ∈ s, l.length ≤ (s.map List.length).sum := by
      clear hs key
      induction s with
      | nil => simp
      | cons x xs ih =>
        intro l hl
        rcases List.mem_cons.mp hl with rfl | hl
        · simp
        · have := ih l hl; simp; omega
    obtain ⟨l, h1, h2⟩ := key ((s.map List.length).sum + 1)
    have := bound l h2
    omega
  cases a with
  | any =>
    cases b with
    | any => exact .inl rfl
    | noLanguages => exact absurd ((h []).mp trivial) id
    | someLanguages s => exact absurd (fun l => (h l).mp trivial) (fin s)
  | noLanguages =>
    cases b with
    | any => exact absurd ((h []).mpr trivial) id
    | noLanguages => exact .inl rfl
    | someLanguages s =>
      refine .inr ⟨rfl, (languageSet_isEmpty _).mpr fun l hl => (h l).mpr hl⟩
  | someLanguages s =>
    cases b with
    | any => exact absurd (fun l => (h l).mpr trivial) (fin s)
    | noLanguages => exact .inr ⟨(languageSet_isEmpty _).mpr fun l hl => (h l).mp hl, rfl⟩
    | someLanguages t => exact .inl (congrArg _ (sorted_ext (key := id) ha hb h))

/-- The hypotheses hold of a concrete set; intersection and union of two concrete sets. -/
example : LanguageSetWF (.ofVec [c!"polish", c!"english"]) ∧
    (LanguageSet.ofVec [c!"polish", c!"english"]).restrictTo (.ofVec [c!"english", c!"french"]) =
      .someLanguages [c!"english"] ∧
    (LanguageSet.ofVec [c!"polish"]).merge (.ofVec [c!"english"]) =
      .someLanguages [c!"english", c!"polish"] := by
  refine ⟨setOfList_sorted id strCmp strSet_cmp _, ?_, ?_⟩ <;> decide +kernel

/-! ## C42: guessing -/

theorem mem_guessLoop (R : RegexEngine) (input : Str) (rules : List LangRule) (langs : StrSet) (l : Str) :
    l ∈ guessLoop R input langs rules ↔
      l ∈ langs ∧ Passes (fun r => R.isMatch r.pattern input) rules l := by
  induction rules generalizing langs with
  | nil => simp [guessLoop, Passes]
  | cons r rs ih =>
    have e : guessLoop R input langs (r :: rs) = guessLoop R input
        (if R.isMatch r.pattern input then
          if r.acceptOnMatch then langs.inter r.languages else langs.diff r.languages
        else langs) rs := rfl
    rw [e, ih]
    simp only [Passes, List.forall_mem_cons]
    cases hm : R.isMatch r.pattern input <;> cases ha : r.acceptOnMatch <;>
      simp [StrSet.inter, StrSet.diff, and_assoc]

/-- The expected result of guessing: the supported languages that pass every matching rule, or `Any` if
there is none. -/
theorem guess_eq (U : Unicode) (R : RegexEngine) (lang : Lang) (input : Str) :
    lang.guessLanguages U R input =
      if (guessLoop R (U.strLower input) lang.languages lang.rules) = [] then .any
      else .someLanguages (guessLoop R (U.strLower input) lang.languages lang.rules) := by
  unfold Lang.guessLanguages
  dsimp only
  generalize guessLoop R (U.strLower input) lang.languages lang.rules = g
  cases g <;> simp [LanguageSet.ofSet]

/-- C42. If some supported language passes every rule that matches the lower-cased word, the languages
guessed are exactly these. -/
theorem guess_some (U : Unicode) (R : RegexEngine) (lang : Lang) (input : Str)
    (h : ∃ l ∈ lang.languages, Passes (fun r => R.isMatch r.pattern (U.strLower input)) lang.rules l) :
    lang.guessLanguages U R input ≠ .any ∧
    ∀ l, Denotes (lang.guessLanguages U R input) l ↔
      l ∈ lang.languages ∧ Passes (fun r => R.isMatch r.pattern (U.strLower input)) lang.rules l := by
  rw [guess_eq]
  have hne : guessLoop R (U.strLower input) lang.languages lang.rules ≠ [] := by
    obtain ⟨l, h1, h2⟩ := h
    intro he
    have := (mem_guessLoop R (U.strLower input) lang.rules lang.languages l).mpr ⟨h1, h2⟩
    rw [he] at this
    simp at this
  rw [if_neg hne]
  exact ⟨by simp, fun l => mem_guessLoop R _ lang.rules lang.languages l⟩

/-- C42. If none does, every language is possible. -/
theorem guess_any (U : Unicode) (R : RegexEngine) (lang : Lang) (input : Str)
    (h : ∀ l ∈ lang.languages, ¬ Passes (fun r => R.isMatch r.pattern (U.strLower input)) lang.rules l) :
    lang.guessLanguages U R input = .any := by
  rw [guess_eq, if_pos]
  rw [List.eq_nil_iff_forall_not_mem]
  intro l hl
  have := (mem_guessLoop R (U.strLower input) lang.rules lang.languages l).mp hl
  exact h l this.1 this.2

theorem guessLoop_sorted (R : RegexEngine) (input : Str) (rules : List LangRule) (langs : StrSet)
    (h : StrSetWF langs) : StrSetWF (guessLoop R input langs rules) := by
  induction rules generalizing langs with
  | nil => exact h
  | cons r rs ih =>
    apply ih
    dsimp only
    split
    · split
      · exact List.Pairwise.filter _ h
      · exact List.Pairwise.filter _ h
    · exact h

/-- C42. The order of the rules, and repetitions of them, do not matter. -/
theorem guess_order (U : Unicode) (R : RegexEngine) (lang lang' : Lang) (input : Str)
    (hl : lang'.languages = lang.languages) (hw : StrSetWF lang.languages)
    (hr : ∀ r, r ∈ lang'.rules ↔ r ∈ lang.rules) :
    lang'.guessLanguages U R input = lang.guessLanguages U R input := by
  have e : guessLoop R (U.strLower input) lang'.languages lang'.rules =
      guessLoop R (U.strLower input) lang.languages lang.rules := by
    rw [hl]
    apply sorted_ext (key := id) (guessLoop_sorted R _ _ _ hw) (guessLoop_sorted R _ _ _ hw)
    intro l
    rw [mem_guessLoop, mem_guessLoop]
    simp only [Passes, hr]
  rw [guess_eq, guess_eq, e]

/-- C42. Only the lower-cased word counts. -/
theorem guess_case (U : Unicode) (R : RegexEngine) (lang : Lang) (s t : Str)
    (h : U.strLower s = U.strLower t) : lang.guessLanguages U R s = lang.guessLanguages U R t := by
  rw [guess_eq, guess_eq, h]

/-- The hypotheses hold of a concrete case: an accepting and a rejecting rule that match. -/
example : ∃ R : RegexEngine, ∃ lang : Lang,
    (∃ l ∈ lang.languages, Passes (fun r => R.isMatch r.pattern c!"zz") lang.rules l) ∧
    lang.guessLanguages Unicode.latin1 R c!"ZZ" = .someLanguages [c!"polish"] := by
  refine ⟨⟨fun _ => none, fun p s => p.isPrefixOf s⟩,
    ⟨[c!"any", c!"english", c!"polish"],
      [⟨1, true, [c!"english", c!"polish"], c!"z"⟩, ⟨2, false, [c!"english"], c!"zz"⟩,
        ⟨3, false, [c!"polish"], c!"x"⟩]⟩, ⟨c!"polish", by decide +kernel, ?_⟩, by decide +kernel⟩
  unfold Passes
  decide +kernel

/-! ## C46: enumerations -/

/-- C46. A name type is parsed from exactly its printed form. -/
theorem nameType_parse (s : Str) (n : NameType) : NameType.ofStr s = .ok n ↔ s = n.display := by
  unfold NameType.ofStr NameType.display
  constructor
  · intro h
    split at h
    · cases h; assumption
    · split at h
      · cases h; assumption
      · split at h
        · cases h; assumption
        · cases h
  · rintro rfl; cases n <;> decide

/-- C46. Every other text is reported as it is. -/
theorem nameType_parse_error (s : Str) (h : ∀ n : NameType, s ≠ n.display) :
    NameType.ofStr s = .error (.unknownNameType s) := by
  unfold NameType.ofStr
  have h1 : s ≠ c!"ash" := h .ashkenazi
  have h2 : s ≠ c!"gen" := h .generic
  have h3 : s ≠ c!"sep" := h .sephardic
  rw [if_neg h1, if_neg h2, if_neg h3]

/-- C46. The name type of a file of languages is that of its name. -/
theorem nameType_filename (s : Str) (n : NameType) :
    NameType.ofFilename s = .ok n ↔ s = n.display ++ c!"_languages.txt" := by
  unfold NameType.ofFilename NameType.languageFilename
  constructor
  · intro h
    split at h
    · cases h; assumption
    · split at h
      · cases h; assumption
      · split at h
        · cases h; assumption
        · cases h
  · rintro rfl; cases n <;> decide

/-- C46. A rule type is parsed from exactly its printed form. -/
theorem ruleType_parse (s : Str) (r : PrivateRuleType) : PrivateRuleType.ofStr s = .ok r ↔ s = r.display := by
  unfold PrivateRuleType.ofStr PrivateRuleType.display
  constructor
  · intro h
    split at h
    · cases h; assumption
    · split at h
      · cases h; assumption
      · split at h
        · cases h; assumption
        · cases h
  · rintro rfl; cases r <;> decide

/-- C46. Every other text is reported as it is. -/
theorem ruleType_parse_error (s : Str) (h : ∀ r : PrivateRuleType, s ≠ r.display) :
    PrivateRuleType.ofStr s = .error (.unknownRuleType s) := by
  unfold PrivateRuleType.ofStr
  have h1 : s ≠ c!"approx" := h .approx
  have h2 : s ≠ c!"exact" := h .exact
  have h3 : s ≠ c!"rules" := h .rules
  rw [if_neg h1, if_neg h2, if_neg h3]

/-- C46. The printed forms are those documented. -/
theorem printed_forms :
    NameType.all.map NameType.display = [c!"ash", c!"gen", c!"sep"] ∧
    PrivateRuleType.all.map PrivateRuleType.display = [c!"approx", c!"exact", c!"rules"] ∧
    (∀ n, n ∈ NameType.all) ∧ (∀ r, r ∈ PrivateRuleType.all) := by
  refine ⟨by decide, by decide, ?_, ?_⟩
  · intro n; cases n <;> decide
  · intro r; cases r <;> decide

/-! ## C47: the order of phonemes -/

/-- C47. A phoneme is smaller than another exactly when its text is smaller in the lexicographic order. -/
theorem phoneme_less (p q : Phoneme) : p.cmp q = .lt ↔ p.text < q.text := by
  rw [cmp_eq, strCmp_lt]

/-- C47. Phonemes compare equal exactly when their texts are equal. -/
theorem phoneme_equal (p q : Phoneme) : p.cmp q = .eq ↔ p.text = q.text := by
  rw [cmp_eq, strCmp_eq]

/-- C47. ... and greater when the text is greater. -/
theorem phoneme_greater (p q : Phoneme) : p.cmp q = .gt ↔ q.text < p.text := by
  rw [cmp_eq, strCmp_gt]

/-- C47. It is antisymmetric and transitive. -/
theorem phoneme_order (p q r : Phoneme) :
    (q.cmp p = (p.cmp q).swap) ∧ (p.cmp q = .lt → q.cmp r = .lt → p.cmp r = .lt) ∧
      (p.cmp q = .eq → p.cmp r = q.cmp r) := by
  refine ⟨?_, ?_, ?_⟩
  · rw [cmp_eq, cmp_eq, strCmp_swap]
  · simp only [phoneme_less]; exact List.lt_trans
  · rw [phoneme_equal, cmp_eq, cmp_eq]; intro h; rw [h]

/-- C47. The order disagrees with `==`: phonemes with the same text and different languages compare equal
although they are not equal. -/
theorem phoneme_order_ignores_languages :
    ∃ p q : Phoneme, p.cmp q = .eq ∧ p ≠ q :=
  ⟨⟨c!"a", .any⟩, ⟨c!"a", .noLanguages⟩, by decide, by decide⟩

end Verif.Props
