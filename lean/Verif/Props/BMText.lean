import Verif.Props.BMEncode
/-!
# Properties of Beider-Morse on one text (C45, C55, C81 to C83)
-/

set_option linter.unusedSimpArgs false

namespace Verif.Props
open BM Spec BMProofs

/-! ## Where the phonemes of the output come from -/

theorem choiceLanguages_denotes (ls : LanguageSet) (a : List Phoneme) (l : Str) :
    Denotes (choiceLanguages ls a) l ↔ Denotes ls l ∧ ∀ p ∈ a, Denotes p.languages l := by
  induction a generalizing ls with
  | nil => simp [choiceLanguages]
  | cons p a ih =>
    have := ih (ls.restrictTo p.languages)
    simp only [choiceLanguages, List.foldl_cons] at this ⊢
    rw [this]
    have hr : Denotes (ls.restrictTo p.languages) l ↔ Denotes ls l ∧ Denotes p.languages l := by
      cases ls <;> cases p.languages <;> simp [LanguageSet.restrictTo, Denotes, StrSet.inter]
    rw [hr]
    simp [and_assoc]

theorem nonempty_denotes {ls : LanguageSet} (h : ls.isEmpty = false) : ∃ l, Denotes ls l := by
  cases ls with
  | any => exact ⟨[], trivial⟩
  | noLanguages => cases h
  | someLanguages s =>
    cases s with
    | nil => cases h
    | cons a s => exact ⟨a, List.mem_cons_self⟩

theorem mainPass_languages {n : Nat} {ls : LanguageSet} (hls : ls.isEmpty = false) {segs : List Segment} {x : Phoneme}
    (h : x ∈ mainPass n ls segs) : x.languages.isEmpty = false := by
  have key : ∀ (segs : List Segment) (ps : List Phoneme), (∀ p ∈ ps, p.languages.isEmpty = false) →
      ∀ p ∈ segs.foldl (mainStep n) ps, p.languages.isEmpty = false := by
    intro segs
    induction segs with
    | nil => intro ps h; exact h
    | cons s segs ih =>
      intro ps hps
      apply ih
      cases s with
      | rule alts =>
        intro p hp
        obtain ⟨-, -, -, -, -, -, h3⟩ := mem_combine hp
        exact h3
      | letter c => exact hps
  exact key segs _ (by intro p hp; rw [List.mem_singleton.mp hp]; exact hls) x h

theorem phonemesOf_origin {R : RegexEngine} {n : Nat} {rules final1 final2 : RuleMap} {ls : LanguageSet}
    (hls : ls.isEmpty = false) {text t : Str}
    (h : t ∈ (phonemesOf R n rules final1 final2 ls text).map Phoneme.text) :
    ∃ choice, Choice false (segments R (rulesFor rules) [] 0 text) choice ∧
      (∃ l, Denotes ls l ∧ ∀ p ∈ choice, Denotes p.languages l) ∧
      ∃ b, RefinedBy R final1 (choiceText choice) b ∧ RefinedBy R final2 b t := by
  have step : ∀ (m : RuleMap) (ps : List Phoneme) (u : Str),
      u ∈ (if m.isEmpty = true then ps else finalPass R n (rulesFor m) ps).map Phoneme.text →
      ∃ a ∈ ps.map Phoneme.text, RefinedBy R m a u := by
    intro m ps u hu
    unfold RefinedBy
    by_cases hm : m.isEmpty = true
    · rw [if_pos hm] at hu
      exact ⟨u, hu, by rw [if_pos hm]⟩
    · rw [if_neg hm] at hu
      obtain ⟨p, hp, hu'⟩ := (finalPass_text R n (rulesFor m) ps u).mp hu
      obtain ⟨q, hq, rfl⟩ := List.mem_map.mp hu'
      obtain ⟨a, h1, h2, _⟩ := refinePhoneme_origin hq
      refine ⟨p.text, List.mem_map_of_mem hp, ?_⟩
      rw [if_neg hm]
      exact ⟨a, h1, h2⟩
  unfold phonemesOf at h
  dsimp only at h
  obtain ⟨b, hb, h2⟩ := step final2 _ _ h
  obtain ⟨a, ha, h1⟩ := step final1 _ _ hb
  obtain ⟨x, hx, rfl⟩ := List.mem_map.mp ha
  obtain ⟨choice, c1, c2, c3⟩ := mainPass_origin hx
  obtain ⟨l, hl⟩ := nonempty_denotes (mainPass_languages hls hx)
  rw [c3, choiceLanguages_denotes] at hl
  rw [c2] at h1
  exact ⟨choice, c1, ⟨l, hl⟩, b, h1, h2⟩

theorem guess_nonempty (U : Unicode) (R : RegexEngine) (l : Lang) (s : Str) :
    (l.guessLanguages U R s).isEmpty = false := by
  unfold Lang.guessLanguages
  dsimp only
  cases h : LanguageSet.ofSet (guessLoop R (U.strLower s) l.languages l.rules) with
  | any => rfl
  | noLanguages => rfl
  | someLanguages x =>
    simp only [LanguageSet.ofSet] at h
    split at h
    · cases h
    · rename_i hx
      cases h
      simpa [LanguageSet.isEmpty] using hx

/-- C55: every phoneme in the output of a name that is encoded at once comes from one alternative for each
segment that a main rule covers, all with a common language that was guessed for the name, refined by the
common final rules and then by those of the language. -/
theorem bm_output_choices (U : Unicode) (R : RegexEngine) (o : Origin) (e : Engine) (h : BuiltFrom U R o e)
    (hany : Offers o e.nameType c!"any") (s : Str) (ws : List Str)
    (hp : e.nameType = .generic → ∀ p r, ¬ NamePrefix (cleaned U s) p r)
    (hw : Words U (cleaned U s) ws) (hc : e.concat = true ∨ ws.length = 1) :
    ∃ (ts : List Str) (ls : LanguageSet), ls = e.lang.guessLanguages U R s ∧ e.encode U R s = .ok (bars ts) ∧
      ∀ t ∈ ts, ∃ choice,
        Choice false (segments R (rulesFor (rulesOf e .rules (languageOf ls))) [] 0 (nameText e ws)) choice ∧
        (∃ l, Denotes ls l ∧ ∀ p ∈ choice, Denotes p.languages l) ∧
        ∃ b, RefinedBy R (rulesOf e e.ruleType c!"common") (choiceText choice) b ∧
          RefinedBy R (rulesOf e e.ruleType (languageOf ls)) b t := by
  refine ⟨_, _, rfl, bm_encode_text U R o e h hany s ws hp hw hc, fun t ht => ?_⟩
  exact phonemesOf_origin (guess_nonempty U R e.lang s) ht

/-- C45: with a maximum of zero the code of a name that is encoded at once is empty. -/
theorem bm_max_zero (U : Unicode) (R : RegexEngine) (o : Origin) (e : Engine) (h : BuiltFrom U R o e)
    (hany : Offers o e.nameType c!"any") (hm : e.maxPhonemes = 0) (s : Str) (ws : List Str)
    (hp : e.nameType = .generic → ∀ p r, ¬ NamePrefix (cleaned U s) p r)
    (hw : Words U (cleaned U s) ws) (hc : e.concat = true ∨ ws.length = 1) :
    e.encode U R s = .ok [] := by
  rw [bm_encode_text U R o e h hany s ws hp hw hc]
  unfold textPhonemes
  rw [hm]
  generalize e.lang.guessLanguages U R s = ls
  have hcomb : ∀ ps alts, combine 0 ps alts = [] := by intro ps alts; simp [combine, sortByText]
  have hmain : ∀ (segs : List Segment) (ps : List Phoneme), ps = [] ∨ ps = [⟨[], ls⟩] →
      segs.foldl (mainStep 0) ps = [] ∨ segs.foldl (mainStep 0) ps = [⟨[], ls⟩] := by
    intro segs
    induction segs with
    | nil => intro ps h; exact h
    | cons x segs ih =>
      intro ps h
      apply ih
      cases x with
      | rule alts => exact .inl (hcomb ps alts)
      | letter c => exact h
  have hfin : ∀ (m : RuleMap) (ps : List Phoneme), ps = [] ∨ ps = [⟨[], ls⟩] →
      (if m.isEmpty = true then ps else finalPass R 0 (rulesFor m) ps) = [] ∨
      (if m.isEmpty = true then ps else finalPass R 0 (rulesFor m) ps) = [⟨[], ls⟩] := by
    intro m ps h
    by_cases hm : m.isEmpty = true
    · rw [if_pos hm]; exact h
    · rw [if_neg hm]
      rcases h with rfl | rfl
      · exact .inl rfl
      · exact .inr (by simp [finalPass, refinePhoneme, segments, addPhonemes, sortByText])
  have := hfin (rulesOf e e.ruleType (languageOf ls)) _ (hfin (rulesOf e e.ruleType c!"common") _
    (hmain (segments R (rulesFor (rulesOf e .rules (languageOf ls))) [] 0 (nameText e ws)) [⟨[], ls⟩] (.inr rfl)))
  unfold phonemesOf
  dsimp only
  rcases this with h | h
  · rw [show mainPass 0 ls (segments R (rulesFor (rulesOf e .rules (languageOf ls))) [] 0 (nameText e ws)) =
      (segments R (rulesFor (rulesOf e .rules (languageOf ls))) [] 0 (nameText e ws)).foldl (mainStep 0) [⟨[], ls⟩]
      from rfl, h]
    rfl
  · rw [show mainPass 0 ls (segments R (rulesFor (rulesOf e .rules (languageOf ls))) [] 0 (nameText e ws)) =
      (segments R (rulesFor (rulesOf e .rules (languageOf ls))) [] 0 (nameText e ws)).foldl (mainStep 0) [⟨[], ls⟩]
      from rfl, h]
    rfl

example : SampleBM.code .generic .approx true 0 c!"Aba" = some [] ∧
    SampleBM.code .generic .approx true 1 c!"Aba" = some c!"aba" ∧
    SampleBM.code .generic .approx true 0 c!"D'Ab" = some c!"()-()" := by decide +kernel

/-! ## C81: given languages -/

/-- The languages given to `encode_with_languages` have rules: a single language is listed. -/
theorem knows_given {U : Unicode} {R : RegexEngine} {o : Origin} {e : Engine} (h : BuiltFrom U R o e)
    (hany : Offers o e.nameType c!"any") {ls : LanguageSet}
    (hl : ∀ l, ls = .someLanguages [l] → Offers o e.nameType l) : Knows e (languageOf ls) := by
  apply knows_of_built h
  unfold languageOf
  split
  · exact hl _ rfl
  · exact hany

/-- C81: `encode` is `encode_with_languages` with the languages that are guessed. -/
theorem bm_encode_guesses (U : Unicode) (R : RegexEngine) (e : Engine) (s : Str) :
    e.encode U R s = e.encodeWithLanguages U R s (e.lang.guessLanguages U R s) := by
  rw [encode_eq, encodeWithLanguages_eq]

/-- C81: a name that is encoded at once is encoded with the given languages. -/
theorem bm_given_languages_text (U : Unicode) (R : RegexEngine) (o : Origin) (e : Engine)
    (h : BuiltFrom U R o e) (hany : Offers o e.nameType c!"any") (s : Str) (ls : LanguageSet)
    (hl : ∀ l, ls = .someLanguages [l] → Offers o e.nameType l) (ws : List Str)
    (hp : e.nameType = .generic → ∀ p r, ¬ NamePrefix (cleaned U s) p r)
    (hw : Words U (cleaned U s) ws) (hc : e.concat = true ∨ ws.length = 1) :
    e.encodeWithLanguages U R s ls =
      .ok (bars ((textPhonemes R e ls (nameText e ws)).map Phoneme.text)) := by
  rw [encodeWithLanguages_eq]
  exact encodeWith_text U R e _ s ls (engineWF_of_built h hany) (knows_given h hany hl) hp hw hc

/-- C81: for a name with a prefix, and for several words that are not taken together, the given languages
are ignored: the parts are encoded with the languages that are guessed for them. -/
theorem bm_given_languages_ignored (U : Unicode) (R : RegexEngine) (o : Origin) (e : Engine)
    (h : BuiltFrom U R o e) (hany : Offers o e.nameType c!"any") (s : Str) (ls : LanguageSet)
    (hl : ∀ l, ls = .someLanguages [l] → Offers o e.nameType l) :
    (∀ p rest, e.nameType = .generic → NamePrefix (cleaned U s) p rest →
      e.encodeWithLanguages U R s ls = e.encode U R s) ∧
    (∀ ws, (e.nameType = .generic → ∀ p r, ¬ NamePrefix (cleaned U s) p r) → Words U (cleaned U s) ws →
      e.concat = false → ws.length ≠ 1 → e.encodeWithLanguages U R s ls = e.encode U R s) := by
  have he := engineWF_of_built h hany
  have hk := knows_given h hany hl
  rw [encodeWithLanguages_eq, encode_eq]
  refine ⟨fun p rest hn hp => ?_, fun ws hp hw hc hl => ?_⟩
  · rw [encodeWith_prefix U R e _ s _ he hk hn hp, encodeWith_prefix U R e _ s _ he (knows_guess he U R s) hn hp]
  · rw [encodeWith_words U R e _ s _ he hk hp hc hw hl,
      encodeWith_words U R e _ s _ he (knows_guess he U R s) hp hc hw hl]

/-- The given language matters for "a" and is ignored for "d'a". -/
example : (SampleBM.encoder .generic .exact true 20).map (fun e =>
      ((e.encodeWithLanguages .latin1 SampleBM.regex c!"a" (.someLanguages [c!"welsh", c!"xhosa"])).toOption,
       (e.encode .latin1 SampleBM.regex c!"a").toOption,
       (e.encodeWithLanguages .latin1 SampleBM.regex c!"d'a" (.someLanguages [c!"welsh", c!"xhosa"])).toOption)) =
    some (some c!"a", some c!"a|o", some c!"(a|o)-(a|o)") := by decide +kernel

/-! ## C82: blanks -/

/-- C82: for names that are not generic, the code with given languages depends on the words only. -/
theorem bm_words_only (U : Unicode) (R : RegexEngine) (o : Origin) (e : Engine)
    (h : BuiltFrom U R o e) (hany : Offers o e.nameType c!"any") (s t : Str) (ls : LanguageSet)
    (hl : ∀ l, ls = .someLanguages [l] → Offers o e.nameType l) (ws : List Str) (hs : Words U (cleaned U s) ws)
    (ht : Words U (cleaned U t) ws)
    (hp : e.nameType = .generic → ∀ p r, ¬ NamePrefix (cleaned U s) p r ∧ ¬ NamePrefix (cleaned U t) p r) :
    e.encodeWithLanguages U R s ls = e.encodeWithLanguages U R t ls := by
  have he := engineWF_of_built h hany
  have hk := knows_given h hany hl
  rw [encodeWithLanguages_eq, encodeWithLanguages_eq]
  have p1 : e.nameType = .generic → ∀ p r, ¬ NamePrefix (cleaned U s) p r := fun hg p r => (hp hg p r).1
  have p2 : e.nameType = .generic → ∀ p r, ¬ NamePrefix (cleaned U t) p r := fun hg p r => (hp hg p r).2
  by_cases hc : e.concat = true ∨ ws.length = 1
  · rw [encodeWith_text U R e _ s ls he hk p1 hs hc, encodeWith_text U R e _ t ls he hk p2 ht hc]
  · have hc1 : e.concat = false := by
      cases hb : e.concat with
      | false => rfl
      | true => exact absurd (.inl hb) hc
    have hc2 : ws.length ≠ 1 := fun h => hc (.inr h)
    rw [encodeWith_words U R e _ s ls he hk p1 hc1 hs hc2, encodeWith_words U R e _ t ls he hk p2 hc1 ht hc2]

/-- C82: blanks at the ends of a name, and repeated blanks, are such differences. -/
theorem bm_words_blank (U : Unicode) (a b c : Str) (ws : List Str) (ha : ∀ x ∈ a, U.isWhitespace x = true)
    (hb : ∀ x ∈ b, U.isWhitespace x = true) (h : Words U c ws) : Words U (a ++ c ++ b) ws := by
  have front : ∀ (a c : Str) (ws : List Str), (∀ x ∈ a, U.isWhitespace x = true) → Words U c ws → Words U (a ++ c) ws := by
    intro a c ws ha h
    induction a with
    | nil => exact h
    | cons x a ih => exact .space (ha x (by simp)) (ih fun y hy => ha y (by simp [hy]))
  have back : ∀ (c : Str) (ws : List Str), Words U c ws → Words U (c ++ b) ws := by
    intro c ws h
    induction h with
    | nil => simpa using front b [] [] hb .nil
    | space hc _ ih => exact .space hc ih
    | @word w s ws hw1 hw2 hw3 _ ih =>
      rw [List.append_assoc]
      refine .word hw1 hw2 ?_ ih
      intro x hx
      cases s with
      | nil =>
        cases b with
        | nil => cases hx
        | cons y b => cases hx; exact hb _ (by simp)
      | cons y s => exact hw3 x hx
  exact back _ _ (front a c ws ha h)

/-- Defect (no trimming): a blank before a generic name hides its prefix, so that the code changes. -/
theorem bm_leading_blank :
    SampleBM.code .generic .exact true 20 c!"de ab" = some c!"(ab|ob)-(ab|ob)" ∧
    SampleBM.code .generic .exact true 20 c!" de ab" = some c!"ab|ob" := by decide +kernel

end Verif.Props
