import Verif.Props.BMEncode
import Verif.Proofs.BMEmbedded
/-!
# The embedded Beider-Morse configuration (C66 to C69)
-/

set_option linter.unusedSimpArgs false

namespace Verif.Props
open BM Spec BMProofs

/-! ## Loading -/

/-- C66: the embedded configuration loads with every regex engine that accepts the seven expressions of its rules,
whatever the Unicode tables are, and always to the same configuration; two levels of includes are enough. -/
theorem bm_embedded_loads : ∃ cfg, ∀ (U : Unicode) (R : RegexEngine) (depth : Nat), AcceptsEmbedded R → 2 ≤ depth →
    ConfigFiles.default U R depth = .ok cfg := by
  obtain ⟨rules, h, _⟩ := embedded_rules
  exact ⟨_, fun U R depth hR hd => embedded_loaded h hR hd⟩

/-- C66: what it contains: no rules that guess a language; for each name type the main rules for "any", the approximate
and exact rules for "any" and the common ones, and no others; each holds the rules of its file. -/
theorem bm_embedded_contents (U : Unicode) (R : RegexEngine) (depth : Nat) (cfg : ConfigFiles)
    (h : ConfigFiles.default U R depth = .ok cfg) (nt : NameType) :
    (∃ lang, cfg.langs.get? nt = some lang ∧ lang.languages = [] ∧ lang.rules = []) ∧
    ∀ rt x, ((∃ m, cfg.rules.get? (nt, rt, x) = some m) ↔ x = c!"any" ∨ rt ≠ .rules ∧ x = c!"common") ∧
      ∀ m, cfg.rules.get? (nt, rt, x) = some m →
        FileRules U R .embedded depth (ruleFilename nt rt x) (rulesFor m) := by
  obtain ⟨h1, h2⟩ := default_spec h
  obtain ⟨f1, f2⟩ := buildRules_exact h2
  refine ⟨⟨Lang.default, ?_, rfl, rfl⟩, fun rt x => ⟨?_, fun m hm => ?_⟩⟩
  · rw [h1]; cases nt <;> rfl
  · rw [f2]
    have hl : defaultLanguages.get? nt = some [c!"any"] := by cases nt <;> rfl
    constructor
    · rintro ⟨l, hl', hx⟩
      rw [hl] at hl'
      cases hl'
      simpa using hx
    · intro hx
      exact ⟨_, hl, by simpa using hx⟩
  · exact (parseRule_proper (f1 _ _ hm)).2

/-- C66: an encoder can be built from it with every setting, and it has these settings. -/
theorem bm_embedded_build (U : Unicode) (R : RegexEngine) (depth : Nat) (cfg : ConfigFiles)
    (h : ConfigFiles.default U R depth = .ok cfg) (nt : NameType) (rt : RuleType) (concat : Bool) (max : Nat) :
    ∃ e, (((((Builder.new cfg).withNameType nt).withRuleType rt).withConcat concat).withMaxPhonemes max).build =
        .ok e ∧ BuiltFrom U R .embedded e ∧
      e.nameType = nt ∧ e.ruleType = PrivateRuleType.ofRuleType rt ∧ e.concat = concat ∧ e.maxPhonemes = max := by
  obtain ⟨⟨lang, hl, _⟩, _⟩ := bm_embedded_contents U R depth cfg h nt
  have hb : (((((Builder.new cfg).withNameType nt).withRuleType rt).withConcat concat).withMaxPhonemes max).build =
      .ok { rules := cfg.rules, lang, nameType := nt, ruleType := .ofRuleType rt, concat, maxPhonemes := max } := by
    simp only [Builder.build, Builder.new, Builder.withNameType, Builder.withRuleType, Builder.withConcat,
      Builder.withMaxPhonemes, hl]
  exact ⟨_, hb, ⟨depth, cfg, _, h, rfl, hb⟩, rfl, rfl, rfl, rfl⟩

/-! ## Totality -/

/-- The configuration of an encoder with the embedded rules. -/
theorem built_embedded {U : Unicode} {R : RegexEngine} {e : Engine} (h : BuiltFrom U R .embedded e) :
    e.lang = Lang.default := by
  obtain ⟨depth, cfg, b, h1, h2, h3⟩ := h
  obtain ⟨lang, g1, g2, g3, g4, _⟩ := build_spec h3
  have h1 : ConfigFiles.default U R depth = .ok cfg := h1
  rw [h2, (default_spec h1).1] at g1
  rw [g3]
  revert g1
  cases b.nameType <;> (intro g1; exact (Option.some.inj g1).symm)

/-- C67: an encoder with the embedded rules never guesses a language. -/
theorem bm_embedded_guess (U : Unicode) (R : RegexEngine) (e : Engine) (h : BuiltFrom U R .embedded e) (s : Str) :
    e.lang.guessLanguages U R s = .any := by
  rw [built_embedded h]
  rfl

/-- C67: with the embedded rules, `encode` returns for every text. -/
theorem bm_embedded_encode_returns (U : Unicode) (R : RegexEngine) (e : Engine) (h : BuiltFrom U R .embedded e)
    (s : Str) : ∃ code, e.encode U R s = .ok code := bm_encode_returns U R .embedded e h rfl s

/-- C67: with the embedded rules, `encode_with_languages` panics exactly when it is given a single language that is
not "any". -/
theorem bm_embedded_encode_with_languages (U : Unicode) (R : RegexEngine) (e : Engine)
    (h : BuiltFrom U R .embedded e) (s : Str) (ls : LanguageSet) :
    (∃ code, e.encodeWithLanguages U R s ls = .ok code) ↔ ∀ l, ls = .someLanguages [l] → l = c!"any" :=
  bm_encode_with_languages_returns U R .embedded e h rfl s ls

/-! ## Characters -/

/-- C68: every character of a code is a character of a phoneme of the rules, or one of the four characters that
separate phonemes, words and the two readings of a name with a prefix. Characters of the text never reach the code. -/
theorem bm_code_characters (U : Unicode) (R : RegexEngine) (o : Origin) (e : Engine) (h : BuiltFrom U R o e)
    (hany : Offers o e.nameType c!"any") (s code : Str) (hc : e.encode U R s = .ok code) (x : Char) (hx : x ∈ code) :
    (∃ k m c r p, e.rules.get? k = some m ∧ r ∈ rulesFor m c ∧ p ∈ r.phoneme ∧ x ∈ p.text) ∨ x ∈ c!"|()-" := by
  obtain ⟨code', h1, h2⟩ := encode_all (U := U) (R := R) (Q := fun x => ∃ k m c r p, e.rules.get? k = some m ∧
    r ∈ rulesFor m c ∧ p ∈ r.phoneme ∧ x ∈ p.text) (engineWF_of_built h hany)
    (fun k m hk c r hr p hp x hx => ⟨k, m, c, r, p, hk, hr, hp, hx⟩) s
  rw [hc] at h1
  simp only [Except.ok.injEq] at h1
  exact h2 x (by rw [← h1]; exact hx)

/-- The rules of an encoder with the embedded rules are the checked ones. -/
theorem embedded_okRules {U : Unicode} {R : RegexEngine} {e : Engine} (h : BuiltFrom U R .embedded e)
    (hR : AcceptsEmbedded R) :
    ∀ k m, e.rules.get? k = some m → ∀ c, ∀ r ∈ rulesFor m c, okRule r = true := by
  obtain ⟨depth, cfg, b, h1, h2, h3⟩ := h
  obtain ⟨lang, g1, g2, g3, g4, _⟩ := build_spec h3
  obtain ⟨rules, hr, hok⟩ := embedded_rules
  have h1 : ConfigFiles.default U R depth = .ok cfg := h1
  have hc := embedded_unique hr hR h1
  rw [h2, hc] at g2
  rw [g2]
  exact hok

/-- C68: the codes of the embedded rules consist of the letters of their phonetic alphabet (ASCII letters, without 'c',
'q' and 'y', and with some capitals that stand for other sounds) and of the four separators. -/
theorem bm_embedded_alphabet (U : Unicode) (R : RegexEngine) (hR : AcceptsEmbedded R) (e : Engine)
    (h : BuiltFrom U R .embedded e) (s code : Str) (hc : e.encode U R s = .ok code) :
    ∀ x ∈ code, x ∈ phoneticAlphabet ∨ x ∈ c!"|()-" := by
  intro x hx
  rcases bm_code_characters U R .embedded e h rfl s code hc x hx with ⟨k, m, c, r, p, h1, h2, h3, h4⟩ | h5
  · have := embedded_okRules h hR k m h1 c r h2
    simp only [okRule, Bool.and_eq_true] at this
    have := List.all_eq_true.mp (List.all_eq_true.mp this.2 p h3) x h4
    exact .inl (by simpa using this)
  · exact .inr h5

/-- C68: no phoneme of the embedded rules contains a bar, so the phonemes of a code can be told apart. -/
theorem bm_embedded_no_bars (U : Unicode) (R : RegexEngine) (hR : AcceptsEmbedded R) (e : Engine)
    (h : BuiltFrom U R .embedded e) : NoBars e := by
  intro k m hk c r hr p hp hb
  have := embedded_okRules h hR k m hk c r hr
  simp only [okRule, Bool.and_eq_true] at this
  have := List.all_eq_true.mp (List.all_eq_true.mp this.2 p hp) '|' hb
  exact absurd this (by decide)

/-! ## The regex engine -/

theorem embedded_agree {U : Unicode} {R R' : RegexEngine} {e : Engine} (h : BuiltFrom U R .embedded e)
    (hR : CorrectEmbedded R) (hR' : CorrectEmbedded R') : AgreeOn R R' e := by
  have hx : ∀ x ∈ embeddedExpressions, ∀ s, R.isMatch x.text s = R'.isMatch x.text s := by
    intro x hx s
    rw [Bool.eq_iff_iff, hR.2 x hx, hR'.2 x hx]
  have hc : ∀ c, okContext c = true → ∀ s, c.isMatch R s = c.isMatch R' s := by
    intro c hc s
    cases c with
    | optimized o => rfl
    | regex p =>
      simp only [okContext, List.contains_iff_mem, expressionTexts] at hc
      obtain ⟨x, hx', rfl⟩ := List.mem_map.mp hc
      exact hx x hx' s
  intro k m hk c r hr
  have := embedded_okRules h hR.1 k m hk c r hr
  simp only [okRule, Bool.and_eq_true] at this
  exact ⟨hc _ this.1.1, hc _ this.1.2⟩

/-- C69: the codes of the embedded rules do not depend on the regex engine, as long as it finds the seven expressions
correctly. -/
theorem bm_embedded_engine_independent (U : Unicode) (R R' : RegexEngine) (hR : CorrectEmbedded R)
    (hR' : CorrectEmbedded R') (e : Engine) (h : BuiltFrom U R .embedded e) (s : Str) :
    BuiltFrom U R' .embedded e ∧ e.encode U R s = e.encode U R' s ∧
    ∀ ls, (∀ l, ls = .someLanguages [l] → l = c!"any") →
      e.encodeWithLanguages U R s ls = e.encodeWithLanguages U R' s ls := by
  have hw := engineWF_of_built h rfl
  have ha := embedded_agree h hR hR'
  have henc : ∀ s, e.encode U R s = e.encode U R' s :=
    encode_agree hw ha (fun s => by rw [built_embedded h]; rfl)
  refine ⟨?_, henc s, fun ls hl => ?_⟩
  · obtain ⟨depth, cfg, b, h1, h2, h3⟩ := h
    have h1 : ConfigFiles.default U R depth = .ok cfg := h1
    obtain ⟨rules, hr, _⟩ := embedded_rules
    have hc := embedded_unique hr hR.1 h1
    have h1' : ConfigFiles.default U R' 2 = .ok cfg := by
      rw [hc]; exact embedded_loaded hr hR'.1 (Nat.le_refl 2)
    exact ⟨2, cfg, b, h1', h2, h3⟩
  · rw [encodeWithLanguages_eq, encodeWithLanguages_eq]
    apply encodeWith_agree hw ha s ls
    · apply knows_of_built h
      change languageOf ls = c!"any"
      unfold languageOf
      split
      · exact hl _ rfl
      · rfl
    · intro x _ _; exact henc x

end Verif.Props
