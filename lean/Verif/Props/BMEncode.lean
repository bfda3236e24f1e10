import Verif.Proofs.BMPhonemes
/-!
# Properties of the Beider-Morse encoder (C44, C45, C52 to C58)
-/

set_option linter.unusedSimpArgs false

namespace Verif.Props
open BM Spec BMProofs

/-! ## A small configuration -/

namespace SampleBM

/-- Three languages, of which the names of the files of rules are derived. -/
def dir : Directory where
  entries := [c!"README.txt", c!"gen_languages.txt", c!"ash_languages.txt", c!"sep_languages.txt"]
  read name :=
    if endsWith name c!"_languages.txt" then some c!"// languages\nany\nfrench\nwelsh // spoken in Wales\n"
    else if endsWith name c!"_lang.txt" then some c!"eau$ french true\nll welsh+french true\n"
    else if endsWith name c!"_rules_any.txt" then
      some c!"\"a\" \"\" \"\" \"(a|o[french])\"\n\"b\" \"\" \"\" \"b\"\n\"eau\" \"\" \"$\" \"(o|eu[french+welsh])\"\n"
    else if endsWith name c!"_rules_french.txt" then some c!"/* rules\n*/\n\"eau\" \"\" \"\" \"o\"\n"
    else if endsWith name c!"_rules_welsh.txt" then some c!"#include gen_rules_french\n"
    else if endsWith name c!"_approx_common.txt" then some c!"\"a\" \"\" \"\" \"(a|e)\"\n"
    else if endsWith name c!".txt" then some []
    else none
  ioError name := name

/-- Literal patterns, possibly anchored at the end. -/
def regex : RegexEngine where
  error _ := none
  isMatch p s := if endsWith p c!"$" then p.dropLast.isSuffixOf s else (List.range (s.length + 1)).any fun i => p.isPrefixOf (s.drop i)

def config : Res (Except PhoneticError ConfigFiles) := ConfigFiles.new .latin1 regex 3 dir

theorem config_ok : ∃ cfg, config = .ok (.ok cfg) := by
  have : (match config with | .ok (.ok _) => true | _ => false) = true := by decide +kernel
  cases h : config with
  | error e => rw [h] at this; cases this
  | ok x =>
    cases x with
    | error e => rw [h] at this; cases this
    | ok cfg => exact ⟨cfg, rfl⟩

/-- An encoder with the given settings. -/
def encoder (nt : NameType) (rt : RuleType) (concat : Bool) (max : Nat) : Option Engine :=
  match config with
  | .ok (.ok cfg) => ((((Builder.new cfg).withNameType nt).withRuleType rt).withConcat concat).withMaxPhonemes max
      |>.build |>.toOption
  | _ => none

theorem builtFrom {nt : NameType} {rt : RuleType} {concat : Bool} {max : Nat} {e : Engine}
    (h : encoder nt rt concat max = some e) : BuiltFrom .latin1 regex (.directory dir) e := by
  obtain ⟨cfg, hc⟩ := config_ok
  unfold encoder at h
  rw [hc] at h
  refine ⟨3, cfg, ((((Builder.new cfg).withNameType nt).withRuleType rt).withConcat concat).withMaxPhonemes max,
    hc, rfl, ?_⟩
  · simp only at h
    unfold Except.toOption at h
    split at h
    · rename_i x hx; cases h; exact hx
    · cases h

/-- The code with the given settings. -/
def code (nt : NameType) (rt : RuleType) (concat : Bool) (max : Nat) (s : Str) : Option Str :=
  (encoder nt rt concat max).bind fun e => (e.encode .latin1 regex s).toOption

theorem code_some {nt : NameType} {rt : RuleType} {concat : Bool} {max : Nat} {s c : Str}
    (h : code nt rt concat max s = some c) :
    ∃ e, BuiltFrom .latin1 regex (.directory dir) e ∧ e.nameType = nt ∧ e.ruleType = .ofRuleType rt ∧ e.concat = concat ∧
      e.maxPhonemes = max ∧ e.encode .latin1 regex s = .ok c := by
  unfold code at h
  cases he : encoder nt rt concat max with
  | none => rw [he] at h; cases h
  | some e =>
    rw [he] at h
    have hb := builtFrom he
    obtain ⟨cfg, hc⟩ := config_ok
    unfold encoder at he
    rw [hc] at he
    simp only [Option.bind_some] at h
    refine ⟨e, hb, ?_⟩
    have h2 : e.encode .latin1 regex s = .ok c := by
      unfold Except.toOption at h
      split at h
      · rename_i x hx; cases h; exact hx
      · cases h
    simp only at he
    have h3 : (((((Builder.new cfg).withNameType nt).withRuleType rt).withConcat concat).withMaxPhonemes max).build =
        .ok e := by
      unfold Except.toOption at he
      split at he
      · rename_i x hx; cases he; exact hx
      · cases he
    obtain ⟨_, _, _, _, g4, g5, g6, g7⟩ := build_spec h3
    exact ⟨g4, g5, g6, g7, h2⟩

/-- The languages listed. -/
theorem lists (nt : NameType) (l : Str) :
    Lists dir nt l ↔ l = c!"any" ∨ l = c!"french" ∨ l = c!"welsh" := by
  have hr : dir.read nt.languageFilename =
      some c!"// languages\nany\nfrench\nwelsh // spoken in Wales\n" := by cases nt <;> decide +kernel
  have hp : parseList c!"// languages\nany\nfrench\nwelsh // spoken in Wales\n" =
      .ok (.ok [c!"any", c!"french", c!"welsh"]) := by decide +kernel
  have hm := mem_parseList hp l
  simp only [List.mem_cons, List.not_mem_nil, or_false] at hm
  rw [hm]
  constructor
  · rintro ⟨content, items, tail, h1, h2, h3⟩
    rw [hr] at h1; cases h1
    exact ⟨items, tail, h2, h3⟩
  · rintro ⟨items, tail, h2, h3⟩
    exact ⟨_, items, tail, hr, h2, h3⟩

theorem noBars {nt : NameType} {rt : RuleType} {concat : Bool} {max : Nat} {e : Engine}
    (h : encoder nt rt concat max = some e) : NoBars e := by
  have key : (match config with
    | .ok (.ok cfg) => cfg.rules.all fun km => km.2.all fun cr => cr.2.all fun r => r.phoneme.all fun p =>
        !p.text.contains '|'
    | _ => false) = true := by decide +kernel
  obtain ⟨cfg, hc⟩ := config_ok
  unfold encoder at h
  rw [hc] at h key
  simp only at h key
  have h3 : (((((Builder.new cfg).withNameType nt).withRuleType rt).withConcat concat).withMaxPhonemes max).build =
      .ok e := by
    unfold Except.toOption at h
    split at h
    · rename_i x hx; cases h; exact hx
    · cases h
  obtain ⟨_, _, g2, _⟩ := build_spec h3
  intro k m hm c r hr p hp
  rw [g2] at hm
  unfold rulesFor at hr
  cases hg : m.get? c with
  | none => rw [hg] at hr; cases hr
  | some rs =>
    rw [hg] at hr
    have a1 := List.all_eq_true.mp key _ (get?_mem hm)
    have a2 := List.all_eq_true.mp a1 _ (get?_mem hg)
    have a3 := List.all_eq_true.mp (List.all_eq_true.mp a2 r hr) p hp
    simpa using a3

end SampleBM

/-! ## Loading and totality -/

/-- What an origin gives: the languages listed, and their rules. -/
theorem origin_spec {U : Unicode} {R : RegexEngine} {o : Origin} {e : Engine} (h : BuiltFrom U R o e) :
    ∃ (ls : Languages) (l : StrSet), ls.get? e.nameType = some l ∧ (∀ x, x ∈ l ↔ Offers o e.nameType x) ∧
      (∀ x ∈ e.lang.languages, x ∈ l) ∧
      ∃ resolver depth, buildRules U R resolver depth ls = .ok (.ok e.rules) := by
  obtain ⟨depth, cfg, b, h1, h2, h3⟩ := h
  obtain ⟨lang, g1, g2, g3, g4, _⟩ := build_spec h3
  rw [h2] at g1 g2
  cases o with
  | directory dir =>
    simp only at h1
    obtain ⟨ls, k1, k2, k3⟩ := config_spec h1
    obtain ⟨ls', l, content, j1, j2, j3, j4⟩ := languages_of_config h1 b.nameType
    rw [k1] at j1
    simp only [Except.ok.injEq] at j1
    subst j1
    refine ⟨ls, l, by rw [g4]; exact j2, fun x => ?_, ?_, _, depth, by rw [g2]; exact k3⟩
    · rw [g4]
      constructor
      · intro hx
        obtain ⟨items, tail, i1, i2⟩ := (mem_parseList j4 x).mp hx
        exact ⟨content, items, tail, j3, i1, i2⟩
      · rintro ⟨content', items, tail, i1, i2, i3⟩
        rw [j3] at i1; cases i1
        exact (mem_parseList j4 x).mpr ⟨items, tail, i2, i3⟩
    · intro x hx
      obtain ⟨hl1, _⟩ := langsLoop_spec k2 (by intro nt lang hn; cases hn)
      have hlang := hl1 _ _ g1
      rw [j2, Option.some.injEq] at hlang
      rw [hlang, ← g3]; exact hx
  | embedded =>
    simp only at h1
    obtain ⟨k1, k3⟩ := default_spec h1
    refine ⟨defaultLanguages, [c!"any"], by cases e.nameType <;> rfl, fun x => ?_, ?_, _, depth, by rw [g2]; exact k3⟩
    · simp [Offers]
    · intro x hx
      rw [k1] at g1
      have : lang = Lang.default := by
        revert g1
        cases b.nameType <;> (intro g1; exact (Option.some.inj g1).symm)
      rw [g3, this] at hx
      exact absurd hx List.not_mem_nil

/-- The languages that an encoder has rules for are the ones its configuration offers. -/
theorem rules_of_built {U : Unicode} {R : RegexEngine} {o : Origin} {e : Engine} (h : BuiltFrom U R o e)
    (l : Str) : (∃ m, e.rules.get? (e.nameType, .rules, l) = some m) ↔ Offers o e.nameType l := by
  obtain ⟨ls, l', h1, h2, _, _, _, h4⟩ := origin_spec h
  rw [(buildRules_exact h4).2, ← h2]
  constructor
  · rintro ⟨x, hx, hl | ⟨hl, -⟩⟩
    · rw [h1] at hx; cases hx; exact hl
    · exact absurd rfl hl
  · intro hl
    exact ⟨l', h1, .inl hl⟩

theorem knows_of_built {U : Unicode} {R : RegexEngine} {o : Origin} {e : Engine} (h : BuiltFrom U R o e)
    {l : Str} (hl : Offers o e.nameType l) : Knows e l := by
  obtain ⟨ls, l', h1, h2, _, _, _, h4⟩ := origin_spec h
  have := fun rt => ((buildRules_exact h4).2 e.nameType rt l).mpr ⟨l', h1, .inl ((h2 l).mpr hl)⟩
  exact knows_of_rules rfl (buildRules_spec h4).1 (this _) (this _)

/-- The facts about an encoder that everything else uses. -/
theorem engineWF_of_built {U : Unicode} {R : RegexEngine} {o : Origin} {e : Engine} (h : BuiltFrom U R o e)
    (hany : Offers o e.nameType c!"any") : EngineWF e := by
  obtain ⟨ls, l', h1, h2, h3, _, _, h4⟩ := origin_spec h
  refine ⟨knows_of_built h hany, fun l hl => knows_of_built h ((h2 l).mp (h3 l hl)), ?_⟩
  obtain ⟨_, _, b, _, _, h5⟩ := h
  obtain ⟨_, _, _, _, _, g5, _⟩ := build_spec h5
  have hne : e.ruleType ≠ .rules := by rw [g5]; cases b.ruleType <;> simp [PrivateRuleType.ofRuleType]
  obtain ⟨m, hm⟩ := ((buildRules_exact h4).2 e.nameType e.ruleType c!"common").mpr ⟨l', h1, .inr ⟨hne, rfl⟩⟩
  exact ⟨m, hm, (buildRules_spec h4).1 _ _ hm⟩

/-- C52: with the rules of a directory that was loaded, building an encoder succeeds for every name type, rule
type, way to treat words and maximum, and the encoder has these settings. -/
theorem bm_build_returns (U : Unicode) (R : RegexEngine) (depth : Nat) (dir : Directory) (cfg : ConfigFiles)
    (h : ConfigFiles.new U R depth dir = .ok (.ok cfg)) (nt : NameType) (rt : RuleType) (concat : Bool) (max : Nat) :
    ∃ e, (((((Builder.new cfg).withNameType nt).withRuleType rt).withConcat concat).withMaxPhonemes max).build =
        .ok e ∧
      e.nameType = nt ∧ e.ruleType = PrivateRuleType.ofRuleType rt ∧ e.concat = concat ∧ e.maxPhonemes = max := by
  obtain ⟨ls, k1, k2, k3⟩ := config_spec h
  obtain ⟨lang, hl⟩ := (langsLoop_spec k2 (by intro nt lang hn; cases hn)).2 nt (.inl (by cases nt <;> decide))
  simp only [Builder.build, Builder.new, Builder.withNameType, Builder.withRuleType, Builder.withConcat,
    Builder.withMaxPhonemes, hl]
  exact ⟨_, rfl, rfl, rfl, rfl, rfl⟩

/-- C52: with rules that list "any", `encode` returns for every text. -/
theorem bm_encode_returns (U : Unicode) (R : RegexEngine) (o : Origin) (e : Engine) (h : BuiltFrom U R o e)
    (hany : Offers o e.nameType c!"any") (s : Str) : ∃ code, e.encode U R s = .ok code :=
  encode_ok U R e (engineWF_of_built h hany) s

/-- An unknown language. -/
theorem encodeWith_unknown {U : Unicode} {R : RegexEngine} {o : Origin} {e : Engine} (h : BuiltFrom U R o e)
    (recur : Str → Res Str) (s : Str) (ls : LanguageSet) (hl : ¬ Offers o e.nameType (languageOf ls)) :
    e.encodeWith U R recur s ls = .error .unwrap := by
  rw [encodeWith_rest, ruleLanguage_eq]
  simp only [Except.bind]
  rw [← rules_of_built h] at hl
  cases hm : e.rules.get? (e.nameType, .rules, languageOf ls) with
  | none => rfl
  | some m => exact absurd ⟨m, hm⟩ hl

/-- C52: `encode` panics on a text when the language whose rules it uses is not listed: "any", which is used
unless exactly one language is guessed, must be listed. -/
theorem bm_encode_panics (U : Unicode) (R : RegexEngine) (o : Origin) (e : Engine) (h : BuiltFrom U R o e)
    (s : Str) (hl : ¬ Offers o e.nameType (languageOf (e.lang.guessLanguages U R s))) :
    e.encode U R s = .error .unwrap := by
  rw [encode_eq]
  exact encodeWith_unknown h _ s _ hl

/-- C53: `encode_with_languages` with rules that list "any" returns exactly when the given languages are not a
single language that is not listed. -/
theorem bm_encode_with_languages_returns (U : Unicode) (R : RegexEngine) (o : Origin) (e : Engine)
    (h : BuiltFrom U R o e) (hany : Offers o e.nameType c!"any") (s : Str) (ls : LanguageSet) :
    (∃ code, e.encodeWithLanguages U R s ls = .ok code) ↔
      ∀ l, ls = .someLanguages [l] → Offers o e.nameType l := by
  rw [encodeWithLanguages_eq]
  constructor
  · rintro ⟨code, hc⟩ l rfl
    refine Classical.byContradiction fun hn => ?_
    rw [encodeWith_unknown h _ s (.someLanguages [l]) hn] at hc
    cases hc
  · intro hl
    have hk : Knows e (languageOf ls) := by
      apply knows_of_built h
      unfold languageOf
      split
      · exact hl _ rfl
      · exact hany
    exact encodeWith_ok U R e _ s ls (engineWF_of_built h hany) hk fun x _ _ => bm_encode_returns U R o e h hany x

/-- The hypotheses can be met: the small configuration lists "any", and "Beau" is found to be French. -/
theorem bm_encode_returns_example : ∃ e, BuiltFrom .latin1 SampleBM.regex (.directory SampleBM.dir) e ∧
    Offers (.directory SampleBM.dir) e.nameType c!"any" ∧ e.lang.guessLanguages .latin1 SampleBM.regex c!"Beau" =
      .someLanguages [c!"french"] ∧
    e.encode .latin1 SampleBM.regex c!"Beau" = .ok c!"o" := by
  have h : (SampleBM.encoder .generic .approx true 20).bind (fun e =>
      if e.lang.guessLanguages .latin1 SampleBM.regex c!"Beau" = .someLanguages [c!"french"] then
        (e.encode .latin1 SampleBM.regex c!"Beau").toOption else none) = some c!"o" := by decide +kernel
  cases he : SampleBM.encoder .generic .approx true 20 with
  | none => rw [he] at h; cases h
  | some e =>
    rw [he] at h
    simp only [Option.bind_some] at h
    split at h
    · rename_i hg
      refine ⟨e, SampleBM.builtFrom he, (SampleBM.lists _ _).mpr (.inl rfl), hg, ?_⟩
      unfold Except.toOption at h
      split at h
      · rename_i x hx; cases h; exact hx
      · cases h
    · cases h

/-- A single language that is not listed makes `encode_with_languages` panic. -/
theorem bm_unknown_language_panics : ∃ e, BuiltFrom .latin1 SampleBM.regex (.directory SampleBM.dir) e ∧
    Offers (.directory SampleBM.dir) e.nameType c!"any" ∧
    e.encodeWithLanguages .latin1 SampleBM.regex c!"Beau" (.someLanguages [c!"klingon"]) = .error .unwrap := by
  obtain ⟨e, hb, hn, _⟩ := bm_encode_returns_example
  refine ⟨e, hb, hn, ?_⟩
  rw [encodeWithLanguages_eq]
  apply encodeWith_unknown hb
  change ¬ Lists SampleBM.dir _ _
  rw [SampleBM.lists]
  decide

/-! ## The structure of the code -/

/-- C54: a generic name with a prefix: the codes of the rest and of the name without the separation. -/
theorem bm_encode_prefix (U : Unicode) (R : RegexEngine) (o : Origin) (e : Engine) (h : BuiltFrom U R o e)
    (hany : Offers o e.nameType c!"any") (s p rest : Str) (hg : e.nameType = .generic)
    (hp : NamePrefix (cleaned U s) p rest) :
    ∃ a b, e.encode U R rest = .ok a ∧ e.encode U R (p ++ rest) = .ok b ∧
      e.encode U R s = .ok (c!"(" ++ a ++ c!")-(" ++ b ++ c!")") := by
  have hw := engineWF_of_built h hany
  obtain ⟨a, ha⟩ := encode_ok U R e hw rest
  obtain ⟨b, hb⟩ := encode_ok U R e hw (p ++ rest)
  refine ⟨a, b, ha, hb, ?_⟩
  rw [encode_eq, encodeWith_prefix U R e _ s _ hw (knows_guess hw U R s) hg hp]
  unfold Engine.encodeTwice
  rw [ha, hb]
  rfl

/-- C54: several words (or none), taken separately: their codes, separated by hyphens. -/
theorem bm_encode_words (U : Unicode) (R : RegexEngine) (o : Origin) (e : Engine) (h : BuiltFrom U R o e)
    (hany : Offers o e.nameType c!"any") (s : Str) (ws : List Str)
    (hp : e.nameType = .generic → ∀ p r, ¬ NamePrefix (cleaned U s) p r) (hc : e.concat = false)
    (hw : Words U (cleaned U s) ws) (hl : ws.length ≠ 1) :
    ∃ codes, ws.map (e.encode U R) = codes.map .ok ∧ e.encode U R s = .ok (separated c!"-" codes) := by
  have he := engineWF_of_built h hany
  obtain ⟨codes, h1, h2⟩ := encodeWords_ok (recur := e.encode U R) (ws := ws) fun w _ => encode_ok U R e he w
  refine ⟨codes, h2, ?_⟩
  rw [encode_eq, encodeWith_words U R e _ s _ he (knows_guess he U R s) hp hc hw hl, h1]
  rfl

/-- C54: a single text: its phonemes, separated by bars. -/
theorem bm_encode_text (U : Unicode) (R : RegexEngine) (o : Origin) (e : Engine) (h : BuiltFrom U R o e)
    (hany : Offers o e.nameType c!"any") (s : Str) (ws : List Str)
    (hp : e.nameType = .generic → ∀ p r, ¬ NamePrefix (cleaned U s) p r)
    (hw : Words U (cleaned U s) ws) (hc : e.concat = true ∨ ws.length = 1) :
    e.encode U R s =
      .ok (bars ((textPhonemes R e (e.lang.guessLanguages U R s) (nameText e ws)).map Phoneme.text)) := by
  have he := engineWF_of_built h hany
  rw [encode_eq]
  exact encodeWith_text U R e _ s _ he (knows_guess he U R s) hp hw hc

/-- C54: the three cases are exhaustive, and the prefix and the words are determined. -/
theorem bm_encode_cases (U : Unicode) (s : Str) :
    (∃ ws, Words U (cleaned U s) ws) ∧ (∀ ws ws', Words U (cleaned U s) ws → Words U (cleaned U s) ws' → ws = ws') ∧
    ∀ p r p' r', NamePrefix (cleaned U s) p r → NamePrefix (cleaned U s) p' r' → p = p' ∧ r = r' := by
  refine ⟨words_exist U _, fun ws ws' h h' => (words_eq h).symm.trans (words_eq h'), fun p r p' r' h h' => ?_⟩
  exact namePrefix_unique h h'

/-- A name with an article, a name with a prefix that is itself a prefix, and several words. -/
theorem bm_encode_structure_example :
    SampleBM.code .generic .exact true 20 c!"D'Ab" = some c!"(ab|ob)-(ab|ob)" ∧
    SampleBM.code .generic .exact true 20 c!"de la ab" =
      some c!"(aab|aob|oab|oob)-((ab|ob)-(aab|aob|oab|oob))" ∧
    SampleBM.code .generic .exact false 20 c!"Ab-Bb" = some c!"ab|ob-bb" ∧
    SampleBM.code .sephardic .exact true 20 c!"de L'Ab" = some c!"ab|ob" := by decide +kernel

/-! ## Sorted set -/

theorem noBars_text {R : RegexEngine} {e : Engine} (hb : NoBars e) (ls : LanguageSet) (text : Str) :
    ∀ t ∈ (textPhonemes R e ls text).map Phoneme.text, '|' ∉ t := by
  have key : ∀ rt l, ∀ c, ∀ r ∈ rulesFor (rulesOf e rt l) c, ∀ p ∈ r.phoneme, ∀ x ∈ p.text, x ≠ '|' := by
    intro rt l c r hr p hp x hx he
    unfold rulesOf at hr
    cases hm : e.rules.get? (e.nameType, rt, l) with
    | none => rw [hm] at hr; exact absurd hr (by simp [rulesFor, Assoc.get?])
    | some m =>
      rw [hm] at hr
      exact hb _ m hm c r hr p hp (he ▸ hx)
  intro t ht hm
  refine phonemesOf_all (Q := fun x => x ≠ '|') ?_ t ht '|' hm rfl
  rintro m (rfl | rfl | rfl)
  · exact key _ _
  · exact key _ _
  · exact key _ _

/-- C44: the output for a single text is a list of strictly increasing phonemes, separated by bars. -/
theorem bm_output_sorted (U : Unicode) (R : RegexEngine) (o : Origin) (e : Engine) (h : BuiltFrom U R o e)
    (hany : Offers o e.nameType c!"any") (s : Str) (ws : List Str)
    (hp : e.nameType = .generic → ∀ p r, ¬ NamePrefix (cleaned U s) p r)
    (hw : Words U (cleaned U s) ws) (hc : e.concat = true ∨ ws.length = 1) :
    ∃ ts : List Str, e.encode U R s = .ok (bars ts) ∧ ts.Pairwise (· < ·) := by
  refine ⟨_, bm_encode_text U R o e h hany s ws hp hw hc, ?_⟩
  rw [List.pairwise_map]
  exact phonemesOf_sorted _ _ _ _ _ _ _

/-- C44: when no phoneme of the rules contains a bar, splitting the output at the bars gives the strictly
increasing phonemes. -/
theorem bm_output_split_sorted (U : Unicode) (R : RegexEngine) (o : Origin) (e : Engine)
    (h : BuiltFrom U R o e) (hany : Offers o e.nameType c!"any") (hb : NoBars e) (s : Str) (ws : List Str)
    (hp : e.nameType = .generic → ∀ p r, ¬ NamePrefix (cleaned U s) p r)
    (hw : Words U (cleaned U s) ws) (hc : e.concat = true ∨ ws.length = 1) :
    ∃ code, e.encode U R s = .ok code ∧ (splitOnChar '|' code).Pairwise (· < ·) := by
  refine ⟨_, bm_encode_text U R o e h hany s ws hp hw hc, ?_⟩
  generalize hts : (textPhonemes R e (e.lang.guessLanguages U R s) (nameText e ws)).map Phoneme.text = ts
  have hnb : ∀ t ∈ ts, '|' ∉ t := by rw [← hts]; exact noBars_text hb _ _
  have hsort : ts.Pairwise (· < ·) := by
    rw [← hts, List.pairwise_map]; exact phonemesOf_sorted _ _ _ _ _ _ _
  cases ts with
  | nil => simp [bars, splitOnChar]
  | cons t ts => rw [splitOnChar_bars _ (by simp) hnb]; exact hsort

/-- Four phonemes, in order. -/
theorem bm_output_sorted_example : ∃ e, BuiltFrom .latin1 SampleBM.regex (.directory SampleBM.dir) e ∧
    Offers (.directory SampleBM.dir) e.nameType c!"any" ∧ NoBars e ∧
    e.encode .latin1 SampleBM.regex c!"Aba" = .ok c!"aba|abo|oba|obo" := by
  have h : SampleBM.code .generic .exact true 20 c!"Aba" = some c!"aba|abo|oba|obo" := by decide +kernel
  unfold SampleBM.code at h
  cases he : SampleBM.encoder .generic .exact true 20 with
  | none => rw [he] at h; cases h
  | some e =>
    rw [he] at h
    refine ⟨e, SampleBM.builtFrom he, (SampleBM.lists _ _).mpr (.inl rfl), SampleBM.noBars he, ?_⟩
    simp only [Option.bind_some] at h
    unfold Except.toOption at h
    split at h
    · rename_i x hx; cases h; exact hx
    · cases h

/-! ## The maximum -/

/-- C45: applying a rule to the phonemes so far: the combinations with a common language, at most `max` of
them. -/
theorem bm_apply_rule (ps alternatives : List Phoneme) (max : Nat) :
    (PhonemeBuilder.apply ps alternatives max).length ≤ max ∧
    (PhonemeBuilder.apply ps alternatives max).Pairwise (fun p q => p.text < q.text) ∧
    ∀ x ∈ PhonemeBuilder.apply ps alternatives max, ∃ p ∈ ps, ∃ a ∈ alternatives,
      x.text = p.text ++ a.text ∧ (∀ l, Denotes x.languages l ↔ Denotes p.languages l ∧ Denotes a.languages l) ∧
      ∃ l, Denotes x.languages l := by
  rw [apply_eq]
  refine ⟨combine_length _ _ _, combine_sorted _ _ _, fun x hx => ?_⟩
  obtain ⟨p, hp, a, ha, h1, h2, h3⟩ := mem_combine hx
  refine ⟨p, hp, a, ha, h1, fun l => ?_, ?_⟩
  · rw [h2]
    cases p.languages <;> cases a.languages <;> simp [LanguageSet.restrictTo, Denotes, StrSet.inter]
  · cases hl : x.languages with
    | any => exact ⟨[], trivial⟩
    | noLanguages => rw [hl] at h3; cases h3
    | someLanguages s =>
      rw [hl] at h3
      cases s with
      | nil => cases h3
      | cons a s => exact ⟨a, List.mem_cons_self⟩

/-- C45: below the maximum nothing is lost: the text of every combination with a common language is there. -/
theorem bm_apply_rule_complete (ps alternatives : List Phoneme) (max : Nat)
    (h : (PhonemeBuilder.apply ps alternatives max).length < max) (p a : Phoneme) (hp : p ∈ ps)
    (ha : a ∈ alternatives) (hl : ∃ l, Denotes p.languages l ∧ Denotes a.languages l) :
    ∃ x ∈ PhonemeBuilder.apply ps alternatives max, x.text = p.text ++ a.text := by
  rw [apply_eq] at h ⊢
  have hne : (p.languages.restrictTo a.languages).isEmpty = false := by
    obtain ⟨l, h1, h2⟩ := hl
    cases hp' : p.languages <;> cases ha' : a.languages <;> rw [hp'] at h1 <;> rw [ha'] at h2
    all_goals simp only [LanguageSet.restrictTo, LanguageSet.isEmpty, Denotes] at *
    · cases h : ‹StrSet› with
      | nil => rw [h] at h2; cases h2
      | cons _ _ => rfl
    · cases h : ‹StrSet› with
      | nil => rw [h] at h1; cases h1
      | cons _ _ => rfl
    · rename_i s t
      rw [Bool.eq_false_iff]
      intro he
      have := List.isEmpty_iff.mp he
      have hm : l ∈ StrSet.inter s t := List.mem_filter.mpr ⟨h1, by simpa using h2⟩
      rw [this] at hm; cases hm
  have hmem : (⟨p.text ++ a.text, p.languages.restrictTo a.languages⟩ : Phoneme) ∈ combinations ps alternatives := by
    unfold combinations
    refine List.mem_flatMap.mpr ⟨p, hp, List.mem_filterMap.mpr ⟨a, ha, ?_⟩⟩
    rw [if_neg (by simp [hne])]
  obtain ⟨q, hq, he⟩ := text_mem_firstOfEachText hmem
  refine ⟨q, ?_, he⟩
  unfold combine at h ⊢
  rw [(sortByText_perm _).length_eq, List.length_take] at h
  rw [mem_sortByText, List.take_of_length_le (by omega)]
  exact hq

/-- C45: the number of phonemes in the output for a single text. The main rules give at most `max_phonemes`
(at least one); each of the two sets of final rules may multiply their number by as much. -/
theorem bm_output_count (U : Unicode) (R : RegexEngine) (o : Origin) (e : Engine) (h : BuiltFrom U R o e)
    (hany : Offers o e.nameType c!"any") (s : Str) (ws : List Str)
    (hp : e.nameType = .generic → ∀ p r, ¬ NamePrefix (cleaned U s) p r)
    (hw : Words U (cleaned U s) ws) (hc : e.concat = true ∨ ws.length = 1) :
    ∃ ts : List Str, e.encode U R s = .ok (bars ts) ∧ ts.length ≤ (max 1 e.maxPhonemes) ^ 3 ∧
      (rulesOf e e.ruleType c!"common" = [] →
        rulesOf e e.ruleType (languageOf (e.lang.guessLanguages U R s)) = [] → ts.length ≤ max 1 e.maxPhonemes) := by
  refine ⟨_, bm_encode_text U R o e h hany s ws hp hw hc, ?_, ?_⟩
  · rw [List.length_map]; exact phonemesOf_length _ _ _ _ _ _ _
  · intro h1 h2
    rw [List.length_map]
    unfold textPhonemes
    rw [h1, h2]
    exact phonemesOf_length_main _ _ _ _ _

/-- The output may contain more phonemes than the maximum: three, with a maximum of two. -/
theorem bm_output_exceeds_max : ∃ e, BuiltFrom .latin1 SampleBM.regex (.directory SampleBM.dir) e ∧
    Offers (.directory SampleBM.dir) e.nameType c!"any" ∧ e.maxPhonemes = 2 ∧
    e.encode .latin1 SampleBM.regex c!"a" = .ok c!"a|e|o" := by
  have h : SampleBM.code .generic .approx true 2 c!"a" = some c!"a|e|o" := by decide +kernel
  obtain ⟨e, h1, _, _, _, h5, h6⟩ := SampleBM.code_some h
  exact ⟨e, h1, (SampleBM.lists _ _).mpr (.inl rfl), h5, h6⟩

/-- Applying a rule with a maximum of two to two phonemes: "ab" and "ac" fill the set, so "db" and "dc" are
never looked at; languages are intersected. -/
theorem bm_apply_rule_example :
    let a : Phoneme := ⟨c!"a", .someLanguages [c!"french", c!"welsh"]⟩
    let d : Phoneme := ⟨c!"d", .any⟩
    let b : Phoneme := ⟨c!"b", .someLanguages [c!"welsh"]⟩
    let x : Phoneme := ⟨c!"x", .someLanguages [c!"dutch"]⟩
    let c : Phoneme := ⟨c!"c", .any⟩
    PhonemeBuilder.apply [a, d] [c, x, b] 2 =
      [⟨c!"ab", .someLanguages [c!"welsh"]⟩, ⟨c!"ac", .someLanguages [c!"french", c!"welsh"]⟩] ∧
    PhonemeBuilder.apply [a, d] [c, x, b] 20 =
      [⟨c!"ab", .someLanguages [c!"welsh"]⟩, ⟨c!"ac", .someLanguages [c!"french", c!"welsh"]⟩,
        ⟨c!"db", .someLanguages [c!"welsh"]⟩, ⟨c!"dc", .any⟩, ⟨c!"dx", .someLanguages [c!"dutch"]⟩] := by
  decide +kernel

/-- When two combinations have the same text, only the languages of the first are kept: the phoneme "ab" is
common to both languages here, but it is kept for French only. -/
theorem bm_same_text_loses_languages :
    PhonemeBuilder.apply [⟨c!"a", .someLanguages [c!"french"]⟩, ⟨c!"ab", .someLanguages [c!"welsh"]⟩]
      [⟨c!"b", .any⟩, ⟨[], .any⟩] 20 =
    [⟨c!"a", .someLanguages [c!"french"]⟩, ⟨c!"ab", .someLanguages [c!"french"]⟩,
      ⟨c!"abb", .someLanguages [c!"welsh"]⟩] := by decide +kernel

/-! ## Origin of the phonemes -/

/-- C55: every phoneme of the main pass is a choice of one alternative for each segment covered by a rule, and
its languages are the languages that the encoder started with that all of them have. -/
theorem bm_main_phonemes (R : RegexEngine) (max : Nat) (rules : RuleMap) (hm : RuleMapWF rules) (text : Str)
    (ls : LanguageSet) (ps : PhonemeBuilder)
    (h : mainLoop R max rules (.ofStr text) (text.length + 1) 0 (.empty ls) = .ok ps) :
    ∀ x ∈ ps, ∃ choice, Choice false (segments R (rulesFor rules) [] 0 text) choice ∧ x.text = choiceText choice ∧
      ∀ l, Denotes x.languages l ↔ Denotes ls l ∧ ∀ p ∈ choice, Denotes p.languages l := by
  rw [mainLoop_eq R max rules hm text _ 0 (by omega)] at h
  simp only [Except.ok.injEq, List.take_zero, List.drop_zero] at h
  subst h
  intro x hx
  obtain ⟨a, h1, h2, h3⟩ := mainPass_origin hx
  refine ⟨a, h1, h2, fun l => ?_⟩
  rw [h3]
  clear h1 h2 h3 hx
  induction a generalizing ls with
  | nil => simp [choiceLanguages]
  | cons p a ih =>
    have := ih (ls.restrictTo p.languages)
    simp only [choiceLanguages, List.foldl_cons] at this ⊢
    rw [this]
    have hr : Denotes (ls.restrictTo p.languages) l ↔ Denotes ls l ∧ Denotes p.languages l := by
      cases ls <;> cases p.languages <;> simp [LanguageSet.restrictTo, Denotes, StrSet.inter]
    rw [hr]
    simp [and_assoc]

/-- The two phonemes of "a" in the main pass, and their languages. -/
theorem bm_main_phonemes_example :
    let r : Rule := ⟨c!"f", 1, .optimized .allStrings, c!"a", 1, .optimized .allStrings,
      [⟨c!"a", .any⟩, ⟨c!"o", .someLanguages [c!"french"]⟩]⟩
    RuleMapWF [('a', [r])] ∧
    mainLoop SampleBM.regex 20 [('a', [r])] (.ofStr c!"za") 3 0 (.empty .any) =
      .ok [⟨c!"a", .any⟩, ⟨c!"o", .someLanguages [c!"french"]⟩] := by
  refine ⟨EntriesWF.wf ?_, by decide +kernel⟩
  intro p hp r hr
  rw [List.mem_singleton.mp hp] at hr ⊢
  rw [List.mem_singleton.mp hr]
  exact ⟨rfl, rfl⟩

/-! ## Case, hyphens and blanks -/

/-- C56: the code depends on the lower case of the text only. -/
theorem bm_encode_case (U : Unicode) (R : RegexEngine) (e : Engine) (s t : Str) (h : U.strLower s = U.strLower t) :
    e.encode U R s = e.encode U R t := by
  have hg : e.lang.guessLanguages U R s = e.lang.guessLanguages U R t := by
    unfold Lang.guessLanguages; rw [h]
  rw [encode_eq, encode_eq U R e t, hg, encodeWith_rest, encodeWith_rest]
  unfold cleaned
  rw [h]

/-- C56: with given languages, hyphens and spaces are equivalent, and the case does not matter. -/
theorem bm_encode_with_languages_case (U : Unicode) (R : RegexEngine) (e : Engine) (s t : Str) (ls : LanguageSet)
    (h : cleaned U s = cleaned U t) : e.encodeWithLanguages U R s ls = e.encodeWithLanguages U R t ls := by
  rw [encodeWithLanguages_eq, encodeWithLanguages_eq, encodeWith_rest, encodeWith_rest, h]

/-- C57: a text of whitespace and hyphens has the empty code. -/
theorem bm_encode_blank (U : Unicode) (R : RegexEngine) (o : Origin) (e : Engine) (h : BuiltFrom U R o e)
    (hany : Offers o e.nameType c!"any") (s : Str) (hs : ∀ c ∈ cleaned U s, U.isWhitespace c = true) :
    e.encode U R s = .ok [] := by
  have hwords : ∀ t : Str, (∀ c ∈ t, U.isWhitespace c = true) → Words U t [] := by
    intro t
    induction t with
    | nil => intro _; exact .nil
    | cons c t ih =>
      intro ht
      exact .space (ht c List.mem_cons_self) (ih fun d hd => ht d (List.mem_cons_of_mem _ hd))
  have hw := hwords _ hs
  have hnp : ∀ p r, ¬ NamePrefix (cleaned U s) p r := by
    intro p r hp
    have hd : U.isWhitespace 'd' = false := by rw [U.isWhitespace_ascii _ (by decide)]; decide
    have hv : U.isWhitespace 'v' = false := by rw [U.isWhitespace_ascii _ (by decide)]; decide
    rcases hp with ⟨rfl, he⟩ | ⟨hp, he⟩
    · have := hs 'd' (by rw [he]; exact List.mem_cons_self)
      rw [hd] at this; cases this
    · have : 'd' ∈ p ∨ 'v' ∈ p := by
        revert hp; revert p; simp only [genericPrefixes]; intro p _ hp
        revert hp
        simp only [List.mem_cons, List.not_mem_nil, or_false]
        rintro (rfl | rfl | rfl | rfl | rfl | rfl | rfl | rfl | rfl | rfl | rfl | rfl | rfl) <;> decide
      rcases this with hm | hm
      · have := hs 'd' (by rw [he]; exact List.mem_append_left _ hm)
        rw [hd] at this; cases this
      · have := hs 'v' (by rw [he]; exact List.mem_append_left _ hm)
        rw [hv] at this; cases this
  cases hc : e.concat with
  | false =>
    obtain ⟨codes, h1, h2⟩ := bm_encode_words U R o e h hany s [] (fun _ => hnp) hc hw (by simp)
    cases codes with
    | nil => exact h2
    | cons _ _ => cases h1
  | true =>
    rw [bm_encode_text U R o e h hany s [] (fun _ => hnp) hw (.inl hc)]
    have ht : nameText e [] = [] := by
      unfold nameText keptWords
      rw [hc]
      cases e.nameType <;> rfl
    rw [ht]
    have : ∀ ls, (textPhonemes R e ls []).map Phoneme.text = [[]] := by
      intro ls
      have hm : ∀ max (rules : RuleMap), mainPass max ls (segments R (rulesFor rules) [] 0 []) = [⟨[], ls⟩] := by
        intro max rules; rfl
      have hf : ∀ max (rules : RuleMap), finalPass R max (rulesFor rules) [⟨[], ls⟩] = [⟨[], ls⟩] := by
        intro max rules
        simp [finalPass, refinePhoneme, segments, addPhonemes, sortByText]
      unfold textPhonemes phonemesOf
      dsimp only
      rw [hm]
      simp only [hf, ite_self]
      rfl
    rw [this]
    rfl

/-- C57: in particular a text of ASCII blanks and hyphens has the empty code. -/
theorem bm_encode_blank_ascii (U : Unicode) (R : RegexEngine) (o : Origin) (e : Engine) (h : BuiltFrom U R o e)
    (hany : Offers o e.nameType c!"any") (s : Str) (hs : ∀ c ∈ s, c ∈ c!" \t\n\r-") :
    e.encode U R s = .ok [] := by
  have ha : AsciiStr s := by
    intro c hc
    have : ∀ c ∈ c!" \t\n\r-", isAscii c = true := by decide
    exact this c (hs c hc)
  refine bm_encode_blank U R o e h hany s fun c hc => ?_
  unfold cleaned at hc
  rw [strLower_ascii U ha, List.map_map, List.mem_map] at hc
  obtain ⟨d, hd, rfl⟩ := hc
  have : ∀ d ∈ c!" \t\n\r-", isAscii (((fun c => if c = '-' then ' ' else c) ∘ asciiLower) d) = true ∧
      isAsciiWs (((fun c => if c = '-' then ' ' else c) ∘ asciiLower) d) = true := by decide +kernel
  obtain ⟨h1, h2⟩ := this d (hs d hd)
  rw [U.isWhitespace_ascii _ h1]
  exact h2

end Verif.Props
