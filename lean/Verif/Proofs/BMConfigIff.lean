import Verif.Proofs.BMRuleFile
import Verif.Proofs.BMLangFile
import Verif.Spec.BMConfig
/-!
# When a configuration loads, and what it contains
-/

set_option linter.unusedSimpArgs false
set_option linter.unusedVariables false

namespace Verif.BMProofs
open BM Spec Props
open DMKProofs (get?_insert)

theorem parseLang_ok {R : RegexEngine} {fn : Option Str} {content : Str} {ls : StrSet} {lang : Lang}
    (h : parseLang R fn content ls = .ok (.ok lang)) :
    ∃ items, Reading LangItem.Reads content items [] ∧ Valid R items ∧ lang = ⟨ls, itemRules 0 items⟩ := by
  obtain ⟨items, t, hr, ht⟩ := reading_exists (reads := LangItem.Reads) (fun _ _ _ => langItem_shorter) content
  rcases valid_or (R := R) hr with hv | ⟨before, p, l, a, tl, u, r, m, after, h1, h2, h3, h4, h5, h6⟩
  · rcases ht with rfl | ht
    · rw [parseLang_reading hr hv] at h
      simp only [Except.ok.injEq] at h
      exact ⟨items, hr, hv, h.symm⟩
    · rw [parseLang_stuck hr hv ht] at h; cases h
  · rw [parseLang_invalid h1 h2 h3 h4 h5] at h; cases h

theorem langsLoop_exact {R : RegexEngine} {dir : Directory} {languages : Languages} {nts : List NameType}
    {langs langs' : Langs} (h : langsLoop R dir languages nts langs = .ok (.ok langs'))
    (hl : ∀ nt lang, langs.get? nt = some lang → ∃ content l, languages.get? nt = some l ∧
      dir.read (langFilename nt) = some content ∧ parseLang R (some (langFilename nt)) content l = .ok (.ok lang)) :
    ∀ nt lang, langs'.get? nt = some lang → ∃ content l, languages.get? nt = some l ∧
      dir.read (langFilename nt) = some content ∧ parseLang R (some (langFilename nt)) content l = .ok (.ok lang) := by
  induction nts generalizing langs with
  | nil => cases h; exact hl
  | cons nt nts ih =>
    simp only [langsLoop] at h
    cases hg : languages.get? nt with
    | none => rw [hg] at h; cases h
    | some l =>
      rw [hg] at h
      simp only at h
      cases hr : dir.read (nt.display ++ c!"_lang.txt") with
      | none => rw [hr] at h; cases h
      | some content =>
        rw [hr] at h
        simp only [bind, Except.bind] at h
        cases hp : parseLang R (some (nt.display ++ c!"_lang.txt")) content l with
        | error e => rw [hp] at h; cases h
        | ok x =>
          rw [hp] at h
          cases x with
          | error e => cases h
          | ok lang =>
            simp only at h
            refine ih h ?_
            intro n lg hn
            rw [get?_insert] at hn
            split at hn
            · rename_i e; cases hn; subst e; exact ⟨content, l, hg, hr, hp⟩
            · exact hl n lg hn

/-- Each name type has a list of languages. -/
theorem languagesLoop_total {dir : Directory}
    (hok : ∀ nt : NameType, ∃ content l, dir.read nt.languageFilename = some content ∧ parseList content = .ok (.ok l))
    (names : List Str) (map : Languages) : ∃ map', languagesLoop dir names map = .ok (.ok map') := by
  induction names generalizing map with
  | nil => exact ⟨map, rfl⟩
  | cons name names ih =>
    simp only [languagesLoop]
    cases ho : NameType.ofFilename name with
    | error e => exact ih map
    | ok n =>
      obtain ⟨content, l, h1, h2⟩ := hok n
      rw [ofFilename_ok ho, h1]
      simp only [bind, Except.bind, h2]
      exact ih _

/-- Only listed files count. -/
theorem languagesLoop_listed {dir : Directory} {names : List Str} {map map' : Languages}
    (h : languagesLoop dir names map = .ok (.ok map')) (nt : NameType) :
    (∃ l, map'.get? nt = some l) → nt.languageFilename ∈ names ∨ ∃ l, map.get? nt = some l := by
  induction names generalizing map with
  | nil => cases h; exact .inr
  | cons name names ih =>
    simp only [languagesLoop] at h
    cases ho : NameType.ofFilename name with
    | error e =>
      rw [ho] at h
      exact fun hx => (ih h hx).imp (List.mem_cons_of_mem _) id
    | ok n =>
      have hname := ofFilename_ok ho
      rw [ho] at h
      simp only at h
      cases hr : dir.read name with
      | none => rw [hr] at h; cases h
      | some content =>
        rw [hr] at h
        simp only [bind, Except.bind] at h
        cases hp : parseList content with
        | error e => rw [hp] at h; cases h
        | ok x =>
          rw [hp] at h
          cases x with
          | error e => cases h
          | ok l =>
            simp only at h
            intro hx
            rcases ih h hx with hx | ⟨l', hx⟩
            · exact .inl (List.mem_cons_of_mem _ hx)
            · rw [get?_insert] at hx
              split at hx
              · rename_i e; subst e; left; rw [← hname]; exact List.mem_cons_self
              · exact .inr ⟨l', hx⟩

theorem langsLoop_total {R : RegexEngine} {dir : Directory} {languages : Languages}
    (hok : ∀ nt : NameType, ∃ l content lang, languages.get? nt = some l ∧ dir.read (langFilename nt) = some content ∧
      parseLang R (some (langFilename nt)) content l = .ok (.ok lang)) (nts : List NameType) (langs : Langs) :
    ∃ langs', langsLoop R dir languages nts langs = .ok (.ok langs') := by
  induction nts generalizing langs with
  | nil => exact ⟨langs, rfl⟩
  | cons nt nts ih =>
    obtain ⟨l, content, lang, h1, h2, h3⟩ := hok nt
    unfold langFilename at h2 h3
    simp only [langsLoop, h1, h2, bind, Except.bind, h3]
    exact ih _

theorem loadFiles_total {U : Unicode} {R : RegexEngine} {resolver : Resolver} {depth : Nat}
    (files : List (Str × (NameType × PrivateRuleType × Str)))
    (hok : ∀ f ∈ files, ∃ m, parseRule U R resolver depth f.1 = .ok (.ok m)) (rules : Rules) :
    ∃ rules', loadFiles U R resolver depth files rules = .ok (.ok rules') := by
  induction files generalizing rules with
  | nil => exact ⟨rules, rfl⟩
  | cons f files ih =>
    obtain ⟨fn, key⟩ := f
    obtain ⟨m, hm⟩ := hok _ List.mem_cons_self
    simp only [loadFiles, bind, Except.bind, hm]
    exact ih (fun f hf => hok f (List.mem_cons_of_mem _ hf)) _

theorem rulesLoop_total {U : Unicode} {R : RegexEngine} {resolver : Resolver} {depth : Nat} {languages : Languages}
    (hok : ∀ nt : NameType, ∃ l, languages.get? nt = some l ∧
      ∀ rt x, (x ∈ l ∨ rt ≠ .rules ∧ x = c!"common") → ∃ m, parseRule U R resolver depth (keyFilename (nt, rt, x)) = .ok (.ok m))
    (nts : List NameType) (rules : Rules) :
    ∃ rules', rulesLoop U R resolver depth languages nts rules = .ok (.ok rules') := by
  induction nts generalizing rules with
  | nil => exact ⟨rules, rfl⟩
  | cons nt nts ih =>
    obtain ⟨l, h1, h2⟩ := hok nt
    obtain ⟨rules1, h3⟩ := loadFiles_total (U := U) (R := R) (resolver := resolver) (depth := depth)
      (PrivateRuleType.all.flatMap (ruleFiles nt l)) (fun f hf => by
        obtain ⟨rt, _, hf⟩ := List.mem_flatMap.mp hf
        obtain ⟨e0, e1, e2, e3⟩ := mem_ruleFiles hf
        obtain ⟨fn, n, rt', x⟩ := f
        simp only at e0 e1 e2 e3
        subst e1 e2
        obtain ⟨m, hm⟩ := h2 rt' x e3
        exact ⟨m, by rw [e0]; exact hm⟩) rules
    simp only [rulesLoop, h1, bind, Except.bind, h3]
    exact ih _

theorem config_of {U : Unicode} {R : RegexEngine} {depth : Nat} {dir : Directory} {ls : Languages} {langs : Langs}
    {rules : Rules} (h1 : languagesOfDir dir = .ok (.ok ls)) (h2 : buildLangs R dir ls = .ok (.ok langs))
    (h3 : buildRules U R (Resolver.ofDir dir) depth ls = .ok (.ok rules)) :
    ConfigFiles.new U R depth dir = .ok (.ok ⟨langs, rules⟩) := by
  simp only [ConfigFiles.new, bind, Except.bind, h1, h2, h3]
  rfl

/-- Membership in the parsed list of languages. -/
theorem mem_list_iff {dir : Directory} {nt : NameType} {content : Str} {l : StrSet}
    (hr : dir.read nt.languageFilename = some content) (hp : parseList content = .ok (.ok l)) (x : Str) :
    x ∈ l ↔ Lists dir nt x := by
  rw [mem_parseList hp]
  constructor
  · rintro ⟨items, tail, h1, h2⟩; exact ⟨content, items, tail, hr, h1, h2⟩
  · rintro ⟨content', items, tail, hr', h1, h2⟩
    rw [hr] at hr'; cases hr'
    exact ⟨items, tail, h1, h2⟩

theorem needs_iff {dir : Directory} {nt : NameType} {content : Str} {l : StrSet}
    (hr : dir.read nt.languageFilename = some content) (hp : parseList content = .ok (.ok l)) (rt : PrivateRuleType)
    (x : Str) : (x ∈ l ∨ rt ≠ .rules ∧ x = c!"common") ↔ NeedsRules dir nt rt x := by
  rw [mem_list_iff hr hp]; rfl

theorem parseList_sorted {content : Str} {l : StrSet} (h : parseList content = .ok (.ok l)) : StrSetWF l := by
  obtain ⟨items, _, rfl⟩ := parseList_ok h
  exact foldl_addLanguage_sorted items [] List.Pairwise.nil

/-- A configuration that was loaded contains what the files say. -/
theorem config_loaded {U : Unicode} {R : RegexEngine} {depth : Nat} {dir : Directory} {cfg : ConfigFiles}
    (h : ConfigFiles.new U R depth dir = .ok (.ok cfg)) : Loaded U R depth dir cfg := by
  obtain ⟨ls, h1, h2, h3⟩ := config_spec h
  obtain ⟨r1, r2⟩ := buildRules_exact h3
  have l1 := (languagesLoop_spec h1 (by intro nt l hn; cases hn)).1
  obtain ⟨g1, g2⟩ := langsLoop_spec h2 (by intro nt l hn; cases hn)
  have g3 := langsLoop_exact h2 (by intro nt l hn; cases hn)
  intro nt
  obtain ⟨l, k1, _⟩ := (buildRules_spec h3).2 nt
  obtain ⟨content, c1, c2⟩ := l1 nt l k1
  refine ⟨?_, fun rt x => ⟨?_, fun m hm => ?_⟩⟩
  · obtain ⟨lang, hlang⟩ := g2 nt (.inl (by cases nt <;> decide))
    obtain ⟨content', l', e1, e2, e3⟩ := g3 nt lang hlang
    rw [k1] at e1; cases e1
    obtain ⟨items, i1, i2, rfl⟩ := parseLang_ok e3
    have hs := itemRules_spec 0 items
    exact ⟨_, content', items, hlang, parseList_sorted c2, mem_list_iff c1 c2, e2, i1, hs.1, hs.2⟩
  · rw [r2, ← needs_iff c1 c2]
    constructor
    · rintro ⟨l', e, hx⟩
      rw [k1] at e; cases e
      exact hx
    · exact fun hx => ⟨l, k1, hx⟩
  · exact (parseRule_proper (r1 _ _ hm)).2

/-- The files that must be there, and readable. -/
theorem loadable_of_config {U : Unicode} {R : RegexEngine} {depth : Nat} {dir : Directory} {cfg : ConfigFiles}
    (h : ConfigFiles.new U R depth dir = .ok (.ok cfg)) : Loadable U R depth dir := by
  obtain ⟨ls, h1, h2, h3⟩ := config_spec h
  have l1 := (languagesLoop_spec h1 (by intro nt l hn; cases hn)).1
  obtain ⟨g1, g2⟩ := langsLoop_spec h2 (by intro nt l hn; cases hn)
  have g3 := langsLoop_exact h2 (by intro nt l hn; cases hn)
  have hl := config_loaded h
  intro nt
  obtain ⟨l, k1, _⟩ := (buildRules_spec h3).2 nt
  obtain ⟨content, c1, c2⟩ := l1 nt l k1
  obtain ⟨lang, hlang⟩ := g2 nt (.inl (by cases nt <;> decide))
  obtain ⟨content', l', e1, e2, e3⟩ := g3 nt lang hlang
  obtain ⟨items, i1, i2, -⟩ := parseLang_ok e3
  obtain ⟨items', i3, -⟩ := parseList_ok c2
  refine ⟨?_, ⟨content, items', c1, i3⟩, ⟨content', items, e2, i1, i2⟩, fun rt x hx => ?_⟩
  · rcases languagesLoop_listed h1 nt ⟨l, k1⟩ with hx | ⟨l, hx⟩
    · exact hx
    · cases hx
  · obtain ⟨m, hm⟩ := ((hl nt).2 rt x).1.mpr hx
    exact ⟨_, ((hl nt).2 rt x).2 m hm⟩

theorem config_of_loadable {U : Unicode} {R : RegexEngine} {depth : Nat} {dir : Directory}
    (h : Loadable U R depth dir) : ∃ cfg, ConfigFiles.new U R depth dir = .ok (.ok cfg) := by
  obtain ⟨ls, h1⟩ := languagesLoop_total (dir := dir) (fun nt => by
    obtain ⟨-, ⟨content, items, c1, c2⟩, -⟩ := h nt
    exact ⟨content, _, c1, parseList_reading c2⟩) dir.entries []
  obtain ⟨s1, s2⟩ := languagesLoop_spec h1 (by intro nt l hn; cases hn)
  obtain ⟨langs, h2⟩ := langsLoop_total (R := R) (dir := dir) (languages := ls) (fun nt => by
    obtain ⟨e, -, ⟨content, items, c1, c2, c3⟩, -⟩ := h nt
    obtain ⟨l, hl⟩ := s2 nt (.inl e)
    exact ⟨l, content, _, hl, c1, parseLang_reading c2 c3⟩) NameType.all []
  obtain ⟨rules, h3⟩ := rulesLoop_total (U := U) (R := R) (resolver := Resolver.ofDir dir) (depth := depth)
    (languages := ls) (fun nt => by
      obtain ⟨e, -, -, hr⟩ := h nt
      obtain ⟨l, hl⟩ := s2 nt (.inl e)
      obtain ⟨content, c1, c2⟩ := s1 nt l hl
      refine ⟨l, hl, fun rt x hx => ?_⟩
      obtain ⟨out, ho⟩ := hr rt x ((needs_iff c1 c2 rt x).mp hx)
      obtain ⟨m, hm, -⟩ := parseRule_of_fileRules ho
      exact ⟨m, hm⟩) NameType.all []
  exact ⟨_, config_of h1 h2 h3⟩

end Verif.BMProofs
