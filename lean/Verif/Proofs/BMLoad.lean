import Verif.Proofs.BMEncode
import Verif.Proofs.DaitchMokotoff

set_option linter.unusedSimpArgs false
set_option linter.unusedVariables false

namespace Verif.BMProofs
open BM Spec
open DMKProofs (get?_insert)

/-! ## Rule maps -/

/-- Every rule is under the first letter of its pattern. -/
def EntriesWF (m : RuleMap) : Prop :=
  ∀ p ∈ m, ∀ r ∈ p.2, r.pattern.head? = some p.1 ∧ r.patternLengthChar = r.pattern.length

theorem get?_mem {κ β : Type} [BEq κ] [LawfulBEq κ] {m : Assoc κ β} {k : κ} {v : β} (h : m.get? k = some v) :
    (k, v) ∈ m := by
  unfold Assoc.get? at h
  induction m with
  | nil => cases h
  | cons p m ih =>
    obtain ⟨a, b⟩ := p
    rw [List.lookup_cons] at h
    split at h
    · rename_i e
      rw [beq_iff_eq] at e
      cases h
      rw [e]; exact List.mem_cons_self
    · exact List.mem_cons_of_mem _ (ih h)

theorem EntriesWF.wf {m : RuleMap} (h : EntriesWF m) : RuleMapWF m := by
  intro c r hr
  unfold rulesFor at hr
  cases hg : m.get? c with
  | none => rw [hg] at hr; exact absurd hr List.not_mem_nil
  | some v => rw [hg] at hr; exact h _ (get?_mem hg) r hr

theorem entriesWF_nil : EntriesWF [] := by intro p hp; exact absurd hp List.not_mem_nil

theorem entriesWF_insert {m : RuleMap} (h : EntriesWF m) {c : Char} {rs : List Rule}
    (hr : ∀ r ∈ rs, r.pattern.head? = some c ∧ r.patternLengthChar = r.pattern.length) :
    EntriesWF (m.insert c rs) := by
  intro p hp
  rcases List.mem_cons.mp hp with rfl | hp
  · exact hr
  · exact h p (List.mem_filter.mp hp).1

theorem entriesWF_extend {m rules : RuleMap} (h : EntriesWF m) (hr : EntriesWF rules) :
    EntriesWF (extend m rules) := by
  unfold extend
  induction rules generalizing m with
  | nil => exact h
  | cons p ps ih =>
    simp only [List.foldl_cons]
    apply ih
    · exact entriesWF_insert h (hr p List.mem_cons_self)
    · exact fun q hq => hr q (List.mem_cons_of_mem _ hq)

/-- What a parsed quadruplet becomes. -/
theorem parseQuadruplet_ok {R : RegexEngine} {fn : Str} {ln : Nat} {q : Str × Str × Str × Str} {rule : Rule}
    (h : parseQuadruplet R fn ln q = .ok (.ok rule)) :
    rule.pattern = q.1 ∧ rule.patternLengthChar = q.1.length ∧ rule.location = fn ∧ rule.line = ln := by
  unfold parseQuadruplet at h
  cases h1 : parseContext R (q.2.1 ++ c!"$") with
  | error e => rw [h1] at h; cases h
  | ok x =>
    rw [h1] at h
    cases x with
    | error e => cases h
    | ok left =>
      simp only [bind, Except.bind] at h
      cases h2 : parseContext R ('^' :: q.2.2.1) with
      | error e => rw [h2] at h; cases h
      | ok x =>
        rw [h2] at h
        cases x with
        | error e => cases h
        | ok right =>
          simp only [bind, Except.bind] at h
          cases h3 : parsePhonemeExpr q.2.2.2 with
          | error e => rw [h3] at h; cases h
          | ok x =>
            rw [h3] at h
            cases x with
            | error e => cases h
            | ok ph =>
              simp only [pure, Except.pure, Except.ok.injEq] at h
              subst h
              exact ⟨rfl, rfl, rfl, rfl⟩

theorem ruleLoop_wf {U : Unicode} {R : RegexEngine} {load : Str → Res (Except PhoneticError RuleMap)} {fn : Str}
    (hload : ∀ n m, load n = .ok (.ok m) → EntriesWF m) {fuel : Nat} {s : Str} {ln : Nat} {acc m : RuleMap}
    (hacc : EntriesWF acc) (h : ruleLoop U R load fn fuel s ln acc = .ok (.ok m)) : EntriesWF m := by
  induction fuel generalizing s ln acc with
  | zero => cases h
  | succ fuel ih =>
    unfold ruleLoop at h
    split at h
    · cases h; exact hacc
    · dsimp only at h
      cases hq : Parser.quadruplet s with
      | some x =>
        obtain ⟨q, rm⟩ := x
        rw [hq] at h
        simp only [bind, Except.bind] at h
        cases hp : parseQuadruplet R fn (ln + 1) q with
        | error e => rw [hp] at h; cases h
        | ok x =>
          rw [hp] at h
          cases x with
          | error e => cases h
          | ok rule =>
            simp only at h
            obtain ⟨e1, e2, _, _⟩ := parseQuadruplet_ok hp
            cases hpat : rule.pattern with
            | nil => rw [hpat] at h; cases h
            | cons ch rest =>
              rw [hpat] at h
              simp only at h
              refine ih (entriesWF_insert hacc ?_) h
              intro r hr
              rcases List.mem_append.mp hr with hr | hr
              · exact hacc.wf ch r hr
              · rw [List.mem_singleton.mp hr]
                exact ⟨by rw [hpat]; rfl, by rw [e1, e2]⟩
      | none =>
        rw [hq] at h
        simp only at h
        cases he : Parser.endOfLine s with
        | some x => rw [he] at h; exact ih hacc h
        | none =>
          rw [he] at h
          simp only at h
          cases hi : Parser.includeDirective U s with
          | some x =>
            obtain ⟨name, rm⟩ := x
            rw [hi] at h
            simp only [bind, Except.bind] at h
            cases hl : load name with
            | error e => rw [hl] at h; cases h
            | ok x =>
              rw [hl] at h
              cases x with
              | error e => cases h
              | ok rules =>
                simp only at h
                exact ih (entriesWF_extend hacc (hload name rules hl)) h
          | none =>
            rw [hi] at h
            simp only at h
            cases hm : Parser.multilineComment s with
            | some x => rw [hm] at h; exact ih hacc h
            | none => rw [hm] at h; cases h

theorem parseRule_wf {U : Unicode} {R : RegexEngine} {resolver : Resolver} {depth : Nat} {fn : Str} {m : RuleMap}
    (h : parseRule U R resolver depth fn = .ok (.ok m)) : EntriesWF m := by
  induction depth generalizing fn m with
  | zero => cases h
  | succ d ih =>
    unfold parseRule at h
    split at h
    · cases h
    · exact ruleLoop_wf (fun n m hm => ih hm) entriesWF_nil h

/-! ## The rules of all files -/

/-- All rule maps are well-formed. -/
def AllWF (rules : Rules) : Prop := ∀ k m, rules.get? k = some m → RuleMapWF m

theorem loadFiles_spec {U : Unicode} {R : RegexEngine} {resolver : Resolver} {depth : Nat}
    {files : List (Str × (NameType × PrivateRuleType × Str))} {rules rules' : Rules} (hw : AllWF rules)
    (h : loadFiles U R resolver depth files rules = .ok (.ok rules')) :
    AllWF rules' ∧ (∀ k m, rules.get? k = some m → ∃ m', rules'.get? k = some m') ∧
      ∀ f ∈ files, ∃ m', rules'.get? f.2 = some m' := by
  induction files generalizing rules with
  | nil =>
    cases h
    exact ⟨hw, fun k m h => ⟨m, h⟩, by intro f hf; exact absurd hf List.not_mem_nil⟩
  | cons f fs ih =>
    obtain ⟨fn, key⟩ := f
    simp only [loadFiles, bind, Except.bind] at h
    cases hp : parseRule U R resolver depth fn with
    | error e => rw [hp] at h; cases h
    | ok x =>
      rw [hp] at h
      cases x with
      | error e => cases h
      | ok r =>
        simp only at h
        have hw' : AllWF (rules.insert key r) := by
          intro k m hk
          rw [get?_insert] at hk
          split at hk
          · cases hk; exact (parseRule_wf hp).wf
          · exact hw k m hk
        obtain ⟨h1, h2, h3⟩ := ih hw' h
        refine ⟨h1, ?_, ?_⟩
        · intro k m hk
          by_cases e : k = key
          · exact h2 k r (by rw [get?_insert, if_pos e])
          · exact h2 k m (by rw [get?_insert, if_neg e]; exact hk)
        · intro f hf
          rcases List.mem_cons.mp hf with rfl | hf
          · exact h2 key r (by rw [get?_insert, if_pos rfl])
          · exact h3 f hf

theorem rulesLoop_spec {U : Unicode} {R : RegexEngine} {resolver : Resolver} {depth : Nat} {languages : Languages}
    {nts : List NameType} {rules rules' : Rules} (hw : AllWF rules)
    (h : rulesLoop U R resolver depth languages nts rules = .ok (.ok rules')) :
    AllWF rules' ∧ (∀ k m, rules.get? k = some m → ∃ m', rules'.get? k = some m') ∧
      ∀ nt ∈ nts, ∃ l, languages.get? nt = some l ∧
        ∀ rt, (∀ x ∈ l, ∃ m', rules'.get? (nt, rt, x) = some m') ∧
          (rt ≠ .rules → ∃ m', rules'.get? (nt, rt, c!"common") = some m') := by
  induction nts generalizing rules with
  | nil =>
    cases h
    exact ⟨hw, fun k m h => ⟨m, h⟩, by intro f hf; exact absurd hf List.not_mem_nil⟩
  | cons nt nts ih =>
    simp only [rulesLoop] at h
    cases hl : languages.get? nt with
    | none => rw [hl] at h; cases h
    | some l =>
      rw [hl] at h
      simp only [bind, Except.bind] at h
      cases hf : loadFiles U R resolver depth (PrivateRuleType.all.flatMap (ruleFiles nt l)) rules with
      | error e => rw [hf] at h; cases h
      | ok x =>
        rw [hf] at h
        cases x with
        | error e => cases h
        | ok r =>
          simp only at h
          obtain ⟨f1, f2, f3⟩ := loadFiles_spec hw hf
          obtain ⟨h1, h2, h3⟩ := ih f1 h
          refine ⟨h1, ?_, ?_⟩
          · intro k m hk
            obtain ⟨m', hm'⟩ := f2 k m hk
            exact h2 k m' hm'
          · intro n hn
            rcases List.mem_cons.mp hn with rfl | hn
            · refine ⟨l, hl, fun rt => ⟨?_, ?_⟩⟩
              · intro x hx
                obtain ⟨m', hm'⟩ := f3 (n.display ++ c!"_" ++ rt.display ++ c!"_" ++ x, (n, rt, x)) (by
                  rw [List.mem_flatMap]
                  refine ⟨rt, by cases rt <;> decide, ?_⟩
                  unfold ruleFiles
                  exact List.mem_append_left _ (List.mem_map.mpr ⟨x, hx, rfl⟩))
                exact h2 _ _ hm'
              · intro hrt
                obtain ⟨m', hm'⟩ := f3 (n.display ++ c!"_" ++ rt.display ++ c!"_common", (n, rt, c!"common")) (by
                  rw [List.mem_flatMap]
                  refine ⟨rt, by cases rt <;> decide, ?_⟩
                  unfold ruleFiles
                  refine List.mem_append_right _ ?_
                  rw [if_pos hrt]; exact List.mem_singleton.mpr rfl)
                exact h2 _ _ hm'
            · exact h3 n hn

theorem buildRules_spec {U : Unicode} {R : RegexEngine} {resolver : Resolver} {depth : Nat} {languages : Languages}
    {rules : Rules} (h : buildRules U R resolver depth languages = .ok (.ok rules)) :
    AllWF rules ∧
      ∀ nt, ∃ l, languages.get? nt = some l ∧
        ∀ rt, (∀ x ∈ l, ∃ m', rules.get? (nt, rt, x) = some m') ∧
          (rt ≠ .rules → ∃ m', rules.get? (nt, rt, c!"common") = some m') := by
  obtain ⟨h1, _, h3⟩ := rulesLoop_spec (rules := []) (by intro k m hk; cases hk) h
  exact ⟨h1, fun nt => h3 nt (by cases nt <;> decide)⟩

theorem langsLoop_spec {R : RegexEngine} {dir : Directory} {languages : Languages} {nts : List NameType}
    {langs langs' : Langs} (h : langsLoop R dir languages nts langs = .ok (.ok langs'))
    (hl : ∀ nt lang, langs.get? nt = some lang → languages.get? nt = some lang.languages) :
    (∀ nt lang, langs'.get? nt = some lang → languages.get? nt = some lang.languages) ∧
    (∀ nt, (nt ∈ nts ∨ ∃ lang, langs.get? nt = some lang) → ∃ lang, langs'.get? nt = some lang) := by
  induction nts generalizing langs with
  | nil =>
    cases h
    exact ⟨hl, fun nt h => h.resolve_left List.not_mem_nil⟩
  | cons nt nts ih =>
    simp only [langsLoop] at h
    cases hg : languages.get? nt with
    | none => rw [hg] at h; cases h
    | some l =>
      rw [hg] at h
      simp only at h
      cases hr : dir.read (nt.display ++ c!"_lang.txt") with
      | none => rw [hr] at h; cases h
      | some content =>
        rw [hr] at h
        simp only [bind, Except.bind] at h
        cases hp : parseLang R (some (nt.display ++ c!"_lang.txt")) content l with
        | error e => rw [hp] at h; cases h
        | ok x =>
          rw [hp] at h
          cases x with
          | error e => cases h
          | ok lang =>
            simp only at h
            have hlang : lang.languages = l := by
              unfold parseLang at hp
              simp only [bind, Except.bind] at hp
              split at hp
              · cases hp
              · split at hp
                · cases hp
                · simp only [pure, Except.pure, Except.ok.injEq] at hp
                  subst hp; rfl
            obtain ⟨h1, h2⟩ := ih h (by
              intro n lg hn
              rw [get?_insert] at hn
              split at hn
              · rename_i e; cases hn; rw [e, hlang]; exact hg
              · exact hl n lg hn)
            refine ⟨h1, fun n hn => ?_⟩
            by_cases e : n = nt
            · exact h2 n (.inr ⟨lang, by rw [get?_insert, if_pos e]⟩)
            · rcases hn with hn | ⟨lg, hn⟩
              · rcases List.mem_cons.mp hn with rfl | hn
                · exact absurd rfl e
                · exact h2 n (.inl hn)
              · exact h2 n (.inr ⟨lg, by rw [get?_insert, if_neg e]; exact hn⟩)

theorem config_spec {U : Unicode} {R : RegexEngine} {depth : Nat} {dir : Directory} {cfg : ConfigFiles}
    (h : ConfigFiles.new U R depth dir = .ok (.ok cfg)) :
    ∃ ls, languagesOfDir dir = .ok (.ok ls) ∧ buildLangs R dir ls = .ok (.ok cfg.langs) ∧
      buildRules U R (Resolver.ofDir dir) depth ls = .ok (.ok cfg.rules) := by
  unfold ConfigFiles.new at h
  simp only [bind, Except.bind] at h
  cases h1 : languagesOfDir dir with
  | error e => rw [h1] at h; cases h
  | ok x =>
    rw [h1] at h
    cases x with
    | error e => cases h
    | ok ls =>
      simp only at h
      cases h2 : buildLangs R dir ls with
      | error e => rw [h2] at h; cases h
      | ok x =>
        rw [h2] at h
        cases x with
        | error e => cases h
        | ok langs =>
          simp only at h
          cases h3 : buildRules U R (Resolver.ofDir dir) depth ls with
          | error e => rw [h3] at h; cases h
          | ok x =>
            rw [h3] at h
            cases x with
            | error e => cases h
            | ok rules =>
              simp only [pure, Except.pure, Except.ok.injEq] at h
              subst h
              exact ⟨ls, rfl, h2, h3⟩

theorem knows_of_rules {e : Engine} {rules : Rules} (he : e.rules = rules) (hw : AllWF rules) {l : Str}
    (h1 : ∃ m, rules.get? (e.nameType, .rules, l) = some m) (h2 : ∃ m, rules.get? (e.nameType, e.ruleType, l) = some m) :
    Knows e l := by
  subst he
  obtain ⟨m, h1⟩ := h1
  obtain ⟨m2, h2⟩ := h2
  exact ⟨⟨m, h1, hw _ _ h1⟩, ⟨m2, h2, hw _ _ h2⟩⟩

theorem build_spec {b : Builder} {e : Engine} (h : b.build = .ok e) :
    ∃ lang, b.configFiles.langs.get? b.nameType = some lang ∧ e.rules = b.configFiles.rules ∧ e.lang = lang ∧
      e.nameType = b.nameType ∧ e.ruleType = .ofRuleType b.ruleType ∧ e.concat = b.concat ∧
      e.maxPhonemes = b.maxPhonemes := by
  unfold Builder.build at h
  split at h
  · cases h
  · rename_i lang hl
    cases h
    exact ⟨lang, hl, rfl, rfl, rfl, rfl, rfl, rfl⟩

/-- An engine whose configuration was loaded from a directory is well-formed if "any" is a language of its
name type. -/
theorem engineWF_of_dir {U : Unicode} {R : RegexEngine} {depth : Nat} {dir : Directory} {cfg : ConfigFiles}
    {b : Builder} {e : Engine} {ls : Languages} {l : StrSet}
    (h : ConfigFiles.new U R depth dir = .ok (.ok cfg)) (hb : b.configFiles = cfg) (he : b.build = .ok e)
    (hls : languagesOfDir dir = .ok (.ok ls)) (hl : ls.get? b.nameType = some l) (hany : c!"any" ∈ l) :
    EngineWF e := by
  obtain ⟨ls', h1, h2, h3⟩ := config_spec h
  rw [hls] at h1
  simp only [Except.ok.injEq] at h1
  subst h1
  obtain ⟨lang, g1, g2, g3, g4, g5, _, _⟩ := build_spec he
  obtain ⟨hw, hr⟩ := buildRules_spec h3
  obtain ⟨hl1, _⟩ := langsLoop_spec h2 (by intro nt lang hn; cases hn)
  rw [hb] at g1 g2
  have hlang := hl1 _ _ g1
  obtain ⟨l', k1, k2⟩ := hr b.nameType
  rw [k1] at hl hlang
  simp only [Option.some.injEq] at hl hlang
  subst hl
  have hne : e.ruleType ≠ .rules := by rw [g5]; cases b.ruleType <;> simp [PrivateRuleType.ofRuleType]
  rw [← g4] at k2
  refine ⟨?_, ?_, ?_⟩
  · exact knows_of_rules g2 hw ((k2 _).1 _ hany) ((k2 _).1 _ hany)
  · intro x hx
    rw [g3, ← hlang] at hx
    exact knows_of_rules g2 hw ((k2 _).1 _ hx) ((k2 _).1 _ hx)
  · obtain ⟨m, hm⟩ := (k2 e.ruleType).2 hne
    exact ⟨m, by rw [g2]; exact hm, hw _ _ hm⟩

/-! ## The languages of a directory -/

theorem ofFilename_ok {name : Str} {nt : NameType} (h : NameType.ofFilename name = .ok nt) :
    name = nt.languageFilename := by
  unfold NameType.ofFilename at h
  split at h
  · cases h; assumption
  · split at h
    · cases h; assumption
    · split at h
      · cases h; assumption
      · cases h

theorem languageFilename_inj {a b : NameType} (h : a.languageFilename = b.languageFilename) : a = b := by
  cases a <;> cases b <;> first | rfl | exact absurd h (by decide)

theorem ofFilename_languageFilename (nt : NameType) : NameType.ofFilename nt.languageFilename = .ok nt := by
  cases nt <;> rfl

theorem languagesLoop_spec {dir : Directory} {names : List Str} {map map' : Languages}
    (h : languagesLoop dir names map = .ok (.ok map'))
    (hm : ∀ nt l, map.get? nt = some l → ∃ content, dir.read nt.languageFilename = some content ∧
      parseList content = .ok (.ok l)) :
    (∀ nt l, map'.get? nt = some l → ∃ content, dir.read nt.languageFilename = some content ∧
      parseList content = .ok (.ok l)) ∧
    (∀ nt : NameType, (nt.languageFilename ∈ names ∨ ∃ l, map.get? nt = some l) → ∃ l, map'.get? nt = some l) := by
  induction names generalizing map with
  | nil =>
    cases h
    exact ⟨hm, fun nt h => h.resolve_left List.not_mem_nil⟩
  | cons name names ih =>
    simp only [languagesLoop] at h
    cases ho : NameType.ofFilename name with
    | error e =>
      rw [ho] at h
      obtain ⟨h1, h2⟩ := ih h hm
      refine ⟨h1, fun nt hn => h2 nt ?_⟩
      rcases hn with hn | hn
      · rcases List.mem_cons.mp hn with hn | hn
        · rw [← hn, ofFilename_languageFilename] at ho; cases ho
        · exact .inl hn
      · exact .inr hn
    | ok n =>
      have hname := ofFilename_ok ho
      rw [ho] at h
      simp only at h
      cases hr : dir.read name with
      | none => rw [hr] at h; cases h
      | some content =>
        rw [hr] at h
        simp only [bind, Except.bind] at h
        cases hp : parseList content with
        | error e => rw [hp] at h; cases h
        | ok x =>
          rw [hp] at h
          cases x with
          | error e => cases h
          | ok l =>
            simp only at h
            obtain ⟨h1, h2⟩ := ih h (by
              intro nt l' hg
              rw [get?_insert] at hg
              split at hg
              · rename_i e
                cases hg
                exact ⟨content, by rw [e, ← hname]; exact hr, hp⟩
              · exact hm nt l' hg)
            refine ⟨h1, fun nt hn => h2 nt ?_⟩
            by_cases e : nt = n
            · exact .inr ⟨l, by rw [get?_insert, if_pos e]⟩
            · rcases hn with hn | ⟨l', hn⟩
              · rcases List.mem_cons.mp hn with hn | hn
                · exact absurd (languageFilename_inj (hn.trans hname)) e
                · exact .inl hn
              · exact .inr ⟨l', by rw [get?_insert, if_neg e]; exact hn⟩

/-- The languages of a name type in a configuration that was loaded. -/
theorem languages_of_config {U : Unicode} {R : RegexEngine} {depth : Nat} {dir : Directory} {cfg : ConfigFiles}
    (h : ConfigFiles.new U R depth dir = .ok (.ok cfg)) (nt : NameType) :
    ∃ ls l content, languagesOfDir dir = .ok (.ok ls) ∧ ls.get? nt = some l ∧
      dir.read nt.languageFilename = some content ∧ parseList content = .ok (.ok l) := by
  obtain ⟨ls, h1, h2, h3⟩ := config_spec h
  obtain ⟨l, k1, _⟩ := (buildRules_spec h3).2 nt
  obtain ⟨content, c1, c2⟩ := (languagesLoop_spec h1 (by intro nt l hn; cases hn)).1 nt l k1
  exact ⟨ls, l, content, h1, k1, c1, c2⟩

end Verif.BMProofs
