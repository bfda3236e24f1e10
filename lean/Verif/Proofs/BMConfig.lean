import Verif.Proofs.BMLoad
import Verif.Proofs.BMFiles
import Verif.Model.BMEmbedded
/-!
# What a configuration that was loaded contains
-/

set_option linter.unusedSimpArgs false
set_option linter.unusedVariables false

namespace Verif.BMProofs
open BM Spec
open DMKProofs (get?_insert)

/-- The name of the file of the rules of a name type, a rule type and a language. -/
def keyFilename (k : NameType × PrivateRuleType × Str) : Str :=
  k.1.display ++ c!"_" ++ k.2.1.display ++ c!"_" ++ k.2.2

/-- The rules are those of the files. -/
def OfFiles (U : Unicode) (R : RegexEngine) (resolver : Resolver) (depth : Nat) (rules : Rules) : Prop :=
  ∀ k m, rules.get? k = some m → parseRule U R resolver depth (keyFilename k) = .ok (.ok m)

theorem loadFiles_exact {U : Unicode} {R : RegexEngine} {resolver : Resolver} {depth : Nat}
    {files : List (Str × (NameType × PrivateRuleType × Str))} {rules rules' : Rules}
    (hf : ∀ f ∈ files, f.1 = keyFilename f.2)
    (hw : OfFiles U R resolver depth rules)
    (h : loadFiles U R resolver depth files rules = .ok (.ok rules')) :
    OfFiles U R resolver depth rules' ∧
      ∀ k, (∃ m, rules'.get? k = some m) → (∃ m, rules.get? k = some m) ∨ k ∈ files.map Prod.snd := by
  induction files generalizing rules with
  | nil =>
    cases h
    exact ⟨hw, fun k h => .inl h⟩
  | cons f fs ih =>
    obtain ⟨fn, key⟩ := f
    simp only [loadFiles, bind, Except.bind] at h
    cases hp : parseRule U R resolver depth fn with
    | error e => rw [hp] at h; cases h
    | ok x =>
      rw [hp] at h
      cases x with
      | error e => cases h
      | ok r =>
        simp only at h
        have hfn := hf _ List.mem_cons_self
        simp only at hfn
        obtain ⟨h1, h2⟩ := ih (fun f h => hf f (List.mem_cons_of_mem _ h)) (by
          intro k m hk
          rw [get?_insert] at hk
          split at hk
          · rename_i e; cases hk; rw [e, ← hfn]; exact hp
          · exact hw k m hk) h
        refine ⟨h1, fun k hk => ?_⟩
        rcases h2 k hk with ⟨m, hm⟩ | hm
        · rw [get?_insert] at hm
          split at hm
          · rename_i e; right; simp [e]
          · exact .inl ⟨m, hm⟩
        · right; simp [hm]

theorem mem_ruleFiles {nt : NameType} {l : StrSet} {rt : PrivateRuleType}
    {f : Str × (NameType × PrivateRuleType × Str)} (h : f ∈ ruleFiles nt l rt) :
    f.1 = keyFilename f.2 ∧ f.2.1 = nt ∧ f.2.2.1 = rt ∧
      (f.2.2.2 ∈ l ∨ rt ≠ .rules ∧ f.2.2.2 = c!"common") := by
  unfold ruleFiles at h
  rcases List.mem_append.mp h with h | h
  · obtain ⟨x, hx, rfl⟩ := List.mem_map.mp h
    exact ⟨rfl, rfl, rfl, .inl hx⟩
  · split at h
    · rename_i hr
      rw [List.mem_singleton.mp h]
      exact ⟨by simp [keyFilename], rfl, rfl, .inr ⟨hr, rfl⟩⟩
    · exact absurd h List.not_mem_nil

theorem rulesLoop_exact {U : Unicode} {R : RegexEngine} {resolver : Resolver} {depth : Nat} {languages : Languages}
    {nts : List NameType} {rules rules' : Rules} (hw : OfFiles U R resolver depth rules)
    (h : rulesLoop U R resolver depth languages nts rules = .ok (.ok rules')) :
    OfFiles U R resolver depth rules' ∧
      ∀ k, (∃ m, rules'.get? k = some m) → (∃ m, rules.get? k = some m) ∨
        ∃ l, languages.get? k.1 = some l ∧ (k.2.2 ∈ l ∨ k.2.1 ≠ .rules ∧ k.2.2 = c!"common") := by
  induction nts generalizing rules with
  | nil =>
    cases h
    exact ⟨hw, fun k h => .inl h⟩
  | cons nt nts ih =>
    simp only [rulesLoop] at h
    cases hl : languages.get? nt with
    | none => rw [hl] at h; cases h
    | some l =>
      rw [hl] at h
      simp only [bind, Except.bind] at h
      cases hf : loadFiles U R resolver depth (PrivateRuleType.all.flatMap (ruleFiles nt l)) rules with
      | error e => rw [hf] at h; cases h
      | ok x =>
        rw [hf] at h
        cases x with
        | error e => cases h
        | ok r =>
          simp only at h
          obtain ⟨f1, f2⟩ := loadFiles_exact (by
            intro f hf
            obtain ⟨rt, _, hf⟩ := List.mem_flatMap.mp hf
            exact (mem_ruleFiles hf).1) hw hf
          obtain ⟨h1, h2⟩ := ih f1 h
          refine ⟨h1, fun k hk => ?_⟩
          rcases h2 k hk with hk | hk
          · rcases f2 k hk with hk | hk
            · exact .inl hk
            · obtain ⟨f, hf, rfl⟩ := List.mem_map.mp hk
              obtain ⟨rt, _, hf⟩ := List.mem_flatMap.mp hf
              obtain ⟨_, e1, e2, e3⟩ := mem_ruleFiles hf
              exact .inr ⟨l, by rw [e1]; exact hl, by rw [e2]; exact e3⟩
          · exact .inr hk

/-- The rules of a configuration: those of the files of the listed languages and of "common". -/
theorem buildRules_exact {U : Unicode} {R : RegexEngine} {resolver : Resolver} {depth : Nat} {languages : Languages}
    {rules : Rules} (h : buildRules U R resolver depth languages = .ok (.ok rules)) :
    OfFiles U R resolver depth rules ∧
      ∀ nt rt x, (∃ m, rules.get? (nt, rt, x) = some m) ↔
        ∃ l, languages.get? nt = some l ∧ (x ∈ l ∨ rt ≠ .rules ∧ x = c!"common") := by
  obtain ⟨h1, h2⟩ := rulesLoop_exact (rules := []) (by intro k m hk; cases hk) h
  refine ⟨h1, fun nt rt x => ⟨fun hm => ?_, fun ⟨l, hl, hx⟩ => ?_⟩⟩
  · exact (h2 _ hm).resolve_left fun ⟨m, hm⟩ => by cases hm
  · obtain ⟨l', k1, k2⟩ := (buildRules_spec h).2 nt
    rw [hl] at k1; cases k1
    rcases hx with hx | ⟨hx, rfl⟩
    · exact (k2 rt).1 x hx
    · exact (k2 rt).2 hx

/-- What the default configuration consists of. -/
theorem default_spec {U : Unicode} {R : RegexEngine} {depth : Nat} {cfg : ConfigFiles}
    (h : ConfigFiles.default U R depth = .ok cfg) :
    cfg.langs = defaultLangs ∧ buildRules U R .embedded depth defaultLanguages = .ok (.ok cfg.rules) := by
  unfold ConfigFiles.default defaultRules at h
  simp only [bind, Except.bind] at h
  cases h1 : buildRules U R .embedded depth defaultLanguages with
  | error e => rw [h1] at h; cases h
  | ok x =>
    rw [h1] at h
    cases x with
    | error e => cases h
    | ok rules =>
      simp only [pure, Except.pure, Except.ok.injEq] at h
      subst h
      exact ⟨rfl, rfl⟩

/-! ## The list of languages -/

theorem parseList_eq (content : Str) : parseList content = listFrom content 0 [] := rfl

theorem parseList_reading {content : Str} {items : List ListItem} (h : Reading ListItem.Reads content items []) :
    parseList content = .ok (.ok (items.foldl addLanguage [])) := by
  rw [parseList_eq, listFrom_reading h 0 []]
  rfl

theorem parseList_stuck {content rest : Str} {items : List ListItem} (h : Reading ListItem.Reads content items rest)
    (hs : Stuck ListItem.Reads rest) :
    parseList content = .ok (.error (.parseRuleError (buildError (linesOf ListItem.lines items + 1) none rest
      c!"Can't parse line for languages"))) := by
  rw [parseList_eq, listFrom_reading h 0 [], listFrom_stuck hs, Nat.zero_add]

theorem parseList_ok {content : Str} {l : StrSet} (h : parseList content = .ok (.ok l)) :
    ∃ items, Reading ListItem.Reads content items [] ∧ l = items.foldl addLanguage [] := by
  obtain ⟨items, rest, h1, h2⟩ := reading_exists (reads := ListItem.Reads) (fun _ _ _ => listItem_shorter) content
  rcases h2 with rfl | h2
  · rw [parseList_reading h1] at h
    simp only [Except.ok.injEq] at h
    exact ⟨items, h1, h.symm⟩
  · rw [parseList_stuck h1 h2] at h; cases h

theorem mem_parseList {content : Str} {l : StrSet} (h : parseList content = .ok (.ok l)) (x : Str) :
    x ∈ l ↔ ∃ items tail, Reading ListItem.Reads content items [] ∧ ListItem.language x tail ∈ items := by
  constructor
  · intro hx
    obtain ⟨items, h1, rfl⟩ := parseList_ok h
    rcases (mem_foldl_addLanguage items [] x).mp hx with hx | ⟨t, hx⟩
    · exact absurd hx List.not_mem_nil
    · exact ⟨items, t, h1, hx⟩
  · rintro ⟨items, t, h1, hx⟩
    rw [parseList_reading h1] at h
    simp only [Except.ok.injEq] at h
    rw [← h]
    exact (mem_foldl_addLanguage items [] x).mpr (.inr ⟨t, hx⟩)

end Verif.BMProofs
