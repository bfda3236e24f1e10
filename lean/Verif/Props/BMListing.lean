import Verif.Props.BMFiles
import Verif.Proofs.BMTransfer
/-!
# The order in which a directory is listed (C92)
-/

set_option linter.unusedSimpArgs false

namespace Verif.Props
open BM Spec BMProofs
open DMKProofs (get?_insert)

/-- The directories have the same text files (`….txt`). -/
def SameTexts (dir dir' : Directory) : Prop := ∀ name : Str,
  dir'.read (name ++ c!".txt") = dir.read (name ++ c!".txt") ∧ dir'.ioError (name ++ c!".txt") = dir.ioError (name ++ c!".txt")

namespace ListingProofs

theorem SameTexts.languages {dir dir' : Directory} (h : SameTexts dir dir') (nt : NameType) :
    dir'.read nt.languageFilename = dir.read nt.languageFilename := by
  have := (h (nt.display ++ c!"_languages")).1
  cases nt <;> exact this

theorem SameTexts.lang {dir dir' : Directory} (h : SameTexts dir dir') (nt : NameType) :
    dir'.read (nt.display ++ c!"_lang.txt") = dir.read (nt.display ++ c!"_lang.txt") ∧
    dir'.ioError (nt.display ++ c!"_lang.txt") = dir.ioError (nt.display ++ c!"_lang.txt") := by
  have := h (nt.display ++ c!"_lang")
  cases nt <;> exact this

/-- A list of languages that cannot be read. -/
def Bad (dir : Directory) (name : Str) : Prop :=
  (∃ nt, NameType.ofFilename name = .ok nt) ∧ ∀ content, dir.read name = some content → ∃ e, parseList content = .ok (.error e)

theorem parseList_cases (content : Str) : (∃ l, parseList content = .ok (.ok l)) ∨ ∃ e, parseList content = .ok (.error e) := by
  obtain ⟨items, rest, h1, h2⟩ := reading_exists (reads := ListItem.Reads) (fun _ _ _ => listItem_shorter) content
  rcases h2 with rfl | h2
  · exact .inl ⟨_, parseList_reading h1⟩
  · exact .inr ⟨_, parseList_stuck h1 h2⟩

theorem loop_bad {dir : Directory} {names : List Str} (h : ∃ n ∈ names, Bad dir n) :
    ∀ map : Languages, ∃ e, languagesLoop dir names map = .ok (.error e) := by
  induction names with
  | nil => obtain ⟨n, hn, _⟩ := h; cases hn
  | cons name names ih =>
    intro map
    obtain ⟨n, hn, hb⟩ := h
    simp only [languagesLoop]
    cases ho : NameType.ofFilename name with
    | error e =>
      rcases List.mem_cons.mp hn with rfl | hn
      · obtain ⟨⟨nt, h1⟩, _⟩ := hb; rw [ho] at h1; cases h1
      · exact ih ⟨n, hn, hb⟩ map
    | ok nt =>
      simp only
      cases hr : dir.read name with
      | none => exact ⟨_, rfl⟩
      | some content =>
        simp only [bind, Except.bind]
        rcases parseList_cases content with ⟨l, hl⟩ | ⟨e, he⟩
        · rw [hl]; simp only
          rcases List.mem_cons.mp hn with rfl | hn
          · obtain ⟨e, he⟩ := hb.2 content hr; rw [hl] at he; cases he
          · exact ih ⟨n, hn, hb⟩ _
        · rw [he]; exact ⟨_, rfl⟩

theorem loop_good {dir : Directory} {names : List Str} (h : ∀ n ∈ names, ¬ Bad dir n) :
    ∀ map : Languages, ∃ map', languagesLoop dir names map = .ok (.ok map') := by
  induction names with
  | nil => exact fun map => ⟨map, rfl⟩
  | cons name names ih =>
    intro map
    have ih := ih (fun n hn => h n (List.mem_cons_of_mem _ hn))
    simp only [languagesLoop]
    cases ho : NameType.ofFilename name with
    | error e => exact ih map
    | ok nt =>
      simp only
      have hb := h name List.mem_cons_self
      cases hr : dir.read name with
      | none => exact absurd ⟨⟨nt, ho⟩, fun c hc => by rw [hr] at hc; cases hc⟩ hb
      | some content =>
        simp only [bind, Except.bind]
        rcases parseList_cases content with ⟨l, hl⟩ | ⟨e, he⟩
        · rw [hl]; exact ih _
        · exact absurd ⟨⟨nt, ho⟩, fun c hc => by rw [hr] at hc; cases hc; exact ⟨e, he⟩⟩ hb

theorem loop_get {dir dir' : Directory} (hr : SameTexts dir dir')
    (he : ∀ nt : NameType, nt.languageFilename ∈ dir'.entries ↔ nt.languageFilename ∈ dir.entries) {m m' : Languages}
    (h : languagesOfDir dir = .ok (.ok m)) (h' : languagesOfDir dir' = .ok (.ok m')) (nt : NameType) :
    m'.get? nt = m.get? nt := by
  obtain ⟨a1, a2⟩ := languagesLoop_spec h (by intro nt l hn; cases hn)
  obtain ⟨b1, b2⟩ := languagesLoop_spec h' (by intro nt l hn; cases hn)
  have a3 := languagesLoop_listed h nt
  have b3 := languagesLoop_listed h' nt
  cases hm : m.get? nt with
  | none =>
    cases hm' : m'.get? nt with
    | none => rfl
    | some l =>
      rcases b3 ⟨l, hm'⟩ with hx | ⟨l', hx⟩
      · obtain ⟨l', hx⟩ := a2 nt (.inl ((he nt).mp hx)); rw [hm] at hx; cases hx
      · cases hx
  | some l =>
    rcases a3 ⟨l, hm⟩ with hx | ⟨l', hx⟩
    · obtain ⟨l', hx⟩ := b2 nt (.inl ((he nt).mpr hx))
      obtain ⟨c, c1, c2⟩ := a1 nt l hm
      obtain ⟨d, d1, d2⟩ := b1 nt l' hx
      rw [SameTexts.languages hr, c1] at d1
      cases d1
      rw [c2] at d2
      cases d2
      exact hx
    · cases hx

theorem langs_congr (R : RegexEngine) {dir dir' : Directory} (hr : SameTexts dir dir')
    {m m' : Languages} (h : ∀ nt, m'.get? nt = m.get? nt) (nts : List NameType) :
    ∀ langs, langsLoop R dir' m' nts langs = langsLoop R dir m nts langs := by
  induction nts with
  | nil => exact fun _ => rfl
  | cons nt nts ih => intro langs; simp only [langsLoop, h, SameTexts.lang hr, ih]

theorem rules_congr (U : Unicode) (R : RegexEngine) (res : Resolver) (depth : Nat)
    {m m' : Languages} (h : ∀ nt, m'.get? nt = m.get? nt) (nts : List NameType) :
    ∀ rules, rulesLoop U R res depth m' nts rules = rulesLoop U R res depth m nts rules := by
  induction nts with
  | nil => exact fun _ => rfl
  | cons nt nts ih => intro rules; simp only [rulesLoop, h, ih]

/-- The lists of languages: both directories load to the same lists, or neither loads. -/
theorem languages_cases {dir dir' : Directory} (hr : SameTexts dir dir')
    (he : ∀ nt : NameType, nt.languageFilename ∈ dir'.entries ↔ nt.languageFilename ∈ dir.entries) :
    (∃ e e', languagesOfDir dir = .ok (.error e) ∧ languagesOfDir dir' = .ok (.error e')) ∨
    (∃ m m', languagesOfDir dir = .ok (.ok m) ∧ languagesOfDir dir' = .ok (.ok m') ∧ ∀ nt, m'.get? nt = m.get? nt) := by
  have hb : ∀ n, Bad dir' n ↔ Bad dir n := fun n => by
    unfold Bad
    refine and_congr_right fun ⟨nt, h⟩ => ?_
    rw [ofFilename_ok h, SameTexts.languages hr]
  have hx : (∃ n ∈ dir'.entries, Bad dir' n) ↔ ∃ n ∈ dir.entries, Bad dir n := by
    constructor
    · rintro ⟨n, h1, h2⟩
      obtain ⟨nt, h3⟩ := h2.1
      obtain rfl := ofFilename_ok h3
      exact ⟨_, (he nt).mp h1, (hb _).mp h2⟩
    · rintro ⟨n, h1, h2⟩
      obtain ⟨nt, h3⟩ := h2.1
      obtain rfl := ofFilename_ok h3
      exact ⟨_, (he nt).mpr h1, (hb _).mpr h2⟩
  by_cases h : ∃ n ∈ dir.entries, Bad dir n
  · obtain ⟨e, h1⟩ := loop_bad h []
    obtain ⟨e', h2⟩ := loop_bad (hx.mpr h) []
    exact .inl ⟨e, e', h1, h2⟩
  · obtain ⟨m, h1⟩ := loop_good (fun n hn hb => h ⟨n, hn, hb⟩) []
    obtain ⟨m', h2⟩ := loop_good (fun n hn hb => h (hx.mp ⟨n, hn, hb⟩)) []
    exact .inr ⟨m, m', h1, h2, loop_get hr he h1 h2⟩

theorem resolver_congr {dir dir' : Directory} (hr : SameTexts dir dir') : Resolver.ofDir dir' = Resolver.ofDir dir := by
  funext name; unfold Resolver.ofDir; rw [(hr name).1]

end ListingProofs
open ListingProofs

/-- C92: two directories with the same text files and the same lists of languages, listed in any order and among any
other files, either both fail with an error, or loading them gives the same result: the same configuration, the same
error or the same panic. -/
theorem config_listing (U : Unicode) (R : RegexEngine) (depth : Nat) (dir dir' : Directory) (hr : SameTexts dir dir')
    (he : ∀ nt : NameType, nt.languageFilename ∈ dir'.entries ↔ nt.languageFilename ∈ dir.entries) :
    (∃ e e', ConfigFiles.new U R depth dir = .ok (.error e) ∧ ConfigFiles.new U R depth dir' = .ok (.error e')) ∨
    ConfigFiles.new U R depth dir' = ConfigFiles.new U R depth dir := by
  rcases languages_cases hr he with ⟨e, e', h1, h2⟩ | ⟨m, m', h1, h2, h3⟩
  · refine .inl ⟨e, e', ?_, ?_⟩
    · simp only [ConfigFiles.new, h1, bind, Except.bind]; rfl
    · simp only [ConfigFiles.new, h2, bind, Except.bind]; rfl
  · right
    simp only [ConfigFiles.new, h1, h2, bind, Except.bind, buildLangs, buildRules, langs_congr R hr h3,
      rules_congr U R _ depth h3, resolver_congr hr]

/-- C92: so the order in which the system lists the directory never matters for a configuration that loads. -/
theorem config_order (U : Unicode) (R : RegexEngine) (depth : Nat) (dir : Directory) (entries : List Str)
    (hp : entries.Perm dir.entries) (cfg : ConfigFiles) :
    ConfigFiles.new U R depth { dir with entries } = .ok (.ok cfg) ↔ ConfigFiles.new U R depth dir = .ok (.ok cfg) := by
  rcases config_listing U R depth dir { dir with entries } (fun _ => ⟨rfl, rfl⟩) (fun nt => hp.mem_iff) with ⟨e, e', h1, h2⟩ | h
  · rw [h1, h2]; simp
  · rw [h]

/-- C92: nor does the room for nested includes, once it is enough. -/
theorem config_depth (U : Unicode) (R : RegexEngine) (depth depth' : Nat) (hd : depth ≤ depth') (dir : Directory)
    (cfg : ConfigFiles) (h : ConfigFiles.new U R depth dir = .ok (.ok cfg)) :
    ConfigFiles.new U R depth' dir = .ok (.ok cfg) := by
  obtain ⟨ls, h1, h2, h3⟩ := config_spec h
  exact config_of h1 h2 (buildRules_le hd h3)

/-- The sample directory loads in any order. -/
theorem config_order_example : (∃ cfg, ConfigFiles.new .latin1 SampleBM.regex 3 SampleBM.dir = .ok (.ok cfg)) ∧
    ∀ cfg, ConfigFiles.new .latin1 SampleBM.regex 3 { SampleBM.dir with entries := SampleBM.dir.entries.reverse } = .ok (.ok cfg) ↔
      ConfigFiles.new .latin1 SampleBM.regex 3 SampleBM.dir = .ok (.ok cfg) :=
  ⟨(config_loads _ _ _ _).mpr config_loads_example, fun cfg => config_order _ _ _ _ _ (List.reverse_perm _) cfg⟩

/-- C92: which error is reported may depend on the order: the first list that cannot be read counts. -/
theorem config_error_order (U : Unicode) (R : RegexEngine) (depth : Nat) (ioError : Str → Str) :
    ∃ (dir : Directory) (e e' : PhoneticError), dir.ioError = ioError ∧ e ≠ e' ∧
      ConfigFiles.new U R depth dir = .ok (.error e) ∧
      ConfigFiles.new U R depth { dir with entries := dir.entries.reverse } = .ok (.error e') := by
  refine ⟨⟨[c!"ash_languages.txt", c!"gen_languages.txt"],
    fun n => if n = c!"ash_languages.txt" then some c!"1" else some c!"2", ioError⟩,
    .parseRuleError ⟨1, none, c!"1", c!"Can't parse line for languages"⟩,
    .parseRuleError ⟨1, none, c!"2", c!"Can't parse line for languages"⟩, rfl, by decide, rfl, rfl⟩

end Verif.Props
