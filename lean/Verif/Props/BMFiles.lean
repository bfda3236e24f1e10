import Verif.Proofs.BMConfigIff
import Verif.Props.BMEncode
/-!
# Properties of the Beider-Morse configuration files (C58 to C64)
-/

set_option linter.unusedSimpArgs false
set_option linter.unusedVariables false

namespace Verif.Props
open BM Spec BMProofs

/-! ## C58: lists of languages -/

/-- C58: a list of languages made of fillers and names is accepted, and the languages are the names, sorted and
without repetition. -/
theorem list_file_accepted (content : Str) (items : List ListItem) (h : Reading ListItem.Reads content items []) :
    ∃ l, parseList content = .ok (.ok l) ∧ StrSetWF l ∧ ∀ x, x ∈ l ↔ ∃ tail, ListItem.language x tail ∈ items := by
  refine ⟨_, parseList_reading h, foldl_addLanguage_sorted items [] List.Pairwise.nil, fun x => ?_⟩
  simpa using mem_foldl_addLanguage items [] x

/-- C58: otherwise the error names the first line that cannot be read. -/
theorem list_file_rejected (content rest : Str) (items : List ListItem) (h : Reading ListItem.Reads content items rest)
    (hs : Stuck ListItem.Reads rest) :
    ∃ e, parseList content = .ok (.error (.parseRuleError e)) ∧
      e.lineNumber = linesOf ListItem.lines items + 1 ∧ e.lineContent = rest.takeWhile (· != '\n') := by
  exact ⟨_, parseList_stuck h hs, rfl, rfl⟩

/-- C58: every text is one or the other. -/
theorem list_file_cases (content : Str) : ∃ items rest, Reading ListItem.Reads content items rest ∧
    (rest = [] ∨ Stuck ListItem.Reads rest) :=
  reading_exists ListItem.Reads (fun _ _ _ => listItem_shorter) content

example : parseList c!"/* two\nlines */\nwelsh\nany // all\n\nwelsh\n" = .ok (.ok [c!"any", c!"welsh"]) := by decide +kernel
example : parseList c!"/* two\nlines */\nwelsh\nany1\n" =
    .ok (.error (.parseRuleError ⟨4, none, c!"any1", c!"Can't parse line for languages"⟩)) := by decide +kernel

/-! ## C59: rules that guess languages -/

/-- C59: a file of rules that guess languages, with valid expressions, is accepted; the rules are those of the file,
in order. -/
theorem lang_file_accepted (R : RegexEngine) (fn : Option Str) (content : Str) (items : List LangItem) (ls : StrSet)
    (h : Reading LangItem.Reads content items []) (hv : ValidItems R items) :
    ∃ lang, parseLang R fn content ls = .ok (.ok lang) ∧ lang.languages = ls ∧
      lang.rules.length = (langRules 0 items).length ∧
      ∀ x ∈ (langRules 0 items).zip lang.rules, IsLangRule x.1 x.2 :=
  ⟨_, parseLang_reading h hv, rfl, (itemRules_spec 0 items).1, (itemRules_spec 0 items).2⟩

/-- C59: a line that cannot be read is named by the error (without the file). -/
theorem lang_file_rejected (R : RegexEngine) (fn : Option Str) (content rest : Str) (items : List LangItem) (ls : StrSet)
    (h : Reading LangItem.Reads content items rest) (hv : ValidItems R items) (hs : Stuck LangItem.Reads rest) :
    ∃ e, parseLang R fn content ls = .ok (.error (.parseRuleError e)) ∧
      e.lineNumber = linesOf LangItem.lines items + 1 ∧ e.filename = none ∧
      e.lineContent = rest.takeWhile (· != '\n') :=
  ⟨_, parseLang_stuck h hv hs, rfl, rfl, rfl⟩

/-- C59: a rule whose expression is invalid is named by the error, with the file; but the content given is that of the
*next* line. -/
theorem lang_file_invalid (R : RegexEngine) (fn : Option Str) (content u r p l m : Str) (a : Bool) (tl : Tail)
    (before : List LangItem) (ls : StrSet) (h : Reading LangItem.Reads content before u) (hv : ValidItems R before)
    (hu : u ≠ []) (hr : LangItem.Reads u (.rule p l a tl) r) (he : R.error p = some m) :
    ∃ e, parseLang R fn content ls = .ok (.error (.parseRuleError e)) ∧
      e.lineNumber = linesOf LangItem.lines before + 1 ∧ e.filename = fn ∧
      e.lineContent = r.takeWhile (· != '\n') ∧ e.description = m :=
  ⟨_, parseLang_invalid h hv hu hr he, rfl, rfl, rfl, rfl⟩

/-- C59: every text is one of the three. -/
theorem lang_file_cases (R : RegexEngine) (content : Str) : ∃ items rest, Reading LangItem.Reads content items rest ∧
    ((ValidItems R items ∧ (rest = [] ∨ Stuck LangItem.Reads rest)) ∨
     ∃ before p l a tl u r m, Reading LangItem.Reads content before u ∧ ValidItems R before ∧ u ≠ [] ∧
       LangItem.Reads u (.rule p l a tl) r ∧ R.error p = some m) := by
  obtain ⟨items, rest, h1, h2⟩ := reading_exists LangItem.Reads (fun _ _ _ => langItem_shorter) content
  refine ⟨items, rest, h1, ?_⟩
  rcases valid_or (R := R) h1 with hv | ⟨before, p, l, a, tl, u, r, m, _, g1, g2, g3, g4, g5, _⟩
  · exact .inl ⟨hv, h2⟩
  · exact .inr ⟨before, p, l, a, tl, u, r, m, g1, g2, g3, g4, g5⟩

/-- An engine that rejects one expression. -/
def pickyRegex : RegexEngine where
  error p := if p = c!"(" then some c!"unclosed group" else none
  isMatch p s := p.isPrefixOf s

example : parseLang pickyRegex none c!"// rules\neau french+welsh true\n\nll welsh false\n" [c!"any"] =
    .ok (.ok ⟨[c!"any"], [⟨2, true, [c!"french", c!"welsh"], c!"eau"⟩, ⟨4, false, [c!"welsh"], c!"ll"⟩]⟩) := by
  decide +kernel
example : parseLang pickyRegex (some c!"gen_lang.txt") c!"eau french true\n( welsh true\nll welsh true\n" [] =
    .ok (.error (.parseRuleError ⟨2, some c!"gen_lang.txt", c!"ll welsh true", c!"unclosed group"⟩)) := by
  decide +kernel
example : parseLang pickyRegex (some c!"gen_lang.txt") c!"eau french true\nll welsh yes\n" [] =
    .ok (.error (.parseRuleError ⟨2, none, c!"ll welsh yes", c!"Can't parse line for language detection"⟩)) := by
  decide +kernel

/-! ## C60: phoneme expressions -/

/-- C60: the phonemes of an expression are those of the grammar. -/
theorem phoneme_expression (e : Str) (ps : List Phoneme) : parsePhonemeExpr e = .ok (.ok ps) ↔ ExprReads e ps :=
  parsePhonemeExpr_iff e ps

/-- C60: any other expression is an error of the phoneme, never a panic. -/
theorem phoneme_expression_rejected (e : Str) (h : ∀ ps, ¬ ExprReads e ps) :
    ∃ m, parsePhonemeExpr e = .ok (.error (.wrongPhoneme m)) := by
  rcases parsePhonemeExpr_total e with ⟨ps, hp⟩ | hm
  · exact absurd ((parsePhonemeExpr_iff e ps).mp hp) (h ps)
  · exact hm

/-- C60: an expression has one meaning. -/
theorem phoneme_expression_unique (e : Str) (ps qs : List Phoneme) (h1 : ExprReads e ps) (h2 : ExprReads e qs) :
    ps = qs := by
  have e1 := (parsePhonemeExpr_iff e ps).mpr h1
  rw [(parsePhonemeExpr_iff e qs).mpr h2] at e1
  simp only [Except.ok.injEq] at e1
  exact e1.symm

example : ExprReads c!"(a|o[french+any]|)" [⟨c!"a", .any⟩, ⟨c!"o", .someLanguages [c!"any", c!"french"]⟩, ⟨[], .any⟩,
    ⟨[], .any⟩] := (phoneme_expression _ _).mp (by decide +kernel)
example : parsePhonemeExpr c!"a[b" =
    .ok (.error (.wrongPhoneme c!"Phoneme expression a[b has a '[' but doesn't ends with an ']'")) := by decide +kernel

/-! ## C61: the rules of a file -/

/-- C61: the rules of a file, for each first letter, are what its lines say. -/
theorem rule_file (U : Unicode) (R : RegexEngine) (resolver : Resolver) (depth : Nat) (file : Str) (out : RuleTable) :
    (∃ m, parseRule U R resolver depth file = .ok (.ok m) ∧ rulesFor m = out) ↔
      FileRules U R resolver depth file out := by
  constructor
  · rintro ⟨m, h, rfl⟩; exact (parseRule_proper h).2
  · intro h
    obtain ⟨m, h1, _, h2⟩ := parseRule_of_fileRules h
    exact ⟨m, h1, h2⟩

/-- C61: the rules do not depend on how deep includes may be nested, provided it suffices. -/
theorem rule_file_depth (U : Unicode) (R : RegexEngine) (resolver : Resolver) (depth depth' : Nat) (file : Str)
    (out out' : RuleTable) (h : FileRules U R resolver depth file out) (h' : FileRules U R resolver depth' file out') :
    out = out' := by
  obtain ⟨m, h1, _, rfl⟩ := parseRule_of_fileRules h
  obtain ⟨m', h1', _, rfl⟩ := parseRule_of_fileRules h'
  have a := parseRule_le (Nat.le_max_left depth depth') h1
  rw [parseRule_le (Nat.le_max_right depth depth') h1'] at a
  simp only [Except.ok.injEq] at a
  rw [a]

/-- Two files, one of which includes the other. -/
def twoFiles : Resolver := fun f =>
  if f = c!"a" then .ok c!"\"x\" \"\" \"\" \"1\"\n\"y\" \"\" \"\" \"2\"\n#include b\n\"x\" \"\" \"\" \"3\"\n"
  else if f = c!"b" then .ok c!"/* one\n*/\n\"x\" \"\" \"\" \"4\"\n\"xy\" \"\" \"\" \"5\"\n"
  else .error (.wrongFilename c!"none")

/-- The pattern, the file, the line and the phonemes of the rules of a letter. -/
def summary (m : Res (Except PhoneticError RuleMap)) (c : Char) : Option (List (Str × Str × Nat × List Str)) :=
  match m with
  | .ok (.ok m) => some ((rulesFor m c).map fun r => (r.pattern, r.location, r.line, r.phoneme.map Phoneme.text))
  | _ => none

theorem of_summary {U : Unicode} {R : RegexEngine} {resolver : Resolver} {depth : Nat} {file : Str} {c : Char}
    {l : List (Str × Str × Nat × List Str)} (h : summary (parseRule U R resolver depth file) c = some l) :
    ∃ out, FileRules U R resolver depth file out ∧
      (out c).map (fun r => (r.pattern, r.location, r.line, r.phoneme.map Phoneme.text)) = l := by
  unfold summary at h
  split at h
  · rename_i m hm
    simp only [Option.some.injEq] at h
    exact ⟨rulesFor m, (rule_file U R resolver depth file _).mp ⟨m, hm, rfl⟩, h⟩
  · cases h

/-- C61: an included file takes the place of the rules so far, for the letters it has rules for: the rule of the
first line is lost. -/
theorem rule_file_include_replaces :
    ∃ out, FileRules .latin1 pickyRegex twoFiles 2 c!"a" out ∧
      (out 'x').map (fun r => (r.pattern, r.location, r.line, r.phoneme.map Phoneme.text)) =
        [(c!"x", c!"b", 3, [c!"4"]), (c!"xy", c!"b", 4, [c!"5"]), (c!"x", c!"a", 4, [c!"3"])] :=
  of_summary (by decide +kernel)

/-- C61: the rules for the other letters stay. -/
theorem rule_file_include_keeps :
    ∃ out, FileRules .latin1 pickyRegex twoFiles 2 c!"a" out ∧
      (out 'y').map (fun r => (r.pattern, r.location, r.line, r.phoneme.map Phoneme.text)) =
        [(c!"y", c!"a", 2, [c!"2"])] :=
  of_summary (by decide +kernel)

/-! ## C62: errors in the files of rules -/

/-- C62: the error for a line that cannot be read names the file, the line and its content. -/
theorem rule_file_rejected (U : Unicode) (R : RegexEngine) (resolver : Resolver) (depth : Nat) (file content rest : Str)
    (items : List RuleItem) (out : RuleTable) (hc : resolver file = .ok content)
    (hr : Reading (RuleItem.Reads U) content items rest)
    (hcol : Collects R (FileRules U R resolver depth) file 0 items (fun _ => []) out)
    (hs : Stuck (RuleItem.Reads U) rest) :
    ∃ e, parseRule U R resolver (depth + 1) file = .ok (.error (.parseRuleError e)) ∧
      e.lineNumber = linesOf RuleItem.lines items + 1 ∧ e.filename = some file ∧
      e.lineContent = rest.takeWhile (· != '\n') :=
  ⟨_, parseRule_stuck hc hr hcol hs, rfl, rfl, rfl⟩

/-- C62: if no file includes itself, directly or not, and no rule has an empty pattern, then loading a file returns:
rules, or an error. -/
theorem rule_file_returns (U : Unicode) (R : RegexEngine) (resolver : Resolver) (rank : Str → Nat) (reachable : Str → Prop)
    (hrank : ∀ f g, reachable f → Includes U resolver f g → reachable g ∧ rank g < rank f)
    (hpat : ∀ f, reachable f → ¬ HasEmptyPattern U resolver f) (file : Str) (hf : reachable file) :
    ∃ depth x, ∀ d, depth ≤ d → parseRule U R resolver d file = .ok x := by
  obtain ⟨x, hx⟩ := parseRule_total (R := R) rank reachable hrank hpat hf (Nat.lt_succ_self (rank file))
  exact ⟨_, x, fun d hd => parseRule_le hd hx⟩

/-- C62: files that include each other in a circle are never loaded: at any depth of nesting, there is still an include
to follow. -/
theorem rule_file_cycle (U : Unicode) (R : RegexEngine) (resolver : Resolver) (cycle : Str → Prop)
    (h : ∀ f, cycle f → ∃ content items rest r name tail out, resolver f = .ok content ∧
      Reading (RuleItem.Reads U) content items rest ∧ Collects R (fun _ _ => False) f 0 items (fun _ => []) out ∧
      rest ≠ [] ∧ RuleItem.Reads U rest (.directive name tail) r ∧ cycle name)
    (file : Str) (hf : cycle file) (depth : Nat) : parseRule U R resolver depth file = .error .diverge :=
  parseRule_diverges cycle h depth file hf

/-- A file that includes itself. -/
theorem rule_file_self_include (depth : Nat) :
    parseRule .latin1 pickyRegex (fun _ => .ok c!"\n#include a\n") depth c!"a" = .error .diverge := by
  refine rule_file_cycle _ _ _ (fun f => f = c!"a") ?_ _ rfl depth
  rintro f rfl
  refine ⟨c!"\n#include a\n", [.filler (.blank ⟨[], none, ['\n']⟩)], c!"#include a\n", [], c!"a", ⟨[], none, ['\n']⟩,
    _, rfl, .cons (by decide) ⟨by decide, ?_⟩ (.nil _), rfl, by decide, ?_, rfl⟩
  · exact ⟨by simp, by simp, .inl rfl⟩
  · exact ⟨by decide, by decide, by decide, ⟨by simp, by simp, .inl rfl⟩⟩

/-- C62: a rule with an empty pattern, in an otherwise correct file, is a panic. -/
theorem rule_file_empty_pattern (U : Unicode) (R : RegexEngine) (resolver : Resolver) (depth : Nat)
    (file content rest r b1 l b2 rc b3 ph : Str) (tail : Tail) (items : List RuleItem) (out : RuleTable) (rule : Rule)
    (hc : resolver file = .ok content) (hr : Reading (RuleItem.Reads U) content items rest)
    (hcol : Collects R (FileRules U R resolver depth) file 0 items (fun _ => []) out)
    (hrest : rest ≠ []) (hi : RuleItem.Reads U rest (.rule [] b1 l b2 rc b3 ph tail) r)
    (hrule : IsRule R file (linesOf RuleItem.lines items + 1) [] l rc ph rule) :
    parseRule U R resolver (depth + 1) file = .error .unwrap := by
  obtain ⟨m, -, -, e⟩ := ruleFrom_collects (included := FileRules U R resolver depth)
    (load := parseRule U R resolver depth) (fun name t hi => parseRule_of_fileRules hi) hr proper_nil hcol
  rw [parseRule_succ hc, e, ruleFrom_rule hrest hi, Nat.zero_add, (parseQuadruplet_iff _ _ _ _ _ _ _ _).mpr hrule]

/-- C62: an error in the phonemes or the contexts of a rule is reported without file and line — unless the file is
included, where the file and line of the include are given. -/
theorem rule_file_rule_error (U : Unicode) (R : RegexEngine) (resolver : Resolver) (depth : Nat)
    (file content rest r p b1 l b2 rc b3 ph : Str) (tail : Tail) (items : List RuleItem) (out : RuleTable)
    (hc : resolver file = .ok content) (hr : Reading (RuleItem.Reads U) content items rest)
    (hcol : Collects R (FileRules U R resolver depth) file 0 items (fun _ => []) out)
    (hrest : rest ≠ []) (hi : RuleItem.Reads U rest (.rule p b1 l b2 rc b3 ph tail) r)
    (hrule : ∀ rule, ¬ IsRule R file (linesOf RuleItem.lines items + 1) p l rc ph rule) :
    ∃ e, parseRule U R resolver (depth + 1) file = .ok (.error (.bmError e)) := by
  obtain ⟨m, -, -, e⟩ := ruleFrom_collects (included := FileRules U R resolver depth)
    (load := parseRule U R resolver depth) (fun name t hi => parseRule_of_fileRules hi) hr proper_nil hcol
  rw [parseRule_succ hc, e, ruleFrom_rule hrest hi, Nat.zero_add]
  rcases parseQuadruplet_total R file (linesOf RuleItem.lines items + 1) (p, l, rc, ph) with ⟨rule, hq⟩ | ⟨e, hq⟩
  · exact absurd ((parseQuadruplet_iff _ _ _ _ _ _ _ _).mp hq) (hrule rule)
  · rw [hq]; exact ⟨e, rfl⟩

/-- C62: an error in an included file.  Errors that name a line are passed on; the others get the line of the
include. -/
theorem rule_file_include_error (U : Unicode) (R : RegexEngine) (resolver : Resolver) (depth : Nat)
    (file content rest r name : Str) (tail : Tail) (items : List RuleItem) (out : RuleTable) (err : PhoneticError)
    (hc : resolver file = .ok content) (hr : Reading (RuleItem.Reads U) content items rest)
    (hcol : Collects R (FileRules U R resolver depth) file 0 items (fun _ => []) out)
    (hrest : rest ≠ []) (hi : RuleItem.Reads U rest (.directive name tail) r)
    (herr : parseRule U R resolver depth name = .ok (.error err)) :
    (∀ e, err = .bmError e → parseRule U R resolver (depth + 1) file = .ok (.error (.parseRuleError
      ⟨linesOf RuleItem.lines items + 1, some file, r.takeWhile (· != '\n'), e.display⟩))) ∧
    ((∀ e, err ≠ .bmError e) → parseRule U R resolver (depth + 1) file = .ok (.error err)) := by
  obtain ⟨m, -, -, e⟩ := ruleFrom_collects (included := FileRules U R resolver depth)
    (load := parseRule U R resolver depth) (fun name t hi => parseRule_of_fileRules hi) hr proper_nil hcol
  rw [parseRule_succ hc, e, ruleFrom_directive hrest hi, Nat.zero_add, herr]
  refine ⟨?_, fun h => ?_⟩
  · rintro e rfl; rfl
  · cases err with
    | bmError e => exact absurd rfl (h e)
    | parseRuleError e => rfl

example : parseRule .latin1 pickyRegex (fun _ => .ok c!"// x\n\"a\" \"\" \"\" \"b\"\n\"a\" \"\" \"b\"\n") 1 c!"f" =
    .ok (.error (.parseRuleError ⟨3, some c!"f", c!"\"a\" \"\" \"b\"", c!"Can't parse line"⟩)) := by decide +kernel
example : parseRule .latin1 pickyRegex (fun _ => .ok c!"\"\" \"\" \"\" \"b\"\n") 1 c!"f" = .error .unwrap := by
  decide +kernel
example : parseRule .latin1 pickyRegex (fun f => if f = c!"f" then .ok c!"#include g\n// next\n"
    else .ok c!"\"a\" \"\" \"\" \"b[\"\n") 2 c!"f" =
    .ok (.error (.parseRuleError ⟨1, some c!"f", c!"// next",
      (BMError.wrongPhoneme c!"Phoneme expression b[ has a '[' but doesn't ends with an ']'").display⟩)) := by
  decide +kernel

/-! ## C63: the configuration -/

/-- C63: a directory loads exactly when the files it must have can be read. -/
theorem config_loads (U : Unicode) (R : RegexEngine) (depth : Nat) (dir : Directory) :
    (∃ cfg, ConfigFiles.new U R depth dir = .ok (.ok cfg)) ↔ Loadable U R depth dir :=
  ⟨fun ⟨_, h⟩ => loadable_of_config h, config_of_loadable⟩

/-- C63: and the configuration is what the files say. -/
theorem config_contents (U : Unicode) (R : RegexEngine) (depth : Nat) (dir : Directory) (cfg : ConfigFiles)
    (h : ConfigFiles.new U R depth dir = .ok (.ok cfg)) : Loaded U R depth dir cfg := config_loaded h

/-- C63: the sample directory loads. -/
theorem config_loads_example : Loadable .latin1 SampleBM.regex 3 SampleBM.dir :=
  (config_loads _ _ _ _).mp SampleBM.config_ok

/-! ## C64: a missing list of languages -/

theorem langsLoop_missing {R : RegexEngine} {dir : Directory} {languages : Languages} {nts : List NameType}
    (hm : ∃ nt ∈ nts, languages.get? nt = none)
    (hok : ∀ nt : NameType, ∃ content items, dir.read (langFilename nt) = some content ∧
      Reading LangItem.Reads content items [] ∧ ValidItems R items) (langs : Langs) :
    langsLoop R dir languages nts langs = .error .unwrap := by
  induction nts generalizing langs with
  | nil => obtain ⟨nt, h, _⟩ := hm; cases h
  | cons nt nts ih =>
    simp only [langsLoop]
    cases hg : languages.get? nt with
    | none => rfl
    | some l =>
      obtain ⟨content, items, h1, h2, h3⟩ := hok nt
      unfold langFilename at h1
      have hp := parseLang_reading (fn := some (nt.display ++ c!"_lang.txt")) (ls := l) h2 h3
      simp only [h1, bind, Except.bind, hp]
      refine ih ?_ _
      obtain ⟨nt', hm, hn⟩ := hm
      rcases List.mem_cons.mp hm with rfl | hm
      · rw [hg] at hn; cases hn
      · exact ⟨nt', hm, hn⟩

/-- C64: if the directory has no list of languages for some name type, and is correct otherwise, then loading it does
not return an error, but panics. -/
theorem config_missing_list (U : Unicode) (R : RegexEngine) (depth : Nat) (dir : Directory)
    (hmiss : ∃ nt : NameType, nt.languageFilename ∉ dir.entries)
    (hlist : ∀ nt : NameType, ∃ content items, nt.languageFilename ∈ dir.entries →
      dir.read nt.languageFilename = some content ∧ Reading ListItem.Reads content items [])
    (hlang : ∀ nt : NameType, ∃ content items, dir.read (langFilename nt) = some content ∧
      Reading LangItem.Reads content items [] ∧ ValidItems R items) :
    ConfigFiles.new U R depth dir = .error .unwrap := by
  have key : ∀ (names : List Str) (map : Languages), (∀ n ∈ names, n ∈ dir.entries) →
      ∃ map', languagesLoop dir names map = .ok (.ok map') := by
    intro names
    induction names with
    | nil => exact fun map _ => ⟨map, rfl⟩
    | cons name names ih =>
      intro map hn
      have ih := fun map => ih map fun n h => hn n (List.mem_cons_of_mem _ h)
      simp only [languagesLoop]
      cases ho : NameType.ofFilename name with
      | error e => exact ih map
      | ok n =>
        obtain ⟨content, items, h⟩ := hlist n
        have hname := ofFilename_ok ho
        obtain ⟨h1, h2⟩ := h (by rw [← hname]; exact hn name List.mem_cons_self)
        rw [hname, h1]
        simp only [bind, Except.bind, parseList_reading h2]
        exact ih _
  obtain ⟨ls, h1⟩ := key dir.entries [] fun n h => h
  obtain ⟨nt, hnt⟩ := hmiss
  have hnone : ls.get? nt = none := by
    cases hg : ls.get? nt with
    | none => rfl
    | some l =>
      rcases languagesLoop_listed h1 nt ⟨l, hg⟩ with h | ⟨l', h⟩
      · exact absurd h hnt
      · cases h
  have h1' : languagesOfDir dir = .ok (.ok ls) := h1
  have h2 : buildLangs R dir ls = .error .unwrap :=
    langsLoop_missing ⟨nt, by cases nt <;> decide, hnone⟩ hlang []
  simp only [ConfigFiles.new, bind, Except.bind, h1', h2]

/-- C64: an empty directory has no list of languages either: loading it panics. -/
theorem config_empty_directory (U : Unicode) (R : RegexEngine) (depth : Nat) (dir : Directory) (h : dir.entries = []) :
    ConfigFiles.new U R depth dir = .error .unwrap := by
  simp only [ConfigFiles.new, bind, Except.bind, languagesOfDir, h, languagesLoop, buildLangs, NameType.all, langsLoop]
  rfl

/-- The sample directory without the list for Ashkenazic names. -/
theorem config_missing_list_example :
    ConfigFiles.new .latin1 SampleBM.regex 3 { SampleBM.dir with entries := SampleBM.dir.entries.take 2 } =
      .error .unwrap := by
  refine config_missing_list _ _ _ _ ⟨.ashkenazi, by decide⟩ (fun nt => ?_) (fun nt => ?_)
  · obtain ⟨-, ⟨content, items, h⟩, -⟩ := config_loads_example nt
    exact ⟨content, items, fun _ => h⟩
  · exact (config_loads_example nt).2.2.1

end Verif.Props
