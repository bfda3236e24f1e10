import Verif.Spec.DaitchMokotoffTable
import Verif.Props.DaitchMokotoffChoices
/-!
# C110: the default Daitch-Mokotoff encoder computes its table
-/

namespace Verif.Props
open Parser Spec DaitchMokotoff DMKProofs ParserProofs

namespace TableProofs

/-- A file with the rules and foldings of the tables. -/
def tableItems : List DMItem :=
  (dmTable.map fun r => DMItem.rule r.1 c!" " r.2.1 c!" " r.2.2.1 c!" " r.2.2.2 ⟨[], none, c!"\n"⟩) ++
    dmFoldings.map fun p => DMItem.fold p.1 p.2 ⟨[], none, c!"\n"⟩

set_option maxRecDepth 100000 in
theorem table_encoder : encoderOf true tableItems = defaultEncoder := by decide +kernel

theorem table_rules : dmRules tableItems = dmTableRules := by
  unfold dmRules tableItems dmTableRules
  rw [List.filterMap_append]
  have h1 : ∀ l : List (Str × Str × Str × Str), (l.map fun r =>
      DMItem.rule r.1 c!" " r.2.1 c!" " r.2.2.1 c!" " r.2.2.2 ⟨[], none, c!"\n"⟩).filterMap (fun
        | .rule p _ s _ v _ o _ => some (⟨p, alternatives s, alternatives v, alternatives o⟩ : DMSpecRule)
        | _ => none) = l.map fun r => ⟨r.1, alternatives r.2.1, alternatives r.2.2.1, alternatives r.2.2.2⟩ := by
    intro l
    induction l with
    | nil => rfl
    | cons x l ih => rw [List.map_cons, List.filterMap_cons, List.map_cons, ih]
  have h2 : ∀ l : List (Char × Char), (l.map fun p => DMItem.fold p.1 p.2 ⟨[], none, c!"\n"⟩).filterMap (fun
        | .rule p _ s _ v _ o _ => some (⟨p, alternatives s, alternatives v, alternatives o⟩ : DMSpecRule)
        | _ => none) = [] := by
    intro l
    induction l with
    | nil => rfl
    | cons x l ih => rw [List.map_cons, List.filterMap_cons, ih]
  exact (congr (congrArg HAppend.hAppend (h1 dmTable)) (h2 dmFoldings)).trans (List.append_nil _)

theorem table_fold (c : Char) : dmFold tableItems c = dmTableFold c := by
  unfold dmFold tableItems dmTableFold
  rw [List.filterMap_append]
  have h1 : ∀ l : List (Str × Str × Str × Str), (l.map fun r =>
      DMItem.rule r.1 c!" " r.2.1 c!" " r.2.2.1 c!" " r.2.2.2 ⟨[], none, c!"\n"⟩).filterMap (fun
        | .fold a b _ => if a = c then some b else none
        | _ => none) = [] := by
    intro l
    induction l with
    | nil => rfl
    | cons x l ih => rw [List.map_cons, List.filterMap_cons, ih]
  have h2 : ∀ l : List (Char × Char), (l.map fun p => DMItem.fold p.1 p.2 ⟨[], none, c!"\n"⟩).filterMap (fun
        | .fold a b _ => if a = c then some b else none
        | _ => none) = (l.filter fun p => p.1 == c).map (·.2) := by
    intro l
    induction l with
    | nil => rfl
    | cons x l ih =>
      rw [List.map_cons, List.filterMap_cons, List.filter_cons]
      by_cases h : x.1 = c
      · simp [h] at ih ⊢; exact ih
      · simp [h] at ih ⊢; exact ih
  refine (congrArg List.getLast? ((congr (congrArg HAppend.hAppend (h1 dmTable)) (h2 dmFoldings)).trans (List.nil_append _))).trans ?_
  by_cases hc : c ∈ dmFoldings.map (·.1)
  · have : ∀ c ∈ dmFoldings.map (·.1), ((dmFoldings.filter fun p => p.1 == c).map (·.2)).getLast? =
        (dmFoldings.find? fun p => p.1 == c).map (·.2) := by decide +kernel
    exact this c hc
  · have e1 : (dmFoldings.filter fun p => p.1 == c) = [] := by
      rw [List.filter_eq_nil_iff]
      intro p hp h
      exact hc (List.mem_map.mpr ⟨p, hp, by simpa using h⟩)
    have e2 : (dmFoldings.find? fun p => p.1 == c) = none := by
      rw [List.find?_eq_none]
      intro p hp h
      exact hc (List.mem_map.mpr ⟨p, hp, by simpa using h⟩)
    rw [e1, e2]; rfl

theorem table_patterns : ∀ i ∈ tableItems, ∀ r, itemRule i = some r → r.pattern ≠ [] := by
  intro i hi r hr
  rcases List.mem_append.mp hi with hi | hi
  · obtain ⟨x, hx, rfl⟩ := List.mem_map.mp hi
    cases hr
    exact (by decide +kernel : ∀ x ∈ dmTable, x.1 ≠ []) x hx
  · obtain ⟨x, hx, rfl⟩ := List.mem_map.mp hi
    cases hr

theorem table_ascii : AsciiAlternatives tableItems := by
  intro p b1 s b2 v b3 o t h
  rcases List.mem_append.mp h with hi | hi
  · obtain ⟨x, hx, e⟩ := List.mem_map.mp hi
    cases e
    have := (by decide +kernel : ∀ x ∈ dmTable, (x.2.1.all isAscii && x.2.2.1.all isAscii && x.2.2.2.all isAscii) = true) x hx
    simp only [Bool.and_eq_true, List.all_eq_true] at this
    exact ⟨this.1.1, this.1.2, this.2⟩
  · obtain ⟨x, hx, e⟩ := List.mem_map.mp hi
    cases e

theorem build_folding (rules : Str) (folding : Bool) {d : DaitchMokotoff} (hb : (Builder.withRules rules).build = .ok (.ok d)) :
    ((Builder.withRules rules).setAsciiFolding folding).build = .ok (.ok { d with asciiFolding := folding }) := by
  unfold Builder.build at hb ⊢
  simp only [Builder.withRules, Builder.setAsciiFolding, bind, Except.bind] at hb ⊢
  split at hb
  · cases hb
  · rename_i x hx
    cases x with
    | error e => cases hb
    | ok t => cases hb; rfl

end TableProofs

open TableProofs in
/-- C110. The codes of the default encoder, for every text: those of the table, for the text without whitespace, in lower case,
with the accents of the table of foldings removed. `soundex` gives all of them, separated by bars, `encode` the first one. -/
theorem dm_default_table (U : Unicode) (v : Str) :
    let codes := dmCodes dmTableRules (dmNormalise U true dmTableFold v)
    defaultEncoder.innerSoundex U v true = .ok codes ∧ defaultEncoder.soundex U v = .ok (codes.intersperse c!"|").flatten ∧
      defaultEncoder.encode U v = .ok (codes.headD []) := by
  have h := innerSoundex_spec table_patterns (itemAlternatives_ascii table_ascii) U true v
  have hf : dmFold tableItems = dmTableFold := funext table_fold
  rw [table_encoder, table_rules, hf] at h
  have hs : defaultEncoder.soundex U v = .ok ((dmCodes dmTableRules (dmNormalise U true dmTableFold v)).intersperse c!"|").flatten := by
    unfold soundex
    rw [h]; rfl
  obtain ⟨code, others, h3, h4, h5, h6⟩ := dm_encode_first U _ _ dm_default_builds v _ hs
  rw [h] at h5
  injection h5 with h5
  refine ⟨h, hs, ?_⟩
  rw [h4, h5]; rfl

/-- C110. The same with or without folding: the encoder that is built from the embedded rules with `ascii_folding(folding)`. -/
theorem dm_default_table_folding (U : Unicode) (folding : Bool) (v : Str) :
    ∃ d, ((Builder.withRules defaultRules).setAsciiFolding folding).build = .ok (.ok d) ∧
      let codes := dmCodes dmTableRules (dmNormalise U folding dmTableFold v)
      d.innerSoundex U v true = .ok codes ∧ d.soundex U v = .ok (codes.intersperse c!"|").flatten ∧
        d.encode U v = .ok (codes.headD []) := by
  have hd := TableProofs.build_folding defaultRules folding dm_default_builds
  have he : encoderOf folding TableProofs.tableItems = { defaultEncoder with asciiFolding := folding } := by
    rw [← TableProofs.table_encoder]; rfl
  refine ⟨_, hd, ?_⟩
  have h := innerSoundex_spec TableProofs.table_patterns (itemAlternatives_ascii TableProofs.table_ascii) U folding v
  have hf : dmFold TableProofs.tableItems = dmTableFold := funext TableProofs.table_fold
  rw [he, TableProofs.table_rules, hf] at h
  have hs : soundex U { defaultEncoder with asciiFolding := folding } v =
      .ok ((dmCodes dmTableRules (dmNormalise U folding dmTableFold v)).intersperse c!"|").flatten := by
    unfold soundex
    rw [h]; rfl
  obtain ⟨code, others, h3, h4, h5, h6⟩ := dm_encode_first U _ _ hd v _ hs
  rw [h] at h5
  injection h5 with h5
  refine ⟨h, hs, ?_⟩
  rw [h4, h5]; rfl

/-- Three letters of the table with two alternatives; an accent that is folded, and one that is not. -/
example : dmCodes dmTableRules (dmNormalise .latin1 true dmTableFold c!"Jà cK") =
      [c!"150000", c!"145000", c!"450000", c!"445000"] ∧
    dmTableFold 'ö' = some 'o' ∧ dmTableFold 'ü' = none ∧ dmTable.length = 124 ∧ dmFoldings.length = 37 := by decide +kernel

end Verif.Props
