import Verif.Proofs.BMLoad
import Verif.Proofs.Parser
import Verif.Spec.BMFiles

set_option linter.unusedSimpArgs false
set_option linter.unusedVariables false

namespace Verif.BMProofs
open BM Spec ParserProofs
open DMKProofs (get?_insert quadruplet_shorter endOfLine_shorter multiline_shorter tail_print_ne)

/-! ## Reading -/

theorem reading_exists {ι : Type} (reads : Str → ι → Str → Prop)
    (short : ∀ s i r, s ≠ [] → reads s i r → r.length < s.length) (s : Str) :
    ∃ items t, Reading reads s items t ∧ (t = [] ∨ Stuck reads t) := by
  induction hn : s.length using Nat.strongRecOn generalizing s with
  | ind n ih =>
    by_cases hs : s = []
    · exact ⟨[], s, .nil s, .inl hs⟩
    · by_cases hx : ∃ i r, reads s i r
      · obtain ⟨i, r, h⟩ := hx
        obtain ⟨items, t, h1, h2⟩ := ih r.length (by have := short s i r hs h; omega) r rfl
        exact ⟨i :: items, t, .cons hs h h1, h2⟩
      · exact ⟨[], s, .nil s, .inr ⟨hs, fun i r h => hx ⟨i, r, h⟩⟩⟩

theorem tail_head {t : Tail} {r : Str} (h : t.WF r) {c : Char} {cs : Str} (e : t.print ++ r = c :: cs) :
    c = ' ' ∨ c = '\t' ∨ c = '\n' ∨ c = '\r' ∨ (c = '/' ∧ cs.head? = some '/') := by
  obtain ⟨blanks, comment, ending⟩ := t
  obtain ⟨h1, h2, h3⟩ := h
  simp only at h1 h2 h3
  simp only [Tail.print] at e
  cases blanks with
  | cons b bs =>
    simp only [List.cons_append, List.cons.injEq] at e
    have := h1 b List.mem_cons_self
    simp only [isSpaceTab, Bool.or_eq_true, beq_iff_eq] at this
    rw [← e.1]
    rcases this with h | h
    · exact .inl h
    · exact .inr (.inl h)
  | nil =>
    cases comment with
    | some x =>
      simp only [List.nil_append, List.cons_append, List.cons.injEq] at e
      refine .inr (.inr (.inr (.inr ⟨e.1.symm, ?_⟩)))
      rw [← e.2]; rfl
    | none =>
      simp only [List.nil_append] at e
      rcases h3 with h3 | h3 | ⟨h3, h4⟩
      · rw [h3] at e; simp at e; exact .inr (.inr (.inl e.1.symm))
      · rw [h3] at e; simp at e; exact .inr (.inr (.inr (.inl e.1.symm)))
      · rw [h3, h4] at e; simp at e

theorem endOfLine_none_of {c : Char} {cs : Str} (h1 : c ≠ ' ') (h2 : c ≠ '\t') (h3 : c ≠ '\n') (h4 : c ≠ '\r')
    (h5 : c = '/' → cs.head? ≠ some '/') : Parser.endOfLine (c :: cs) = none := by
  cases h : Parser.endOfLine (c :: cs) with
  | none => rfl
  | some x =>
    obtain ⟨t, ht, e⟩ := endOfLine_some (u := x.1) (r := x.2) h
    rcases tail_head ht e.symm with h' | h' | h' | h' | ⟨h', h''⟩
    · exact absurd h' h1
    · exact absurd h' h2
    · exact absurd h' h3
    · exact absurd h' h4
    · exact absurd h'' (h5 h')

theorem multiline_none_of {c : Char} {cs : Str} (h : c ≠ '/') : Parser.multilineComment (c :: cs) = none := by
  cases hm : Parser.multilineComment (c :: cs) with
  | none => rfl
  | some x =>
    obtain ⟨text, t, -, -, -, e⟩ := multilineComment_some (n := x.1) (r := x.2) hm
    simp only [List.cons_append, List.cons.injEq] at e
    exact absurd e.1 h

/-- The two parsers of filler recognise exactly filler. -/
theorem filler_some {s : Str} {f : Filler} {r : Str} (h : f.Reads s r) :
    (Parser.endOfLine s = some ((), r) ∧ f.lines = 1) ∨
    (Parser.endOfLine s = none ∧ Parser.multilineComment s = some (f.lines, r)) := by
  obtain ⟨rfl, hl⟩ := h
  cases f with
  | blank t => exact .inl ⟨endOfLine_print hl, rfl⟩
  | block text t =>
    right
    refine ⟨?_, multilineComment_print hl.1 hl.2⟩
    exact endOfLine_none_of (by decide) (by decide) (by decide) (by decide) (fun _ => by simp)

theorem filler_none {s : Str} (h : ∀ f r, ¬ Filler.Reads s f r) :
    Parser.endOfLine s = none ∧ Parser.multilineComment s = none := by
  constructor
  · cases he : Parser.endOfLine s with
    | none => rfl
    | some x =>
      obtain ⟨t, ht, e⟩ := endOfLine_some (u := x.1) (r := x.2) he
      exact absurd ⟨e, ht⟩ (h (.blank t) x.2)
  · cases hm : Parser.multilineComment s with
    | none => rfl
    | some x =>
      obtain ⟨text, t, h1, h2, -, e⟩ := multilineComment_some (n := x.1) (r := x.2) hm
      exact absurd ⟨e, h1, h2⟩ (h (.block text t) x.2)

theorem filler_shorter {s : Str} {f : Filler} {r : Str} (hs : s ≠ []) (h : f.Reads s r) : r.length < s.length := by
  rcases filler_some h with ⟨h, _⟩ | ⟨_, h⟩
  · exact endOfLine_shorter hs h
  · exact multiline_shorter h

theorem filler_lines_pos (f : Filler) : 1 ≤ f.lines := by cases f <;> simp [Filler.lines]

/-! ## The list of languages -/

theorem listItem_shorter {s : Str} {i : ListItem} {r : Str} (hs : s ≠ []) (h : i.Reads s r) : r.length < s.length := by
  cases i with
  | filler f => exact filler_shorter hs h
  | language l t =>
    obtain ⟨rfl, hne, _⟩ := h
    have := List.length_pos_iff.mpr hne
    simp; omega

theorem language_shorter {s l r : Str} (h : Parser.language s = some (l, r)) : r.length < s.length := by
  obtain ⟨t, hne, _, _, rfl⟩ := language_some h
  have := List.length_pos_iff.mpr hne
  simp; omega

theorem listLoop_fuel (f f' : Nat) (s : Str) (ln : Nat) (acc : StrSet) (h : s.length < f) (h' : s.length < f') :
    listLoop f s ln acc = listLoop f' s ln acc := by
  induction f generalizing f' s ln acc with
  | zero => omega
  | succ f ih =>
    cases f' with
    | zero => omega
    | succ f' =>
      unfold listLoop
      by_cases hs : s = []
      · subst hs; rfl
      rw [if_neg (by simpa using hs), if_neg (by simpa using hs)]
      simp only
      cases he : Parser.endOfLine s with
      | some x =>
        have := endOfLine_shorter (u := x.1) (r := x.2) hs he
        exact ih _ _ _ _ (by omega) (by omega)
      | none =>
        simp only
        cases hm : Parser.multilineComment s with
        | some x =>
          have := multiline_shorter (n := x.1) (r := x.2) hm
          exact ih _ _ _ _ (by omega) (by omega)
        | none =>
          simp only
          cases hl : Parser.language s with
          | some x =>
            have := language_shorter (l := x.1) (r := x.2) hl
            exact ih _ _ _ _ (by omega) (by omega)
          | none => rfl

/-- The loop with enough fuel. -/
def listFrom (s : Str) (ln : Nat) (acc : StrSet) := listLoop (s.length + 1) s ln acc

theorem listLoop_eq {f : Nat} {s : Str} (h : s.length < f) (ln : Nat) (acc : StrSet) :
    listLoop f s ln acc = listFrom s ln acc := listLoop_fuel f _ s ln acc h (Nat.lt_succ_self _)

/-- What an item adds. -/
def addLanguage (acc : StrSet) : ListItem → StrSet
  | .filler _ => acc
  | .language l _ => setInsert strCmp l acc

theorem letter_facts {l s : Str} (hne : l ≠ []) (ha : ∀ c ∈ l, isAsciiAlpha c = true) :
    Parser.endOfLine (l ++ s) = none ∧ Parser.multilineComment (l ++ s) = none := by
  cases l with
  | nil => exact absurd rfl hne
  | cons c cs =>
    have hc := ha c List.mem_cons_self
    refine ⟨endOfLine_none_of ?_ ?_ ?_ ?_ ?_, multiline_none_of ?_⟩
    all_goals first | (rintro rfl; exact absurd hc (by decide)) | skip

theorem listFrom_item {s r : Str} {i : ListItem} (hs : s ≠ []) (h : i.Reads s r) (ln : Nat) (acc : StrSet) :
    listFrom s ln acc = listFrom r (ln + i.lines) (addLanguage acc i) := by
  have hshort := listItem_shorter hs h
  unfold listFrom
  conv => lhs; unfold listLoop
  rw [if_neg (by simpa using hs)]
  cases i with
  | filler f =>
    have hpos := filler_lines_pos f
    rcases filler_some h with ⟨h1, h2⟩ | ⟨h1, h2⟩
    · simp only [h1, ListItem.lines, h2, addLanguage]
      exact listLoop_fuel _ _ _ _ _ (by omega) (by omega)
    · simp only [h1, h2, ListItem.lines, addLanguage]
      rw [show ln + 1 + (f.lines - 1) = ln + f.lines by omega]
      exact listLoop_fuel _ _ _ _ _ (by omega) (by omega)
  | language l t =>
    obtain ⟨rfl, hne, ha, ht⟩ := h
    have h1 := letter_facts (s := t.print ++ r) hne ha
    rw [← List.append_assoc] at h1
    simp only [h1.1, h1.2, language_print hne ha ht, ListItem.lines, addLanguage]
    exact listLoop_fuel _ _ _ _ _ (by omega) (by omega)

theorem listFrom_reading {s t : Str} {items : List ListItem} (h : Reading ListItem.Reads s items t) (ln : Nat)
    (acc : StrSet) :
    listFrom s ln acc = listFrom t (ln + linesOf ListItem.lines items) (items.foldl addLanguage acc) := by
  induction h generalizing ln acc with
  | nil s => simp [linesOf]
  | cons hs hr _ ih =>
    rw [listFrom_item hs hr, ih]
    simp only [linesOf, List.map_cons, List.sum_cons, List.foldl_cons]
    congr 1; omega

theorem listFrom_stuck {s : Str} (h : Stuck ListItem.Reads s) (ln : Nat) (acc : StrSet) :
    listFrom s ln acc = .ok (.error (.parseRuleError
      (buildError (ln + 1) none s c!"Can't parse line for languages"))) := by
  obtain ⟨hs, hn⟩ := h
  unfold listFrom listLoop
  rw [if_neg (by simpa using hs)]
  obtain ⟨h1, h2⟩ := filler_none fun f r hf => hn (.filler f) r hf
  simp only [h1, h2]
  cases hl : Parser.language s with
  | some x =>
    obtain ⟨t, a1, a2, a3, e⟩ := language_some (a := x.1) (r := x.2) hl
    exact absurd ⟨e, a1, a2, a3⟩ (hn (.language x.1 t) x.2)
  | none => rfl

theorem foldl_addLanguage_sorted (items : List ListItem) (acc : StrSet) (h : StrSetWF acc) :
    StrSetWF (items.foldl addLanguage acc) := by
  induction items generalizing acc with
  | nil => exact h
  | cons i items ih =>
    apply ih
    cases i with
    | filler f => exact h
    | language l t => exact setInsert_sorted id strCmp (fun _ _ => rfl) l h

theorem mem_foldl_addLanguage (items : List ListItem) (acc : StrSet) (x : Str) :
    x ∈ items.foldl addLanguage acc ↔ x ∈ acc ∨ ∃ t, ListItem.language x t ∈ items := by
  induction items generalizing acc with
  | nil => simp
  | cons i items ih =>
    rw [List.foldl_cons, ih]
    cases i with
    | filler f => simp [addLanguage]
    | language l t =>
      have : x ∈ addLanguage acc (.language l t) ↔ x = l ∨ x ∈ acc := by
        simp only [addLanguage]
        simpa using setInsert_keys id strCmp (fun _ _ => rfl) l acc x
      rw [this]
      simp only [List.mem_cons, ListItem.language.injEq]
      constructor
      · rintro ((rfl | h) | ⟨t', h⟩)
        · exact .inr ⟨t, .inl ⟨rfl, rfl⟩⟩
        · exact .inl h
        · exact .inr ⟨t', .inr h⟩
      · rintro (h | ⟨t', ⟨rfl, -⟩ | h⟩)
        · exact .inl (.inr h)
        · exact .inl (.inl rfl)
        · exact .inr ⟨t', h⟩

end Verif.BMProofs
