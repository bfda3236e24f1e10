import Verif.Proofs.BMConfig
/-!
# The files of rules that guess languages
-/

set_option linter.unusedSimpArgs false
set_option linter.unusedVariables false

namespace Verif.BMProofs
open BM Spec ParserProofs
open DMKProofs (endOfLine_shorter multiline_shorter)

theorem langItem_shorter {s : Str} {i : LangItem} {r : Str} (hs : s ≠ []) (h : i.Reads s r) : r.length < s.length := by
  cases i with
  | filler f => exact filler_shorter hs h
  | rule p l a t =>
    obtain ⟨rfl, hne, _⟩ := h
    simp; omega

theorem lang_shorter {s a b r : Str} {c : Bool} (h : Parser.lang s = some ((a, b, c), r)) : r.length < s.length := by
  obtain ⟨t, hne, _, _, _, _, rfl⟩ := lang_some h
  simp; omega

theorem langLoop_fuel (R : RegexEngine) (fn : Option Str) (f f' : Nat) (s : Str) (ln : Nat) (acc : List LangRule)
    (h : s.length < f) (h' : s.length < f') :
    langLoop R fn f s ln acc = langLoop R fn f' s ln acc := by
  induction f generalizing f' s ln acc with
  | zero => omega
  | succ f ih =>
    cases f' with
    | zero => omega
    | succ f' =>
      unfold langLoop
      by_cases hs : s = []
      · subst hs; rfl
      rw [if_neg (by simpa using hs), if_neg (by simpa using hs)]
      simp only
      cases he : Parser.endOfLine s with
      | some x =>
        have := endOfLine_shorter (u := x.1) (r := x.2) hs he
        exact ih _ _ _ _ (by omega) (by omega)
      | none =>
        simp only
        cases hm : Parser.multilineComment s with
        | some x =>
          have := multiline_shorter (n := x.1) (r := x.2) hm
          exact ih _ _ _ _ (by omega) (by omega)
        | none =>
          simp only
          cases hl : Parser.lang s with
          | some x =>
            obtain ⟨⟨a, b, c⟩, r⟩ := x
            have := lang_shorter hl
            simp only
            cases R.error a with
            | some m => rfl
            | none => exact ih _ _ _ _ (by omega) (by omega)
          | none => rfl

/-- The loop with enough fuel. -/
def langFrom (R : RegexEngine) (fn : Option Str) (s : Str) (ln : Nat) (acc : List LangRule) :=
  langLoop R fn (s.length + 1) s ln acc

/-- The rules of the items. -/
def itemRules (ln : Nat) : List LangItem → List LangRule
  | [] => []
  | .filler f :: items => itemRules (ln + f.lines) items
  | .rule p l a _ :: items =>
    { lineNumber := ln + 1, acceptOnMatch := a, languages := setOfList strCmp (splitOnChar '+' l), pattern := p } ::
      itemRules (ln + 1) items

/-- All the expressions are valid. -/
def Valid (R : RegexEngine) (items : List LangItem) : Prop :=
  ∀ p l a t, LangItem.rule p l a t ∈ items → R.error p = none

theorem langFrom_filler {R : RegexEngine} {fn : Option Str} {s r : Str} {f : Filler} (hs : s ≠ [])
    (h : f.Reads s r) (ln : Nat) (acc : List LangRule) :
    langFrom R fn s ln acc = langFrom R fn r (ln + f.lines) acc := by
  have hshort := filler_shorter hs h
  unfold langFrom
  conv => lhs; unfold langLoop
  rw [if_neg (by simpa using hs)]
  have hpos := filler_lines_pos f
  rcases filler_some h with ⟨h1, h2⟩ | ⟨h1, h2⟩
  · simp only [h1, h2]
    exact langLoop_fuel R fn _ _ _ _ _ (by omega) (by omega)
  · simp only [h1, h2]
    rw [show ln + 1 + (f.lines - 1) = ln + f.lines by omega]
    exact langLoop_fuel R fn _ _ _ _ _ (by omega) (by omega)

theorem langFrom_rule {R : RegexEngine} {fn : Option Str} {s r p l : Str} {a : Bool} {t : Tail} (hs : s ≠ [])
    (h : LangItem.Reads s (.rule p l a t) r) (ln : Nat) (acc : List LangRule) :
    langFrom R fn s ln acc =
      match R.error p with
      | some message => .ok (.error (.parseRuleError (buildError (ln + 1) fn r message)))
      | none => langFrom R fn r (ln + 1) (acc ++ [{
          lineNumber := ln + 1, acceptOnMatch := a
          languages := setOfList strCmp (splitOnChar '+' l), pattern := p }]) := by
  have hshort := langItem_shorter hs h
  obtain ⟨rfl, n1, m1, n2, m2, ht, hf⟩ := h
  obtain ⟨h1, h2⟩ := filler_none hf
  unfold langFrom
  conv => lhs; unfold langLoop
  rw [if_neg (by simpa using hs)]
  simp only [h1, h2, lang_print n1 m1 n2 m2 ht]
  cases R.error p with
  | some m => rfl
  | none => exact langLoop_fuel R fn _ _ _ _ _ (by omega) (by omega)

theorem langFrom_reading {R : RegexEngine} {fn : Option Str} {s t : Str} {items : List LangItem}
    (h : Reading LangItem.Reads s items t) (hv : Valid R items) (ln : Nat) (acc : List LangRule) :
    langFrom R fn s ln acc = langFrom R fn t (ln + linesOf LangItem.lines items) (acc ++ itemRules ln items) := by
  induction h generalizing ln acc with
  | nil s => simp [linesOf, itemRules]
  | @cons s r t i items hs hr _ ih =>
    have ih := fun ln acc => ih (fun p l a t h => hv p l a t (List.mem_cons_of_mem _ h)) ln acc
    cases i with
    | filler f =>
      rw [langFrom_filler hs hr, ih]
      simp only [linesOf, List.map_cons, List.sum_cons, itemRules, LangItem.lines]
      congr 1; omega
    | rule p l a tl =>
      rw [langFrom_rule hs hr, hv p l a tl List.mem_cons_self]
      simp only
      rw [ih]
      simp only [linesOf, List.map_cons, List.sum_cons, itemRules, LangItem.lines, List.append_assoc,
        List.singleton_append]
      congr 1; omega

theorem langFrom_stuck {R : RegexEngine} {fn : Option Str} {s : Str} (h : Stuck LangItem.Reads s) (ln : Nat)
    (acc : List LangRule) :
    langFrom R fn s ln acc = .ok (.error (.parseRuleError
      (buildError (ln + 1) none s c!"Can't parse line for language detection"))) := by
  obtain ⟨hs, hn⟩ := h
  have hf : ∀ f r, ¬ Filler.Reads s f r := fun f r hf => hn (.filler f) r hf
  unfold langFrom langLoop
  rw [if_neg (by simpa using hs)]
  obtain ⟨h1, h2⟩ := filler_none hf
  simp only [h1, h2]
  cases hl : Parser.lang s with
  | some x =>
    obtain ⟨⟨a, b, c⟩, r⟩ := x
    obtain ⟨t, n1, m1, n2, m2, ht, e⟩ := lang_some hl
    exact absurd ⟨e, n1, m1, n2, m2, ht, hf⟩ (hn (.rule a b c t) r)
  | none => rfl

theorem itemRules_spec (ln : Nat) (items : List LangItem) :
    (itemRules ln items).length = (langRules ln items).length ∧
    ∀ x ∈ (langRules ln items).zip (itemRules ln items), IsLangRule x.1 x.2 := by
  induction items generalizing ln with
  | nil => exact ⟨rfl, fun x hx => absurd hx List.not_mem_nil⟩
  | cons i items ih =>
    cases i with
    | filler f => exact ih _
    | rule p l a t =>
      refine ⟨by simp [itemRules, langRules, (ih (ln + 1)).1], fun x hx => ?_⟩
      simp only [itemRules, langRules, List.zip_cons_cons] at hx
      rcases List.mem_cons.mp hx with rfl | hx
      · refine ⟨rfl, setOfList_sorted id strCmp (fun _ _ => rfl) _, fun k => ?_, rfl, rfl⟩
        simpa using setOfList_keys id strCmp (fun _ _ => rfl) (splitOnChar '+' l) k
      · exact (ih (ln + 1)).2 x hx

/-- What stops the parser at a rule whose expression is invalid. -/
theorem valid_or {R : RegexEngine} {s t : Str} {items : List LangItem} (h : Reading LangItem.Reads s items t) :
    Valid R items ∨ ∃ before p l a tl u r m after, Reading LangItem.Reads s before u ∧ Valid R before ∧ u ≠ [] ∧
      LangItem.Reads u (.rule p l a tl) r ∧ R.error p = some m ∧ items = before ++ .rule p l a tl :: after := by
  induction h with
  | nil s => exact .inl fun p l a t h => absurd h List.not_mem_nil
  | @cons s r t i items hs hr _ ih =>
    by_cases hi : ∀ p l a tl, i = .rule p l a tl → R.error p = none
    · rcases ih with h | ⟨before, p, l, a, tl, u, r', m, after, h1, h2, h3, h4, h5, h6⟩
      · refine .inl fun p l a tl hm => ?_
        rcases List.mem_cons.mp hm with hm | hm
        · exact hi p l a tl hm.symm
        · exact h p l a tl hm
      · refine .inr ⟨i :: before, p, l, a, tl, u, r', m, after, .cons hs hr h1, ?_, h3, h4, h5, by rw [h6]; rfl⟩
        intro p l a tl hm
        rcases List.mem_cons.mp hm with hm | hm
        · exact hi p l a tl hm.symm
        · exact h2 p l a tl hm
    · cases i with
      | filler f => exact absurd (fun p l a tl h => by cases h) hi
      | rule p l a tl =>
        cases he : R.error p with
        | none => exact absurd (fun p' l' a' tl' h => by cases h; exact he) hi
        | some m =>
          exact .inr ⟨[], p, l, a, tl, s, r, m, items, .nil s, fun p l a t h => absurd h List.not_mem_nil, hs, hr,
            he, rfl⟩

theorem parseLang_eq (R : RegexEngine) (fn : Option Str) (content : Str) (ls : StrSet) :
    parseLang R fn content ls =
      (langFrom R fn content 0 []).map fun x => x.map fun rules => { languages := ls, rules } := by
  unfold parseLang langFrom
  cases langLoop R fn (content.length + 1) content 0 [] with
  | error e => rfl
  | ok x => cases x <;> rfl

theorem parseLang_reading {R : RegexEngine} {fn : Option Str} {content : Str} {items : List LangItem} {ls : StrSet}
    (h : Reading LangItem.Reads content items []) (hv : Valid R items) :
    parseLang R fn content ls = .ok (.ok { languages := ls, rules := itemRules 0 items }) := by
  rw [parseLang_eq, langFrom_reading h hv]
  rfl

theorem parseLang_stuck {R : RegexEngine} {fn : Option Str} {content rest : Str} {items : List LangItem} {ls : StrSet}
    (h : Reading LangItem.Reads content items rest) (hv : Valid R items) (hs : Stuck LangItem.Reads rest) :
    parseLang R fn content ls = .ok (.error (.parseRuleError (buildError (linesOf LangItem.lines items + 1) none rest
      c!"Can't parse line for language detection"))) := by
  rw [parseLang_eq, langFrom_reading h hv, langFrom_stuck hs, Nat.zero_add]
  rfl

theorem parseLang_invalid {R : RegexEngine} {fn : Option Str} {content u r p l m : Str} {a : Bool} {tl : Tail}
    {before : List LangItem} {ls : StrSet} (h : Reading LangItem.Reads content before u) (hv : Valid R before)
    (hu : u ≠ []) (hr : LangItem.Reads u (.rule p l a tl) r) (he : R.error p = some m) :
    parseLang R fn content ls = .ok (.error (.parseRuleError (buildError (linesOf LangItem.lines before + 1) fn r m))) := by
  rw [parseLang_eq, langFrom_reading h hv, langFrom_rule hu hr, he, Nat.zero_add]
  rfl

end Verif.BMProofs
