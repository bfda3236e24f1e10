import Verif.Spec.BMLayout
import Verif.Props.BMFiles
/-!
# The layout of the files of a Beider-Morse directory does not matter (C98)
-/

set_option linter.unusedSimpArgs false
set_option linter.unusedVariables false
set_option linter.unusedSectionVars false

namespace Verif.Props
open BM Spec BMProofs ParserProofs

namespace LayoutProofs

/-! ## Encoders whose rules differ only in where they come from -/

/-- A rule without the place it comes from. -/
def erase (r : Rule) : Rule := { r with location := [], line := 0 }

structure SameMap (m m' : RuleMap) : Prop where
  empty : m.isEmpty = m'.isEmpty
  rules : ∀ c, (rulesFor m c).map erase = (rulesFor m' c).map erase

def SameOpt : Option RuleMap → Option RuleMap → Prop
  | none, none => True
  | some m, some m' => SameMap m m'
  | _, _ => False

/-- A rule that guesses languages without its line. -/
def eraseLang (r : LangRule) : LangRule := { r with lineNumber := 0 }

structure SameEngine (e e' : Engine) : Prop where
  settings : SameSettings e e'
  rules : ∀ k, SameOpt (e.rules.get? k) (e'.rules.get? k)
  languages : e.lang.languages = e'.lang.languages
  guesses : e.lang.rules.map eraseLang = e'.lang.rules.map eraseLang

theorem findRule_erase (R : RegexEngine) (input : CharSequence) (i : Nat) (rules : List Rule) :
    findRule R input i (rules.map erase) = (findRule R input i rules).map (Option.map erase) := by
  induction rules with
  | nil => rfl
  | cons r rules ih =>
    simp only [List.map_cons, findRule, bind, Except.bind]
    have : (erase r).patternAndContextMatches R input i = r.patternAndContextMatches R input i := rfl
    rw [this]
    cases r.patternAndContextMatches R input i with
    | error e => rfl
    | ok b =>
      cases b with
      | true => rfl
      | false => exact ih

theorem invoke_eq (R : RegexEngine) (m : RuleMap) (input : CharSequence) (b : PhonemeBuilder) (i max : Nat) :
    invoke R m input b i max = (input.indexFrom i).bind fun s =>
      match s.head? with
      | none => .error .unwrap
      | some key => (findRule R input i ((rulesFor m key).map erase)).map fun
        | none => (b, i + 1, false)
        | some rule => (b.apply rule.phoneme max, i + rule.patternLengthChar, true) := by
  unfold invoke rulesFor
  simp only [bind]
  congr 1
  funext s
  cases s.head? with
  | none => rfl
  | some key =>
    simp only [findRule_erase]
    cases m.get? key with
    | none => rfl
    | some rules =>
      simp only [Option.getD_some]
      cases findRule R input i rules with
      | error e => rfl
      | ok x => cases x <;> rfl

theorem invoke_same {m m' : RuleMap} (h : SameMap m m') (R : RegexEngine) (input : CharSequence) (b : PhonemeBuilder)
    (i max : Nat) : invoke R m input b i max = invoke R m' input b i max := by
  rw [invoke_eq, invoke_eq]
  simp only [h.rules]

theorem mainLoop_same {m m' : RuleMap} (h : SameMap m m') (R : RegexEngine) (input : CharSequence) (max fuel : Nat) :
    ∀ i b, mainLoop R max m input fuel i b = mainLoop R max m' input fuel i b := by
  induction fuel with
  | zero => intro i b; rfl
  | succ fuel ih => intro i b; simp only [mainLoop, invoke_same h, ih]

theorem finalLoop_same {m m' : RuleMap} (h : SameMap m m') (R : RegexEngine) (text : CharSequence) (max fuel : Nat) :
    ∀ i b, finalLoop R max m text fuel i b = finalLoop R max m' text fuel i b := by
  induction fuel with
  | zero => intro i b; rfl
  | succ fuel ih => intro i b; simp only [finalLoop, invoke_same h, ih]

theorem finalPhonemes_same {m m' : RuleMap} (h : SameMap m m') (R : RegexEngine) (max : Nat) (ps : List Phoneme) :
    ∀ acc, finalPhonemes R max m ps acc = finalPhonemes R max m' ps acc := by
  induction ps with
  | nil => intro acc; rfl
  | cons p ps ih => intro acc; simp only [finalPhonemes, finalLoop_same h, ih]

theorem applyFinalRule_same {m m' : RuleMap} (h : SameMap m m') (R : RegexEngine) (max : Nat) (b : PhonemeBuilder) :
    applyFinalRule R max b m = applyFinalRule R max b m' := by
  unfold applyFinalRule
  rw [h.empty, finalPhonemes_same h]

theorem encodeWith_same {e e' : Engine} (h : SameEngine e e') (U : Unicode) (R : RegexEngine)
    (recur : Str → Res Str) (s : Str) (ls : LanguageSet) :
    e.encodeWith U R recur s ls = e'.encodeWith U R recur s ls := by
  obtain ⟨⟨h1, h2, h3, h4⟩, hr, -, -⟩ := h
  rw [encodeWith_rest, encodeWith_rest, ← h1, ← h2]
  congr 1
  funext l
  have k1 := hr (e.nameType, .rules, l)
  have k2 := hr (e.nameType, e.ruleType, c!"common")
  have k3 := hr (e.nameType, e.ruleType, l)
  cases g1 : e.rules.get? (e.nameType, .rules, l) with
  | none =>
    cases g1' : e'.rules.get? (e.nameType, .rules, l) with
    | none => rfl
    | some m' => rw [g1, g1'] at k1; exact k1.elim
  | some m =>
    cases g1' : e'.rules.get? (e.nameType, .rules, l) with
    | none => rw [g1, g1'] at k1; exact k1.elim
    | some m' =>
      rw [g1, g1'] at k1
      cases g2 : e.rules.get? (e.nameType, e.ruleType, c!"common") with
      | none =>
        cases g2' : e'.rules.get? (e.nameType, e.ruleType, c!"common") with
        | none => rfl
        | some m' => rw [g2, g2'] at k2; exact k2.elim
      | some c =>
        cases g2' : e'.rules.get? (e.nameType, e.ruleType, c!"common") with
        | none => rw [g2, g2'] at k2; exact k2.elim
        | some c' =>
          rw [g2, g2'] at k2
          cases g3 : e.rules.get? (e.nameType, e.ruleType, l) with
          | none =>
            cases g3' : e'.rules.get? (e.nameType, e.ruleType, l) with
            | none => rfl
            | some m' => rw [g3, g3'] at k3; exact k3.elim
          | some f =>
            cases g3' : e'.rules.get? (e.nameType, e.ruleType, l) with
            | none => rw [g3, g3'] at k3; exact k3.elim
            | some f' =>
              rw [g3, g3'] at k3
              dsimp only
              have ht : ∀ text, e.encodeText R m c f ls text = e'.encodeText R m' c' f' ls text := by
                intro text
                unfold Engine.encodeText
                rw [← h4]
                simp only [mainLoop_same k1, applyFinalRule_same k2, applyFinalRule_same k3]
              have hw : ∀ ws, e.textOf ws = e'.textOf ws := by
                intro ws
                unfold Engine.textOf
                rw [h3, h1]
              unfold encodeRest
              simp only [ht, hw, h1]

theorem guess_same {e e' : Engine} (h : SameEngine e e') (U : Unicode) (R : RegexEngine) (s : Str) :
    e.lang.guessLanguages U R s = e'.lang.guessLanguages U R s := by
  have key : ∀ (input : Str) (rules : List LangRule) (ls : StrSet),
      guessLoop R input ls rules = guessLoop R input ls (rules.map eraseLang) := by
    intro input rules ls
    unfold guessLoop
    rw [List.foldl_map]
    rfl
  unfold Lang.guessLanguages
  dsimp only
  rw [key, h.languages, h.guesses, ← key]

theorem encodeFuel_same {e e' : Engine} (h : SameEngine e e') (U : Unicode) (R : RegexEngine) (fuel : Nat) :
    ∀ s, e.encodeFuel U R fuel s = e'.encodeFuel U R fuel s := by
  induction fuel with
  | zero => intro s; rfl
  | succ fuel ih =>
    intro s
    have : e.encodeFuel U R fuel = e'.encodeFuel U R fuel := funext ih
    simp only [Engine.encodeFuel, this, encodeWith_same h, guess_same h]

theorem encode_same {e e' : Engine} (h : SameEngine e e') (U : Unicode) (R : RegexEngine) (s : Str) :
    e.encode U R s = e'.encode U R s := encodeFuel_same h U R _ s

theorem encodeWithLanguages_same {e e' : Engine} (h : SameEngine e e') (U : Unicode) (R : RegexEngine) (s : Str)
    (ls : LanguageSet) : e.encodeWithLanguages U R s ls = e'.encodeWithLanguages U R s ls := by
  unfold Engine.encodeWithLanguages
  rw [encodeWith_same h, funext (encodeFuel_same h U R _)]

/-! ## The rules of a file depend on what it says -/

/-- The lines of a file turn the rules `acc` into `out`; the rules are without their places. -/
def Gathers (R : RegexEngine) (included : Str → RuleTable → Prop) : List RuleLine → (acc out : RuleTable) → Prop
  | [], acc, out => out = acc
  | .rule p l rc ph :: lines, acc, out => ∃ c r, p.head? = some c ∧ IsRule R [] 0 p l rc ph r ∧
      Gathers R included lines (fun x => if x = c then acc x ++ [r] else acc x) out
  | .directive name :: lines, acc, out => ∃ t, included name t ∧
      Gathers R included lines (fun x => if t x = [] then acc x else t x) out

def eraseTable (t : RuleTable) : RuleTable := fun c => (t c).map erase

theorem erase_isRule {R : RegexEngine} {file : Str} {line : Nat} {p l rc ph : Str} {r : Rule}
    (h : IsRule R file line p l rc ph r) : IsRule R [] 0 p l rc ph (erase r) :=
  ⟨rfl, rfl, h.hasPattern, h.hasLength, h.hasLeft, h.hasRight, h.hasPhonemes⟩

theorem gathers_of_collects {R : RegexEngine} {included erased : Str → RuleTable → Prop} {file : Str}
    (hi : ∀ name t, included name t → erased name (eraseTable t)) {items : List RuleItem} :
    ∀ {ln : Nat} {acc out : RuleTable}, Collects R included file ln items acc out →
      Gathers R erased (ruleLines items) (eraseTable acc) (eraseTable out) := by
  induction items with
  | nil => intro ln acc out h; cases h; rfl
  | cons i items ih =>
    intro ln acc out h
    cases i with
    | filler f => exact ih h
    | rule p b1 l b2 rc b3 ph t =>
      obtain ⟨c, r, h1, h2, h3⟩ := h
      refine ⟨c, erase r, h1, erase_isRule h2, ?_⟩
      have := ih h3
      have e : eraseTable (fun x => if x = c then acc x ++ [r] else acc x) =
          fun x => if x = c then eraseTable acc x ++ [erase r] else eraseTable acc x := by
        funext x
        unfold eraseTable
        by_cases hx : x = c <;> simp [hx]
      rw [e] at this
      exact this
    | directive name t =>
      obtain ⟨t, h1, h3⟩ := h
      refine ⟨eraseTable t, hi _ _ h1, ?_⟩
      have := ih h3
      have e : eraseTable (fun x => if t x = [] then acc x else t x) =
          fun x => if eraseTable t x = [] then eraseTable acc x else eraseTable t x := by
        funext x
        unfold eraseTable
        by_cases hx : t x = [] <;> simp [hx]
      rw [e] at this
      exact this

theorem collects_of_gathers {R : RegexEngine} {included erased : Str → RuleTable → Prop} {file : Str}
    (hi : ∀ name t, erased name t → ∃ t', included name t' ∧ eraseTable t' = t) {items : List RuleItem} :
    ∀ {ln : Nat} {acc out : RuleTable}, Gathers R erased (ruleLines items) (eraseTable acc) out →
      ∃ out', Collects R included file ln items acc out' ∧ eraseTable out' = out := by
  induction items with
  | nil => intro ln acc out h; exact ⟨acc, rfl, h.symm⟩
  | cons i items ih =>
    intro ln acc out h
    cases i with
    | filler f => exact ih h
    | rule p b1 l b2 rc b3 ph t =>
      obtain ⟨c, r, h1, h2, h3⟩ := h
      let r' : Rule := { r with location := file, line := ln + 1 }
      have hr : erase r' = r := by
        have e1 := h2.hasLocation
        have e2 := h2.hasLine
        cases r
        cases e1; cases e2; rfl
      have e : eraseTable (fun x => if x = c then acc x ++ [r'] else acc x) =
          fun x => if x = c then eraseTable acc x ++ [r] else eraseTable acc x := by
        funext x
        unfold eraseTable
        by_cases hx : x = c <;> simp [hx, hr]
      rw [← e] at h3
      obtain ⟨out', k1, k2⟩ := ih (ln := ln + 1) h3
      exact ⟨out', ⟨c, r', h1, ⟨rfl, rfl, h2.hasPattern, h2.hasLength, h2.hasLeft, h2.hasRight, h2.hasPhonemes⟩, k1⟩, k2⟩
    | directive name t =>
      obtain ⟨t, h1, h3⟩ := h
      obtain ⟨t', g1, rfl⟩ := hi _ _ h1
      have e : eraseTable (fun x => if t' x = [] then acc x else t' x) =
          fun x => if eraseTable t' x = [] then eraseTable acc x else eraseTable t' x := by
        funext x
        unfold eraseTable
        by_cases hx : t' x = [] <;> simp [hx]
      rw [← e] at h3
      obtain ⟨out', k1, k2⟩ := ih (ln := ln + 1) h3
      exact ⟨out', ⟨t', g1, k1⟩, k2⟩

theorem ofDir_ok {dir : Directory} {file content : Str} :
    Resolver.ofDir dir file = .ok content ↔ dir.read (file ++ c!".txt") = some content := by
  unfold Resolver.ofDir
  cases dir.read (file ++ c!".txt") with
  | none => simp
  | some x => simp

theorem fileRules_same {U : Unicode} {R : RegexEngine} {dir dir' : Directory}
    (h : ∀ file lines, RulesSay U dir file lines → RulesSay U dir' file lines) (depth : Nat) :
    ∀ file out, FileRules U R (Resolver.ofDir dir) depth file out →
      ∃ out', FileRules U R (Resolver.ofDir dir') depth file out' ∧ eraseTable out' = eraseTable out := by
  induction depth with
  | zero => intro file out h; exact h.elim
  | succ depth ih =>
    rintro file out ⟨content, items, h1, h2, h3⟩
    obtain ⟨content', items', g1, g2, g3⟩ := h file _ ⟨content, items, ofDir_ok.mp h1, h2, rfl⟩
    have k := gathers_of_collects
      (erased := fun name t => ∃ t', FileRules U R (Resolver.ofDir dir') depth name t' ∧ eraseTable t' = t)
      (fun name t ht => ih name t ht) h3
    rw [← g3] at k
    have e0 : eraseTable (fun _ => []) = eraseTable (fun _ => []) := rfl
    obtain ⟨out', k1, k2⟩ := collects_of_gathers (included := FileRules U R (Resolver.ofDir dir') depth)
      (file := file) (ln := 0) (acc := fun _ => []) (fun name t ht => ht) k
    exact ⟨out', ⟨content', items', ofDir_ok.mpr g1, g2, k1⟩, k2⟩

/-! ## The rules that guess languages depend on what the file says -/

/-- The rule of a line. -/
def lineRule (x : Str × Str × Bool) : LangRule :=
  ⟨0, x.2.2, setOfList strCmp (splitOnChar '+' x.2.1), x.1⟩

theorem eraseLang_itemRules (items : List LangItem) : ∀ ln,
    (itemRules ln items).map eraseLang = (langLines items).map lineRule := by
  induction items with
  | nil => intro ln; rfl
  | cons i items ih =>
    intro ln
    cases i with
    | filler f => exact ih _
    | rule p l a t =>
      simp only [itemRules, langLines, List.map_cons, ih]
      rfl

theorem validItems_iff {R : RegexEngine} {items : List LangItem} :
    ValidItems R items ↔ ∀ x ∈ langLines items, R.error x.1 = none := by
  unfold ValidItems langLines
  simp only [List.mem_filterMap]
  constructor
  · rintro h x ⟨i, hi, hx⟩
    cases i with
    | filler f => cases hx
    | rule p l a t => cases hx; exact h p l a t hi
  · intro h p l a t hm
    exact h (p, l, a) ⟨_, hm, rfl⟩

theorem langRule_line {x : Str × List Str × Bool × Nat} {r : LangRule} (h : IsLangRule x r) {l : Str}
    (hl : x.2.1 = splitOnChar '+' l) : eraseLang r = lineRule (x.1, l, x.2.2.1) := by
  obtain ⟨h1, h2, h3, h4, h5⟩ := h
  cases r with
  | mk ln a ls p =>
    simp only [eraseLang, lineRule, LangRule.mk.injEq, true_and]
    refine ⟨h4, strSet_ext h2 (setOfList_sorted id strCmp (fun _ _ => rfl) _) fun k => ?_, h1⟩
    rw [h3, hl]
    simpa using (setOfList_keys id strCmp (fun _ _ => rfl) (splitOnChar '+' l) k).symm

theorem langRules_lines (items : List LangItem) : ∀ (ln : Nat) (rules : List LangRule),
    rules.length = (langRules ln items).length → (∀ x ∈ (langRules ln items).zip rules, IsLangRule x.1 x.2) →
    rules.map eraseLang = (langLines items).map lineRule := by
  induction items with
  | nil => intro ln rules h _; simp only [langRules, List.length_nil, List.length_eq_zero_iff] at h; rw [h]; rfl
  | cons i items ih =>
    intro ln rules h1 h2
    cases i with
    | filler f => exact ih _ rules h1 h2
    | rule p l a t =>
      cases rules with
      | nil => simp [langRules] at h1
      | cons r rules =>
        simp only [langRules, List.length_cons, Nat.add_right_cancel_iff, List.zip_cons_cons, List.mem_cons,
          forall_eq_or_imp] at h1 h2
        have := ih _ rules h1 h2.2
        show eraseLang r :: rules.map eraseLang = lineRule (p, l, a) :: (langLines items).map lineRule
        rw [this, langRule_line h2.1 rfl]

/-! ## A text says one thing -/

theorem filler_unique {s r r' : Str} {f f' : Filler} (h : f.Reads s r) (h' : f'.Reads s r') : r = r' := by
  rcases filler_some h with ⟨h1, -⟩ | ⟨h1, h2⟩ <;> rcases filler_some h' with ⟨h1', -⟩ | ⟨h1', h2'⟩
  · rw [h1] at h1'; simpa using h1'
  · rw [h1] at h1'; cases h1'
  · rw [h1] at h1'; cases h1'
  · rw [h2] at h2'; simp at h2'; exact h2'.2

theorem langItem_unique {s r r' : Str} {i i' : LangItem} (h : i.Reads s r) (h' : i'.Reads s r') :
    i.line = i'.line ∧ r = r' := by
  cases i with
  | filler f =>
    cases i' with
    | filler f' => exact ⟨rfl, filler_unique h h'⟩
    | rule p l a t => exact absurd h (h'.2.2.2.2.2.2 f r)
  | rule p l a t =>
    cases i' with
    | filler f' => exact absurd h' (h.2.2.2.2.2.2 f' r')
    | rule p' l' a' t' =>
      obtain ⟨e, h1, h2, h3, h4, h5, -⟩ := h
      obtain ⟨e', h1', h2', h3', h4', h5', -⟩ := h'
      have k := lang_print (a := p) (b := l) (c := a) (t := t) (r := r) h1 h2 h3 h4 h5
      have k' := lang_print (a := p') (b := l') (c := a') (t := t') (r := r') h1' h2' h3' h4' h5'
      rw [← e] at k
      rw [← e', k] at k'
      simp only [Option.some.injEq, Prod.mk.injEq] at k'
      obtain ⟨⟨rfl, rfl, rfl⟩, rfl⟩ := k'
      exact ⟨rfl, rfl⟩

theorem quote_not_filler {U : Unicode} {s r r' p b1 l b2 rc b3 ph : Str} {t : Tail} {f : Filler} 
    (h : RuleItem.Reads U s (.rule p b1 l b2 rc b3 ph t) r) (h' : f.Reads s r') : False := by
  have hs : s ≠ [] := by rw [h.1]; simp [quoted]
  have := (filler_head hs h').1
  rw [h.1] at this
  exact this rfl

theorem hash_not_filler {U : Unicode} {s r r' name : Str} {t : Tail} {f : Filler} 
    (h : RuleItem.Reads U s (.directive name t) r) (h' : f.Reads s r') : False := by
  have hs : s ≠ [] := by rw [h.1]; simp
  have := (filler_head hs h').2
  rw [h.1] at this
  exact this rfl

theorem ruleItem_unique {U : Unicode} {s r r' : Str} {i i' : RuleItem} (h : i.Reads U s r) (h' : i'.Reads U s r') :
    i.line = i'.line ∧ r = r' := by
  cases i with
  | filler f =>
    cases i' with
    | filler f' => exact ⟨rfl, filler_unique h h'⟩
    | rule p b1 l b2 rc b3 ph t => exact (quote_not_filler h' h).elim
    | directive name t => exact (hash_not_filler h' h).elim
  | rule p b1 l b2 rc b3 ph t =>
    cases i' with
    | filler f' => exact (quote_not_filler h h').elim
    | rule p' b1' l' b2' rc' b3' ph' t' =>
      obtain ⟨e, w1, v1, w2, v2, w3, v3, w4, ht⟩ := h
      obtain ⟨e', w1', v1', w2', v2', w3', v3', w4', ht'⟩ := h'
      have k := quadruplet_print w1 v1 w2 v2 w3 v3 w4 ht
      have k' := quadruplet_print w1' v1' w2' v2' w3' v3' w4' ht'
      rw [← e] at k
      rw [← e', k] at k'
      simp only [Option.some.injEq, Prod.mk.injEq] at k'
      obtain ⟨⟨rfl, rfl, rfl, rfl⟩, rfl⟩ := k'
      exact ⟨rfl, rfl⟩
    | directive name t => 
      have := h.1.symm.trans h'.1
      simp [quoted] at this
  | directive name t =>
    cases i' with
    | filler f' => exact (hash_not_filler h h').elim
    | rule p b1 l b2 rc b3 ph t => 
      have := h'.1.symm.trans h.1
      simp [quoted] at this
    | directive name' t' =>
      obtain ⟨e, h1, h2, h3⟩ := h
      obtain ⟨e', h1', h2', h3'⟩ := h'
      have k := include_print h1 h2 h3
      have k' := include_print h1' h2' h3'
      rw [← e] at k
      rw [← e', k] at k'
      simp only [Option.some.injEq, Prod.mk.injEq] at k'
      obtain ⟨rfl, rfl⟩ := k'
      exact ⟨rfl, rfl⟩

theorem reading_unique {ι α : Type} {reads : Str → ι → Str → Prop} {line : ι → Option α}
    (hu : ∀ {s r r' : Str} {i i' : ι}, reads s i r → reads s i' r' → line i = line i' ∧ r = r')
    {s : Str} {items items' : List ι} (h : Reading reads s items []) (h' : Reading reads s items' []) :
    items.filterMap line = items'.filterMap line := by
  generalize ht : ([] : Str) = t at h
  induction h generalizing items' with
  | nil s =>
    subst ht
    cases h' with
    | nil => rfl
    | cons hs _ _ => exact absurd rfl hs
  | cons hs hr hrest ih =>
    cases h' with
    | nil => exact absurd rfl hs
    | cons hs' hr' hrest' =>
      obtain ⟨e1, rfl⟩ := hu hr hr'
      rw [List.filterMap_cons, List.filterMap_cons, e1, ih hrest' ht]

theorem guesses_same {dir dir' : Directory} {nt : NameType} {content content' : Str} {items items' : List LangItem}
    (h : ∀ lines, GuessesSay dir nt lines → GuessesSay dir' nt lines)
    (h1 : dir.read (langFilename nt) = some content) (h2 : Reading LangItem.Reads content items [])
    (h1' : dir'.read (langFilename nt) = some content') (h2' : Reading LangItem.Reads content' items' []) :
    langLines items = langLines items' := by
  obtain ⟨c, its, g1, g2, g3⟩ := h _ ⟨content, items, h1, h2, rfl⟩
  rw [h1'] at g1; cases g1
  rw [← g3]
  exact reading_unique (reads := LangItem.Reads) (line := LangItem.line) (fun h h' => langItem_unique h h') g2 h2'

theorem loadable_same {U : Unicode} {R : RegexEngine} {depth : Nat} {dir dir' : Directory}
    (h : SameDirectory U dir dir') (hl : Loadable U R depth dir) : Loadable U R depth dir' := by
  intro nt
  obtain ⟨h1, h2, ⟨content, items, g1, g2, g3⟩, h4⟩ := hl nt
  have k := (h.lists nt).mp ⟨h1, h2⟩
  refine ⟨k.1, k.2, ?_, fun rt x hx => ?_⟩
  · obtain ⟨content', items', j1, j2, j3⟩ := (h.guesses nt _).mp ⟨content, items, g1, g2, rfl⟩
    refine ⟨content', items', j1, j2, ?_⟩
    rw [validItems_iff, j3, ← validItems_iff]
    exact g3
  · have hx' : NeedsRules dir nt rt x := hx.imp_left fun hx => (h.languages nt x).mpr hx
    obtain ⟨out, ho⟩ := h4 rt x hx'
    obtain ⟨out', ho', -⟩ := fileRules_same (fun f l => (h.rules f l).mp) depth _ _ ho
    exact ⟨out', ho'⟩

theorem sameDirectory_symm {U : Unicode} {dir dir' : Directory} (h : SameDirectory U dir dir') :
    SameDirectory U dir' dir :=
  ⟨fun nt => (h.lists nt).symm, fun nt l => (h.languages nt l).symm, fun nt l => (h.guesses nt l).symm,
    fun f l => (h.rules f l).symm⟩

theorem proper_empty {m : RuleMap} (h : Proper m) : m.isEmpty = true ↔ ∀ c, rulesFor m c = [] := by
  constructor
  · intro he c
    cases m with
    | nil => rfl
    | cons x m => cases he
  · intro he
    cases m with
    | nil => rfl
    | cons x m =>
      exfalso
      have := he x.1
      unfold rulesFor Assoc.get? at this
      obtain ⟨c, rs⟩ := x
      rw [List.lookup_cons_self] at this
      exact h.1 _ List.mem_cons_self this

theorem sameMap_of {m m' : RuleMap} (hm : Proper m) (hm' : Proper m')
    (h : eraseTable (rulesFor m) = eraseTable (rulesFor m')) : SameMap m m' := by
  have h' : ∀ c, (rulesFor m c).map erase = (rulesFor m' c).map erase := fun c => congrFun h c
  refine ⟨?_, h'⟩
  have : m.isEmpty = true ↔ m'.isEmpty = true := by
    rw [proper_empty hm, proper_empty hm']
    constructor
    · intro k c
      have := h' c
      rw [k c] at this
      simpa using this.symm
    · intro k c
      have := h' c
      rw [k c] at this
      simpa using this
  cases h1 : m.isEmpty <;> cases h2 : m'.isEmpty <;> simp_all

/-- The rules of a loaded configuration are proper maps. -/
theorem config_proper {U : Unicode} {R : RegexEngine} {depth : Nat} {dir : Directory} {cfg : ConfigFiles}
    (h : ConfigFiles.new U R depth dir = .ok (.ok cfg)) {k : NameType × PrivateRuleType × Str} {m : RuleMap}
    (hk : cfg.rules.get? k = some m) : Proper m := by
  obtain ⟨ls, h1, h2, h3⟩ := config_spec h
  exact (parseRule_proper ((buildRules_exact h3).1 _ _ hk)).1

theorem sameEngine_of {U : Unicode} {R : RegexEngine} {dir dir' : Directory} (h : SameDirectory U dir dir')
    {e e' : Engine} (he : BuiltFrom U R (.directory dir) e) (he' : BuiltFrom U R (.directory dir') e')
    (hs : SameSettings e e') : SameEngine e e' := by
  obtain ⟨depth, cfg, b, h1, h2, h3⟩ := he
  obtain ⟨depth', cfg', b', h1', h2', h3'⟩ := he'
  simp only at h1 h1'
  obtain ⟨lang, g1, g2, g3, g4, -⟩ := build_spec h3
  obtain ⟨lang', g1', g2', g3', g4', -⟩ := build_spec h3'
  rw [h2] at g1 g2
  rw [h2'] at g1' g2'
  have hl := config_loaded h1
  have hl' := config_loaded h1'
  have hnt : b.nameType = b'.nameType := by rw [← g4, ← g4', hs.nameType]
  obtain ⟨lang1, content, items, e1, e2, e3, e4, e5, e6, e7⟩ := (hl b.nameType).1
  obtain ⟨lang1', content', items', e1', e2', e3', e4', e5', e6', e7'⟩ := (hl' b'.nameType).1
  rw [g1] at e1; cases e1
  rw [g1'] at e1'; cases e1'
  refine ⟨hs, ?_, ?_, ?_⟩
  · rintro ⟨nt, rt, x⟩
    rw [g2, g2']
    obtain ⟨k1, k2⟩ := (hl nt).2 rt x
    obtain ⟨k1', k2'⟩ := (hl' nt).2 rt x
    have hn : NeedsRules dir nt rt x ↔ NeedsRules dir' nt rt x := by
      unfold NeedsRules
      rw [h.languages]
    rw [hn] at k1
    cases hm : cfg.rules.get? (nt, rt, x) with
    | none =>
      cases hm' : cfg'.rules.get? (nt, rt, x) with
      | none => trivial
      | some m' =>
        obtain ⟨m, hm2⟩ := k1.mpr (k1'.mp ⟨m', hm'⟩)
        rw [hm] at hm2; cases hm2
    | some m =>
      cases hm' : cfg'.rules.get? (nt, rt, x) with
      | none =>
        obtain ⟨m, hm2⟩ := k1'.mpr (k1.mp ⟨m, hm⟩)
        rw [hm'] at hm2; cases hm2
      | some m' =>
        have f1 := k2 m hm
        have f2 := k2' m' hm'
        obtain ⟨out, f3, f4⟩ := fileRules_same (R := R) (fun f l => (h.rules f l).mp) depth _ _ f1
        have := rule_file_depth U R _ depth depth' _ _ _ f3 f2
        subst this
        exact sameMap_of (config_proper h1 hm) (config_proper h1' hm') f4.symm
  · rw [g3, g3']
    refine strSet_ext e2 e2' fun l => ?_
    rw [e3, e3', hnt, h.languages]
  · rw [g3, g3']
    rw [← hnt] at e4'
    rw [langRules_lines items 0 _ e6 e7, langRules_lines items' 0 _ e6' e7',
      guesses_same (fun l => (h.guesses _ l).mp) e4 e5 e4' e5']

/-! ## A comment at the start of every file -/

/-- The directory with a comment at the start of every file. -/
def commented (comment : Str) (dir : Directory) : Directory :=
  { dir with read := fun name => (dir.read name).map fun content => c!"//" ++ comment ++ c!"\n" ++ content }

theorem comment_reads {comment : Str} (hc : '\n' ∉ comment) (content : Str) :
    Filler.Reads (c!"//" ++ comment ++ c!"\n" ++ content) (.blank ⟨[], some comment, ['\n']⟩) content := by
  refine ⟨by simp [Filler.print, Tail.print], ?_⟩
  exact ⟨by simp, by simpa using hc, .inl rfl⟩

theorem listItem_slash {s r r' : Str} {i : ListItem} {f : Filler} (hs : s.head? = some '/') (h : i.Reads s r)
    (hf : f.Reads s r') : (∃ g, i = .filler g) ∧ r = r' := by
  cases i with
  | filler g => exact ⟨⟨g, rfl⟩, filler_unique h hf⟩
  | language l t =>
    obtain ⟨rfl, hne, ha, -⟩ := h
    cases l with
    | nil => exact absurd rfl hne
    | cons c cs =>
      simp only [List.cons_append, List.head?_cons, Option.some.injEq] at hs
      have := ha c List.mem_cons_self
      rw [hs] at this
      exact absurd this (by decide)

section
variable {comment : Str} (hc : '\n' ∉ comment) (dir : Directory)
include hc

theorem commented_read {name content' : Str} : (commented comment dir).read name = some content' ↔
    ∃ content, dir.read name = some content ∧ content' = c!"//" ++ comment ++ c!"\n" ++ content := by
  show (dir.read name).map _ = some content' ↔ _
  cases dir.read name with
  | none => simp
  | some x =>
    simp only [Option.map_some, Option.some.injEq]
    exact ⟨fun h => ⟨x, rfl, h.symm⟩, fun ⟨y, h1, h2⟩ => by rw [h1, h2]⟩

theorem commented_items {ι α : Type} {reads : Str → ι → Str → Prop} {line : ι → Option α} (filler : Filler → ι)
    (hf : ∀ {s f r}, f.Reads s r → reads s (filler f) r) (hl : ∀ f, line (filler f) = none)
    (hu : ∀ {s r r' : Str} {i i' : ι}, reads s i r → reads s i' r' → line i = line i' ∧ r = r')
    {name : Str} {lines : List α} :
    (∃ content items, dir.read name = some content ∧ Reading reads content items [] ∧ items.filterMap line = lines) ↔
    ∃ content items, (commented comment dir).read name = some content ∧ Reading reads content items [] ∧
      items.filterMap line = lines := by
  constructor
  · rintro ⟨content, items, h1, h2, h3⟩
    refine ⟨_, filler (.blank ⟨[], some comment, ['\n']⟩) :: items, (commented_read hc dir).mpr ⟨content, h1, rfl⟩,
      .cons (by simp) (hf (comment_reads hc content)) h2, ?_⟩
    rw [List.filterMap_cons, hl]
    exact h3
  · rintro ⟨content', items, h1, h2, h3⟩
    obtain ⟨content, g1, rfl⟩ := (commented_read hc dir).mp h1
    cases h2 with
    | cons hs hr hrest =>
      obtain ⟨e1, rfl⟩ := hu hr (hf (comment_reads hc content))
      refine ⟨_, _, g1, hrest, ?_⟩
      rw [List.filterMap_cons, e1, hl] at h3
      exact h3

theorem commented_list {nt : NameType} {P : ListItem → Prop} (hP : ∀ f, ¬ P (.filler f)) :
    (∃ content items, dir.read nt.languageFilename = some content ∧ Reading ListItem.Reads content items [] ∧
      ∃ i ∈ items, P i) ↔
    ∃ content items, (commented comment dir).read nt.languageFilename = some content ∧
      Reading ListItem.Reads content items [] ∧ ∃ i ∈ items, P i := by
  constructor
  · rintro ⟨content, items, h1, h2, i, h3, h4⟩
    exact ⟨_, .filler (.blank ⟨[], some comment, ['\n']⟩) :: items, (commented_read hc dir).mpr ⟨content, h1, rfl⟩,
      .cons (by simp) (comment_reads hc content) h2, i, List.mem_cons_of_mem _ h3, h4⟩
  · rintro ⟨content', items, h1, h2, i, h3, h4⟩
    obtain ⟨content, g1, rfl⟩ := (commented_read hc dir).mp h1
    cases h2 with
    | cons hs hr hrest =>
      obtain ⟨⟨g, rfl⟩, rfl⟩ := listItem_slash (by simp) hr (comment_reads hc content)
      rcases List.mem_cons.mp h3 with rfl | h3
      · exact absurd h4 (hP g)
      · exact ⟨_, _, g1, hrest, i, h3, h4⟩

theorem commented_hasList {nt : NameType} : HasList dir nt ↔ HasList (commented comment dir) nt := by
  unfold HasList
  refine and_congr Iff.rfl ?_
  constructor
  · rintro ⟨content, items, h1, h2⟩
    exact ⟨_, .filler (.blank ⟨[], some comment, ['\n']⟩) :: items, (commented_read hc dir).mpr ⟨content, h1, rfl⟩,
      .cons (by simp) (comment_reads hc content) h2⟩
  · rintro ⟨content', items, h1, h2⟩
    obtain ⟨content, g1, rfl⟩ := (commented_read hc dir).mp h1
    cases h2 with
    | cons hs hr hrest =>
      obtain ⟨⟨g, rfl⟩, rfl⟩ := listItem_slash (by simp) hr (comment_reads hc content)
      exact ⟨_, _, g1, hrest⟩

end

end LayoutProofs

/-- C98: of two directories that say the same, one can be loaded if and only if the other can. -/
theorem bm_layout_loads (U : Unicode) (R : RegexEngine) (depth : Nat) (dir dir' : Directory)
    (h : SameDirectory U dir dir') :
    (∃ cfg, ConfigFiles.new U R depth dir = .ok (.ok cfg)) ↔ ∃ cfg, ConfigFiles.new U R depth dir' = .ok (.ok cfg) := by
  rw [config_loads, config_loads]
  exact ⟨LayoutProofs.loadable_same h, LayoutProofs.loadable_same (LayoutProofs.sameDirectory_symm h)⟩

/-- C98: encoders with the same settings, built from directories that say the same, give the same codes. -/
theorem bm_layout_codes (U : Unicode) (R : RegexEngine) (dir dir' : Directory) (h : SameDirectory U dir dir')
    (e e' : Engine) (he : BuiltFrom U R (.directory dir) e) (he' : BuiltFrom U R (.directory dir') e')
    (hs : SameSettings e e') (s : Str) :
    e.encode U R s = e'.encode U R s ∧
    ∀ ls, e.encodeWithLanguages U R s ls = e'.encodeWithLanguages U R s ls :=
  have k := LayoutProofs.sameEngine_of h he he' hs
  ⟨LayoutProofs.encode_same k U R s, LayoutProofs.encodeWithLanguages_same k U R s⟩

/-- C98: what a text says is unique. -/
theorem bm_layout_unique (U : Unicode) (dir : Directory) :
    (∀ file lines lines', RulesSay U dir file lines → RulesSay U dir file lines' → lines = lines') ∧
    ∀ nt lines lines', GuessesSay dir nt lines → GuessesSay dir nt lines' → lines = lines' := by
  constructor
  · rintro file lines lines' ⟨c, items, h1, h2, rfl⟩ ⟨c', items', h1', h2', rfl⟩
    rw [h1] at h1'; cases h1'
    exact LayoutProofs.reading_unique (reads := RuleItem.Reads U) (line := RuleItem.line)
      (fun h h' => LayoutProofs.ruleItem_unique h h') h2 h2'
  · rintro nt lines lines' ⟨c, items, h1, h2, rfl⟩ ⟨c', items', h1', h2', rfl⟩
    rw [h1] at h1'; cases h1'
    exact LayoutProofs.reading_unique (reads := LangItem.Reads) (line := LangItem.line)
      (fun h h' => LayoutProofs.langItem_unique h h') h2 h2'

/-- C98: for instance, a comment at the start of every file changes nothing. -/
theorem bm_layout_comment (U : Unicode) (dir : Directory) (comment : Str)
    (hc : '\n' ∉ comment) :
    SameDirectory U dir { dir with
      read := fun name => (dir.read name).map fun content => c!"//" ++ comment ++ c!"\n" ++ content } := by
  refine ⟨fun nt => LayoutProofs.commented_hasList hc dir, fun nt l => ?_, fun nt lines => ?_, fun file lines => ?_⟩
  · have := LayoutProofs.commented_list hc dir (nt := nt) (P := fun i => ∃ tail, i = .language l tail)
      (fun f ⟨t, h⟩ => by cases h)
    constructor
    · rintro ⟨content, items, tail, h1, h2, h3⟩
      obtain ⟨c, its, g1, g2, i, g3, t, rfl⟩ := this.mp ⟨content, items, h1, h2, _, h3, tail, rfl⟩
      exact ⟨c, its, t, g1, g2, g3⟩
    · rintro ⟨content, items, tail, h1, h2, h3⟩
      obtain ⟨c, its, g1, g2, i, g3, t, rfl⟩ := this.mpr ⟨content, items, h1, h2, _, h3, tail, rfl⟩
      exact ⟨c, its, t, g1, g2, g3⟩
  · exact LayoutProofs.commented_items hc dir (reads := LangItem.Reads) (line := LangItem.line) LangItem.filler
      (fun h => h) (fun f => rfl) (fun h h' => LayoutProofs.langItem_unique h h')
  · exact LayoutProofs.commented_items hc dir (reads := RuleItem.Reads U) (line := RuleItem.line) RuleItem.filler
      (fun h => h) (fun f => rfl) (fun h h' => LayoutProofs.ruleItem_unique h h')

/-- Not vacuous: the sample directory with a comment in every file loads, and every encoder built from it gives the
codes of the one built from the sample directory itself. -/
example : ∃ cfg, ConfigFiles.new .latin1 SampleBM.regex 3 { SampleBM.dir with
    read := fun name => (SampleBM.dir.read name).map fun content => c!"//" ++ c!" version 2" ++ c!"\n" ++ content } =
      .ok (.ok cfg) :=
  (bm_layout_loads _ _ _ _ _ (bm_layout_comment .latin1 SampleBM.dir c!" version 2" (by decide))).mp SampleBM.config_ok

/-- Two layouts of the same rule. -/
example : ∃ items items', Reading (RuleItem.Reads .latin1) c!"\"a\" \"\" \"\" \"b\"" items [] ∧
    Reading (RuleItem.Reads .latin1) c!"\n\"a\"\t \"\" \"\" \"b\" // x\r\n/* y */\r\n" items' [] ∧
    ruleLines items = [.rule c!"a" [] [] c!"b"] ∧ ruleLines items' = [.rule c!"a" [] [] c!"b"] := by
  refine ⟨[.rule c!"a" c!" " [] c!" " [] c!" " c!"b" ⟨[], none, []⟩],
    [.filler (.blank ⟨[], none, ['\n']⟩), .rule c!"a" c!"\t " [] c!" " [] c!" " c!"b" ⟨[' '], some c!" x\r", ['\n']⟩,
      .filler (.block c!" y " ⟨[], none, ['\r', '\n']⟩)], ?_, ?_, rfl, rfl⟩
  · refine .cons (r := []) (by decide) ⟨by decide, by decide, ?_, by decide, ?_, by decide, ?_, by decide, ?_⟩ (.nil _)
    iterate 3 exact ⟨by decide, by decide⟩
    exact ⟨by decide, by simp, .inr (.inr ⟨rfl, rfl⟩)⟩
  · refine .cons (r := c!"\"a\"\t \"\" \"\" \"b\" // x\r\n/* y */\r\n") (by decide)
      ⟨by decide, by decide, by simp, .inl rfl⟩
      (.cons (r := c!"/* y */\r\n") (by decide)
        ⟨by decide, by decide, ⟨by decide, by decide⟩, by decide, ⟨by decide, by decide⟩, by decide,
          ⟨by decide, by decide⟩, by decide, by decide, by simp, .inl rfl⟩
        (.cons (r := []) (by decide) ⟨by decide, by decide, by decide, by simp, .inr (.inl rfl)⟩ (.nil _)))

end Verif.Props
