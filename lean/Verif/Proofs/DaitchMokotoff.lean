import Verif.Proofs.Parser
import Verif.Proofs.Res
import Verif.Model.DaitchMokotoffRules
import Verif.Spec.DaitchMokotoff
/-!
# Lemmas about the Daitch-Mokotoff model
-/

set_option linter.unusedSimpArgs false

namespace Verif
namespace DMKProofs
open Parser Spec DaitchMokotoff ParserProofs

/-! ## Association lists -/

theorem lookup_filter_ne {κ β : Type} [BEq κ] [LawfulBEq κ] (m : Assoc κ β) (k c : κ) (h : c ≠ k) :
    (m.filter fun p => !(p.1 == k)).lookup c = m.lookup c := by
  induction m with
  | nil => rfl
  | cons p m ih =>
    obtain ⟨a, b⟩ := p
    by_cases ha : a = k
    · subst ha
      rw [List.filter_cons, if_neg (by simp), ih, List.lookup_cons, show (c == a) = false by simpa using h]
    · rw [List.filter_cons, if_pos (by simpa using ha), List.lookup_cons, List.lookup_cons, ih]

theorem get?_insert {κ β : Type} [BEq κ] [LawfulBEq κ] [DecidableEq κ] (m : Assoc κ β) (k c : κ) (v : β) :
    (m.insert k v).get? c = if c = k then some v else m.get? c := by
  unfold Assoc.insert Assoc.get?
  rw [List.lookup_cons]
  by_cases h : c = k
  · subst h; simp
  · rw [show (c == k) = false by simpa using h, if_neg h]
    exact lookup_filter_ne m k c h

theorem get?_map {κ β γ : Type} [BEq κ] [LawfulBEq κ] (m : Assoc κ β) (f : β → γ) (c : κ) :
    Assoc.get? (m.map fun p => (p.1, f p.2)) c = (m.get? c).map f := by
  unfold Assoc.get?
  induction m with
  | nil => rfl
  | cons p m ih =>
    obtain ⟨a, b⟩ := p
    rw [List.map_cons, List.lookup_cons, List.lookup_cons, ih]
    cases c == a <;> rfl

/-! ## The loop of `build` without fuel -/

theorem quadruplet_shorter {s r : Str} {q} (h : quadruplet s = some (q, r)) : r.length < s.length := by
  obtain ⟨a, b, c, d⟩ := q
  obtain ⟨b1, b2, b3, t, -, -, -, -, -, -, -, -, rfl⟩ := quadruplet_some h
  simp [quoted]
  omega

theorem folding_shorter {s r : Str} {q} (h : folding s = some (q, r)) : r.length < s.length := by
  obtain ⟨a, b⟩ := q
  obtain ⟨t, -, rfl⟩ := folding_some h
  simp
  omega

theorem tail_print_ne {t : Tail} {r : Str} (ht : t.WF r) (h : t.print ++ r ≠ []) : t.print ≠ [] := by
  intro h0
  unfold Tail.print at h0
  rcases ht.ending with h1 | h1 | ⟨h1, h2⟩
  · rw [h1] at h0; simp at h0
  · rw [h1] at h0; simp at h0
  · rw [h2] at h; unfold Tail.print at h; rw [h0] at h; exact h rfl

theorem endOfLine_shorter {s r : Str} {u} (hs : s ≠ []) (h : endOfLine s = some (u, r)) :
    r.length < s.length := by
  obtain ⟨t, ht, rfl⟩ := endOfLine_some h
  have := List.length_pos_iff.mpr (tail_print_ne ht hs)
  simp
  omega

theorem multiline_shorter {s r : Str} {n} (h : multilineComment s = some (n, r)) :
    r.length < s.length := by
  obtain ⟨text, t, -, -, -, rfl⟩ := multilineComment_some h
  simp
  omega

/-- The result of the loop depends only on having enough fuel. -/
theorem buildLoop_fuel (f f' : Nat) (s : Str) (ln : Nat) (rules : Assoc Char (List DMRule))
    (folds : Assoc Char Char) (h : s.length < f) (h' : s.length < f') :
    buildLoop f s ln rules folds = buildLoop f' s ln rules folds := by
  induction f generalizing f' s ln rules folds with
  | zero => omega
  | succ f ih =>
    cases f' with
    | zero => omega
    | succ f' =>
      unfold buildLoop
      by_cases hs : s = []
      · subst hs; rfl
      rw [if_neg (by simpa using hs), if_neg (by simpa using hs)]
      simp only
      cases hq : quadruplet s with
      | some x =>
        have := quadruplet_shorter (q := x.1) (r := x.2) hq
        simp only
        cases hp : (DMRule.ofParts x.1).pattern with
        | nil => rfl
        | cons ch p => exact ih _ _ _ _ _ (by omega) (by omega)
      | none =>
        simp only
        cases hf : folding s with
        | some x =>
          have := folding_shorter (q := x.1) (r := x.2) hf
          exact ih _ _ _ _ _ (by omega) (by omega)
        | none =>
          simp only
          cases he : endOfLine s with
          | some x =>
            have := endOfLine_shorter (u := x.1) (r := x.2) hs he
            exact ih _ _ _ _ _ (by omega) (by omega)
          | none =>
            simp only
            cases hm : multilineComment s with
            | some x =>
              have := multiline_shorter (n := x.1) (r := x.2) hm
              exact ih _ _ _ _ _ (by omega) (by omega)
            | none => rfl

/-- The loop with enough fuel. -/
def buildFrom (s : Str) (ln : Nat) (rules : Assoc Char (List DMRule)) (folds : Assoc Char Char) :
    Res (Except ParseError (Assoc Char (List DMRule) × Assoc Char Char)) :=
  buildLoop (s.length + 1) s ln rules folds

theorem buildLoop_eq {f : Nat} {s : Str} (h : s.length < f) (ln : Nat)
    (rules : Assoc Char (List DMRule)) (folds : Assoc Char Char) :
    buildLoop f s ln rules folds = buildFrom s ln rules folds :=
  buildLoop_fuel f _ s ln rules folds h (Nat.lt_succ_self _)

theorem buildFrom_nil (ln : Nat) (rules : Assoc Char (List DMRule)) (folds : Assoc Char Char) :
    buildFrom [] ln rules folds = .ok (.ok (rules, folds)) := rfl

section
variable {s r : Str} (ln : Nat) (rules : Assoc Char (List DMRule)) (folds : Assoc Char Char)

theorem buildFrom_rule {q} (hs : s ≠ []) (hq : quadruplet s = some (q, r)) :
    buildFrom s ln rules folds =
      match q.1 with
      | [] => .error .unwrap
      | ch :: _ => buildFrom r (ln + 1) (addRule rules ch (DMRule.ofParts q)) folds := by
  unfold buildFrom
  rw [buildLoop, if_neg (by simpa using hs)]
  simp only [hq, DMRule.ofParts]
  have := quadruplet_shorter hq
  cases q.1 with
  | nil => rfl
  | cons ch p => exact buildLoop_eq this _ _ _

theorem buildFrom_fold {a b : Char} (hs : s ≠ []) (hq : quadruplet s = none)
    (hf : folding s = some ((a, b), r)) :
    buildFrom s ln rules folds = buildFrom r (ln + 1) rules (folds.insert a b) := by
  have := folding_shorter hf
  rw [buildFrom, buildLoop, if_neg (by simpa using hs)]
  simp only [hq, hf]
  exact buildLoop_eq this _ _ _

theorem buildFrom_blank {u} (hs : s ≠ []) (hq : quadruplet s = none) (hf : folding s = none)
    (he : endOfLine s = some (u, r)) :
    buildFrom s ln rules folds = buildFrom r (ln + 1) rules folds := by
  have := endOfLine_shorter hs he
  rw [buildFrom, buildLoop, if_neg (by simpa using hs)]
  simp only [hq, hf, he]
  exact buildLoop_eq this _ _ _

theorem buildFrom_block {n : Nat} (hs : s ≠ []) (hq : quadruplet s = none) (hf : folding s = none)
    (he : endOfLine s = none) (hm : multilineComment s = some (n, r)) :
    buildFrom s ln rules folds = buildFrom r (ln + 1 + n) rules folds := by
  have := multiline_shorter hm
  rw [buildFrom, buildLoop, if_neg (by simpa using hs)]
  simp only [hq, hf, he, hm]
  exact buildLoop_eq this _ _ _

theorem buildFrom_error (hs : s ≠ []) (hq : quadruplet s = none) (hf : folding s = none)
    (he : endOfLine s = none) (hm : multilineComment s = none) :
    buildFrom s ln rules folds =
      .ok (.error (buildError (ln + 1) none s c!"Can't recognize line")) := by
  rw [buildFrom, buildLoop, if_neg (by simpa using hs)]
  simp only [hq, hf, he, hm]

end

/-! ## Items -/

/-- The number added to the line counter by an item. -/
def itemLines : DMItem → Nat
  | .rule .. => 1
  | .fold .. => 1
  | .blank .. => 1
  | .block text _ => 1 + (newlines text + 1)

/-- The rule of an item, as the parser stores it. -/
def itemRule : DMItem → Option DMRule
  | .rule p _ s _ v _ o _ => some (DMRule.ofParts (p, s, v, o))
  | _ => none

/-- The tables after an item. -/
def addItem (t : Assoc Char (List DMRule) × Assoc Char Char) (i : DMItem) :
    Assoc Char (List DMRule) × Assoc Char Char :=
  match i with
  | .rule p _ s _ v _ o _ =>
    match p with
    | [] => t
    | ch :: _ => (addRule t.1 ch (DMRule.ofParts (p, s, v, o)), t.2)
  | .fold a b _ => (t.1, t.2.insert a b)
  | _ => t

/-- The tables after a file. -/
def tables (items : List DMItem) (t : Assoc Char (List DMRule) × Assoc Char Char) :=
  items.foldl addItem t

/-- The line counter after a file. -/
def fileLines (items : List DMItem) : Nat := (items.map itemLines).sum

/-- Reading one clear item. -/
theorem buildFrom_item (i : DMItem) (r : Str) (ln : Nat) (t : Assoc Char (List DMRule) × Assoc Char Char)
    (hl : i.Legal r) (hc : i.Clear r) (hne : i.print ++ r ≠ []) :
    buildFrom (i.print ++ r) ln t.1 t.2 =
      buildFrom r (ln + itemLines i) (addItem t i).1 (addItem t i).2 := by
  cases i with
  | rule p b1 s b2 v b3 o tl =>
    obtain ⟨w1, v1, w2, v2, w3, v3, w4, ht⟩ := hl
    have hq := quadruplet_print w1 v1 w2 v2 w3 v3 w4 ht
    rw [show DMItem.print (.rule p b1 s b2 v b3 o tl) ++ r = _ from rfl] at hne ⊢
    rw [buildFrom_rule ln t.1 t.2 hne hq]
    cases p with
    | nil => exact absurd rfl hc
    | cons ch p => rfl
  | fold a b tl =>
    have hq : quadruplet (DMItem.print (.fold a b tl) ++ r) = none := by
      apply quadruplet_none
      intro h
      simp [DMItem.print] at h
      exact hc h
    rw [buildFrom_fold ln t.1 t.2 hne hq (folding_print hl)]
    rfl
  | blank tl =>
    have ht : tl.WF r := hl
    have hpr : tl.print ≠ [] := tail_print_ne ht hne
    have hq : quadruplet (tl.print ++ r) = none := by
      apply quadruplet_none
      intro h
      rw [List.head?_append, Option.or_eq_some_iff] at h
      replace h : tl.print.head? = some '"' := by
        rcases h with h | ⟨h, -⟩
        · exact h
        · exact absurd (List.head?_eq_none_iff.mp h) hpr
      obtain ⟨blanks, comment, ending⟩ := tl
      cases blanks with
      | cons c cs =>
        have := ht.blanks c (by simp)
        simp [Tail.print] at h
        subst h
        simp [isSpaceTab] at this
      | nil =>
        cases comment with
        | some c => simp [Tail.print] at h
        | none =>
          rcases ht.ending with h1 | h1 | ⟨h1, -⟩ <;> simp only at h1 <;> subst h1 <;>
            simp [Tail.print] at h
    have hf : folding (tl.print ++ r) = none := by
      apply folding_none
      intro h
      obtain ⟨blanks, comment, ending⟩ := tl
      have second : ∀ c cs, ending ++ r = c :: cs → c = '\n' ∨ c = '\r' := by
        intro c cs hx
        rcases ht.ending with h1 | h1 | ⟨h1, h2⟩ <;> simp only at h1 <;> subst h1
        · simp at hx; exact .inl hx.1.symm
        · simp at hx; exact .inr hx.1.symm
        · rw [h2] at hx; cases hx
      cases blanks with
      | cons c cs =>
        cases cs with
        | cons d ds =>
          have := ht.blanks d (by simp)
          simp [Tail.print] at h
          subst h
          simp [isSpaceTab] at this
        | nil =>
          cases comment with
          | some x => simp [Tail.print] at h
          | none =>
            simp only [Tail.print, List.append_nil, List.nil_append, List.singleton_append, List.cons_append,
              List.getElem?_cons_succ] at h
            cases he : ending ++ r with
            | nil => rw [he] at h; cases h
            | cons y ys =>
              rw [he] at h
              have := second y ys he
              simp at h
              subst h
              simp at this
      | nil =>
        cases comment with
        | some x => simp [Tail.print] at h
        | none =>
          simp only [Tail.print, List.append_nil, List.nil_append] at h hpr
          rcases ht.ending with h1 | h1 | ⟨h1, -⟩ <;> simp only at h1 <;> subst h1
          · apply hc.2
            refine ⟨rfl, ?_⟩
            cases r with
            | nil => simp at h
            | cons y ys =>
              simp at h
              subst h
              exact ⟨ys, rfl⟩
          · simp at h
          · exact hpr rfl
    exact buildFrom_blank ln t.1 t.2 hne hq hf (endOfLine_print ht)
  | block text tl =>
    obtain ⟨hi, ht⟩ := hl
    have hq : quadruplet (DMItem.print (.block text tl) ++ r) = none := by
      apply quadruplet_none
      simp [DMItem.print]
    have hf : folding (DMItem.print (.block text tl) ++ r) = none := by
      apply folding_none
      simp [DMItem.print]
    have he : endOfLine (DMItem.print (.block text tl) ++ r) = none := by
      rw [endOfLine_eq]
      simp [DMItem.print, afterBlanks, List.dropWhile_cons, isSpaceTab, afterComment, afterEnding]
    rw [buildFrom_block ln t.1 t.2 hne hq hf he (multilineComment_print hi ht), Nat.add_assoc]
    rfl

/-- Reading a clear file. -/
theorem buildFrom_items (items : List DMItem) (rest : Str) (ln : Nat)
    (t : Assoc Char (List DMRule) × Assoc Char Char)
    (h : EveryItem (fun r i => i.Legal r ∧ i.Clear r) rest items) :
    buildFrom (dmPrint items ++ rest) ln t.1 t.2 =
      buildFrom rest (ln + fileLines items) (tables items t).1 (tables items t).2 := by
  induction items generalizing ln t with
  | nil => rfl
  | cons i items ih =>
    obtain ⟨⟨h1, h2⟩, h4⟩ := h
    have h3 : i.print ≠ [] := by
      cases i with
      | rule p b1 s b2 v b3 o tl => exact List.cons_ne_nil _ _
      | fold a b tl => exact List.cons_ne_nil _ _
      | blank tl => exact h2.1
      | block text tl => exact List.cons_ne_nil _ _
    have e : dmPrint (i :: items) ++ rest = i.print ++ (dmPrint items ++ rest) := by
      simp [dmPrint]
    rw [e, buildFrom_item i _ ln t h1 h2 (by simp [h3]), ih _ _ h4]
    simp only [fileLines, tables, List.map_cons, List.sum_cons, List.foldl_cons, Nat.add_assoc]

/-- What the loop can do on a text. -/
def Outcome (s : Str) (ln : Nat) (t : Assoc Char (List DMRule) × Assoc Char Char) : Prop :=
    (∃ items, s = dmPrint items ∧ EveryItem (fun r i => i.Legal r) [] items ∧
      (∀ i ∈ items, ∀ r, itemRule i = some r → r.pattern ≠ []) ∧
      buildFrom s ln t.1 t.2 = .ok (.ok (tables items t))) ∨
    (∃ items bad, s = dmPrint items ++ bad ∧ EveryItem (fun r i => i.Legal r) bad items ∧
      Unrecognised bad ∧ buildFrom s ln t.1 t.2 =
        .ok (.error (buildError (ln + fileLines items + 1) none bad c!"Can't recognize line"))) ∨
    (∃ items b1 x b2 v b3 o tl rest, s = dmPrint items ++ (DMItem.print (.rule [] b1 x b2 v b3 o tl) ++ rest) ∧
      EveryItem (fun r i => i.Legal r) (DMItem.print (.rule [] b1 x b2 v b3 o tl) ++ rest) items ∧
      buildFrom s ln t.1 t.2 = .error .unwrap)

/-- What the loop does on any text. -/
theorem buildFrom_outcome (n : Nat) (s : Str) (hn : s.length ≤ n) (ln : Nat)
    (t : Assoc Char (List DMRule) × Assoc Char Char) : Outcome s ln t := by
  induction n generalizing s ln t with
  | zero =>
    have : s = [] := List.length_eq_zero_iff.mp (by omega)
    subst this
    exact .inl ⟨[], rfl, trivial, by simp, rfl⟩
  | succ n ih =>
    by_cases hs : s = []
    · subst hs; exact .inl ⟨[], rfl, trivial, by simp, rfl⟩
    -- one item, then the rest
    have step : ∀ (i : DMItem) (r : Str), s = i.print ++ r → i.Legal r → r.length < s.length →
        (∀ x, itemRule i = some x → x.pattern ≠ []) →
        buildFrom s ln t.1 t.2 = buildFrom r (ln + itemLines i) (addItem t i).1 (addItem t i).2 →
        Outcome s ln t := by
      intro i r hsr hl hr hpat hb
      have sub : ∀ items, dmPrint (i :: items) = i.print ++ dmPrint items := fun items => by simp [dmPrint]
      rcases ih r (by omega) (ln + itemLines i) (addItem t i) with
        ⟨items, e, h1, h2, h3⟩ | ⟨items, bad, e, h1, h2, h3⟩ | ⟨items, b1, x, b2, v, b3, o, tl, rest, e, h1, h3⟩
      · refine .inl ⟨i :: items, by rw [sub, ← e, hsr], ⟨by rwa [List.append_nil, ← e], h1⟩, ?_, ?_⟩
        · intro j hj
          rcases List.mem_cons.mp hj with rfl | hj
          · exact hpat
          · exact h2 j hj
        · rw [hb, h3]; rfl
      · refine .inr (.inl ⟨i :: items, bad, by rw [sub, List.append_assoc, ← e, hsr], ⟨by rwa [← e], h1⟩, h2, ?_⟩)
        rw [hb, h3]
        simp only [fileLines, List.map_cons, List.sum_cons, Nat.add_assoc]
      · refine .inr (.inr ⟨i :: items, b1, x, b2, v, b3, o, tl, rest, by rw [sub, List.append_assoc, ← e, hsr],
          ⟨by rwa [← e], h1⟩, ?_⟩)
        rw [hb, h3]
    cases hq : quadruplet s with
    | some q =>
      obtain ⟨⟨a, b, c, d⟩, r⟩ := q
      obtain ⟨b1, b2, b3, tl, w1, v1, w2, v2, w3, v3, w4, ht, e⟩ := quadruplet_some hq
      have hb := buildFrom_rule ln t.1 t.2 hs hq
      cases a with
      | nil => exact .inr (.inr ⟨[], b1, b, b2, c, b3, d, tl, r, e, trivial, hb⟩)
      | cons ch p =>
        refine step (.rule (ch :: p) b1 b b2 c b3 d tl) r e ⟨w1, v1, w2, v2, w3, v3, w4, ht⟩
          (quadruplet_shorter hq) ?_ hb
        intro x hx
        cases hx
        exact List.cons_ne_nil _ _
    | none =>
      cases hf : folding s with
      | some q =>
        obtain ⟨⟨a, b⟩, r⟩ := q
        obtain ⟨tl, ht, e⟩ := folding_some hf
        exact step (.fold a b tl) r e ht (folding_shorter hf) (fun x hx => by cases hx)
          (buildFrom_fold ln t.1 t.2 hs hq hf)
      | none =>
        cases he : endOfLine s with
        | some q =>
          obtain ⟨u, r⟩ := q
          obtain ⟨tl, ht, e⟩ := endOfLine_some he
          exact step (.blank tl) r e ht (endOfLine_shorter hs he) (fun x hx => by cases hx)
            (buildFrom_blank ln t.1 t.2 hs hq hf he)
        | none =>
          cases hm : multilineComment s with
          | some q =>
            obtain ⟨k, r⟩ := q
            obtain ⟨text, tl, hi, ht, rfl, e⟩ := multilineComment_some hm
            exact step (.block text tl) r e ⟨hi, ht⟩ (multiline_shorter hm) (fun x hx => by cases hx)
              ((buildFrom_block ln t.1 t.2 hs hq hf he hm).trans (by rw [Nat.add_assoc]; rfl))
          | none =>
            refine .inr (.inl ⟨[], s, rfl, trivial, ⟨hs, ?_⟩, buildFrom_error ln t.1 t.2 hs hq hf he hm⟩)
            intro i r hl e
            cases i with
            | rule p b1 x b2 v b3 o tl =>
              obtain ⟨w1, v1, w2, v2, w3, v3, w4, ht⟩ := hl
              rw [e] at hq
              exact absurd (hq.symm.trans (quadruplet_print w1 v1 w2 v2 w3 v3 w4 ht)) nofun
            | fold a b tl =>
              rw [e] at hf
              exact absurd (hf.symm.trans (folding_print hl)) nofun
            | blank tl =>
              rw [e] at he
              exact absurd (he.symm.trans (endOfLine_print hl)) nofun
            | block text tl =>
              rw [e] at hm
              exact absurd (hm.symm.trans (multilineComment_print hl.1 hl.2)) nofun

/-! ## The tables -/

/-- The stored rules of a file whose pattern starts with `c`. -/
def rulesFor (c : Char) (items : List DMItem) : List DMRule :=
  (items.filterMap itemRule).filter fun r => r.pattern.head? == some c

/-- `none` for the empty list. -/
def someNonempty (l : List DMRule) : Option (List DMRule) := if l = [] then none else some l

theorem get?_addRule (rules : Assoc Char (List DMRule)) (ch c : Char) (rule : DMRule) :
    (addRule rules ch rule).get? c =
      if c = ch then some ((rules.get? ch).getD [] ++ [rule]) else rules.get? c := get?_insert _ _ _ _

theorem tables_snoc (items : List DMItem) (i : DMItem) (t : Assoc Char (List DMRule) × Assoc Char Char) :
    tables (items ++ [i]) t = addItem (tables items t) i := by simp [tables]

theorem reverse_induction {P : List DMItem → Prop} (nil : P [])
    (snoc : ∀ l i, P l → P (l ++ [i])) (l : List DMItem) : P l := by
  have : ∀ l : List DMItem, P l.reverse := fun l => by
    induction l with
    | nil => exact nil
    | cons i l ih => rw [List.reverse_cons]; exact snoc _ _ ih
  simpa using this l.reverse

theorem tables_rules (items : List DMItem) (c : Char) :
    (tables items ([], [])).1.get? c = someNonempty (rulesFor c items) := by
  induction items using reverse_induction with
  | nil => rfl
  | snoc items i ih =>
    rw [tables_snoc]
    have stay : itemRule i = none ∨ (∃ r, itemRule i = some r ∧ r.pattern.head? ≠ some c) →
        rulesFor c (items ++ [i]) = rulesFor c items := by
      rintro (h | ⟨r, h, hr⟩)
      · simp [rulesFor, List.filterMap_append, List.filterMap_cons, h]
      · simp [rulesFor, List.filterMap_append, List.filterMap_cons, h, hr]
    cases i with
    | fold a b tl => rw [stay (.inl rfl)]; exact ih
    | blank tl => rw [stay (.inl rfl)]; exact ih
    | block text tl => rw [stay (.inl rfl)]; exact ih
    | rule p b1 s b2 v b3 o tl =>
      cases p with
      | nil => rw [stay (.inr ⟨_, rfl, by simp [DMRule.ofParts]⟩)]; exact ih
      | cons ch p =>
        simp only [addItem]
        rw [get?_addRule]
        by_cases h : c = ch
        · subst h
          rw [if_pos rfl, ih]
          have : rulesFor c (items ++ [.rule (c :: p) b1 s b2 v b3 o tl]) =
              rulesFor c items ++ [DMRule.ofParts (c :: p, s, v, o)] := by
            simp [rulesFor, List.filterMap_append, List.filterMap_cons, itemRule, DMRule.ofParts]
          rw [this]
          unfold someNonempty
          by_cases h0 : rulesFor c items = []
          · simp [h0]
          · simp [h0]
        · rw [if_neg h, ih, stay (.inr ⟨_, rfl, by simpa [DMRule.ofParts] using Ne.symm h⟩)]

theorem tables_folds (items : List DMItem) (c : Char) :
    (tables items ([], [])).2.get? c = dmFold items c := by
  induction items using reverse_induction with
  | nil => rfl
  | snoc items i ih =>
    rw [tables_snoc]
    cases i with
    | fold a b tl =>
      simp only [addItem]
      rw [get?_insert, ih]
      unfold dmFold
      rw [List.filterMap_append]
      by_cases h : c = a
      · subst h; simp
      · simp [h, Ne.symm h]
    | blank tl => simpa [addItem, dmFold, List.filterMap_append] using ih
    | block text tl => simpa [addItem, dmFold, List.filterMap_append] using ih
    | rule p b1 s b2 v b3 o tl =>
      have : dmFold (items ++ [.rule p b1 s b2 v b3 o tl]) c = dmFold items c := by
        simp [dmFold, List.filterMap_append]
      rw [this, ← ih]
      cases p <;> rfl

/-- The encoder built from the tables of a file. -/
def encoderOf (folding : Bool) (items : List DMItem) : DaitchMokotoff :=
  { asciiFolding := folding
    rules := (tables items ([], [])).1.map fun p => (p.1, sortRules p.2)
    foldingRules := (tables items ([], [])).2 }

theorem encoder_rules (folding : Bool) (items : List DMItem) (c : Char) :
    (encoderOf folding items).rules.get? c = (someNonempty (rulesFor c items)).map sortRules := by
  unfold encoderOf
  rw [get?_map, tables_rules]

/-! ## Sorting -/

/-- Length of the pattern in bytes. -/
def plen (r : DMRule) : Nat := byteLen r.pattern

theorem sortRules_snoc (l : List DMRule) (r : DMRule) :
    sortRules (l ++ [r]) = insertRule r (sortRules l) := by simp [sortRules]

theorem insertRule_split (r : DMRule) (l : List DMRule) :
    ∃ a b, l = a ++ b ∧ insertRule r l = a ++ r :: b ∧ (∀ x ∈ a, plen r ≤ plen x) ∧
      (∀ x, b.head? = some x → plen x < plen r) := by
  induction l with
  | nil => exact ⟨[], [], rfl, rfl, by simp, by simp⟩
  | cons x l ih =>
    obtain ⟨a, b, h1, h2, h3, h4⟩ := ih
    unfold insertRule
    by_cases h : byteLen x.pattern ≥ byteLen r.pattern
    · rw [if_pos h]
      refine ⟨x :: a, b, by rw [h1]; rfl, by rw [h2]; rfl, ?_, h4⟩
      intro y hy
      rcases List.mem_cons.mp hy with rfl | hy
      · exact h
      · exact h3 y hy
    · rw [if_neg h]
      refine ⟨[], x :: l, rfl, rfl, by simp, ?_⟩
      intro y hy
      simp at hy
      subst hy
      unfold plen
      omega

theorem list_snoc_induction {α : Type} {P : List α → Prop} (nil : P [])
    (snoc : ∀ l i, P l → P (l ++ [i])) (l : List α) : P l := by
  have : ∀ l : List α, P l.reverse := fun l => by
    induction l with
    | nil => exact nil
    | cons i l ih => rw [List.reverse_cons]; exact snoc _ _ ih
  simpa using this l.reverse

theorem sortRules_sorted (l : List DMRule) : (sortRules l).Pairwise fun x y => plen y ≤ plen x := by
  induction l using list_snoc_induction with
  | nil => exact List.Pairwise.nil
  | snoc l r ih =>
    rw [sortRules_snoc]
    obtain ⟨a, b, h1, h2, h3, h4⟩ := insertRule_split r (sortRules l)
    rw [h2]
    rw [h1] at ih
    rw [List.pairwise_append] at ih ⊢
    have hb : ∀ y ∈ b, plen y < plen r := by
      intro y hy
      cases b with
      | nil => cases hy
      | cons z b =>
        have hz := h4 z rfl
        rcases List.mem_cons.mp hy with rfl | hy
        · exact hz
        · have := (List.pairwise_cons.mp ih.2.1).1 y hy
          omega
    refine ⟨ih.1, List.pairwise_cons.mpr ⟨fun y hy => Nat.le_of_lt (hb y hy), ih.2.1⟩, ?_⟩
    intro x hx y hy
    rcases List.mem_cons.mp hy with rfl | hy
    · exact h3 x hx
    · exact ih.2.2 x hx y hy

theorem sortRules_perm (l : List DMRule) : (sortRules l).Perm l := by
  induction l using list_snoc_induction with
  | nil => exact List.Perm.refl _
  | snoc l r ih =>
    rw [sortRules_snoc]
    obtain ⟨a, b, h1, h2, -, -⟩ := insertRule_split r (sortRules l)
    rw [h2]
    refine List.perm_middle.trans ?_
    rw [← h1]
    exact (List.Perm.cons r ih).trans (List.perm_append_comm (l₁ := [r]))

theorem sortRules_stable (l : List DMRule) (n : Nat) :
    (sortRules l).filter (fun r => plen r == n) = l.filter fun r => plen r == n := by
  induction l using list_snoc_induction with
  | nil => rfl
  | snoc l r ih =>
    rw [sortRules_snoc]
    have hs := sortRules_sorted l
    obtain ⟨a, b, h1, h2, h3, h4⟩ := insertRule_split r (sortRules l)
    rw [h2, List.filter_append, List.filter_append, ← ih, h1, List.filter_append, List.append_assoc]
    congr 1
    rw [h1] at hs
    have hb : ∀ y ∈ b, plen y < plen r := by
      intro y hy
      cases b with
      | nil => cases hy
      | cons z b =>
        have hz := h4 z rfl
        rcases List.mem_cons.mp hy with rfl | hy
        · exact hz
        · have := (List.pairwise_cons.mp (List.pairwise_append.mp hs).2.1).1 y hy
          omega
    by_cases hn : plen r = n
    · have : b.filter (fun r => plen r == n) = [] := by
        rw [List.filter_eq_nil_iff]
        intro y hy
        have := hb y hy
        simp
        omega
      rw [List.filter_cons, if_pos (by simpa using hn), this]
      simp [hn]
    · rw [List.filter_cons, if_neg (by simpa using hn)]
      simp [hn]

/-! ## The rule that applies -/

/-- The first of the longest elements that satisfy `p`. -/
def best (p : DMRule → Bool) (l : List DMRule) : Option DMRule :=
  (l.filter p).find? fun r => plen r == ((l.filter p).map plen).foldl max 0

theorem foldl_max_snoc (l : List Nat) (n : Nat) : (l ++ [n]).foldl max 0 = max (l.foldl max 0) n := by
  simp

theorem le_foldl_max (l : List Nat) : ∀ x ∈ l, x ≤ l.foldl max 0 := by
  induction l using list_snoc_induction with
  | nil => simp
  | snoc l n ih =>
    intro x hx
    rw [foldl_max_snoc]
    rcases List.mem_append.mp hx with hx | hx
    · have := ih x hx; omega
    · simp at hx; omega

theorem best_spec (p : DMRule → Bool) (l : List DMRule) :
    (best p l = none → l.filter p = []) ∧
      ∀ x, best p l = some x → plen x = ((l.filter p).map plen).foldl max 0 := by
  constructor
  · intro h
    unfold best at h
    rw [List.find?_eq_none] at h
    -- the maximum is attained
    have att : ∀ m : List DMRule, m = [] ∨ ∃ x ∈ m, plen x = (m.map plen).foldl max 0 := by
      intro m
      induction m using list_snoc_induction with
      | nil => exact .inl rfl
      | snoc m r ih =>
        right
        rw [List.map_append, List.map_singleton, foldl_max_snoc]
        rcases ih with rfl | ⟨x, hx, hm⟩
        · exact ⟨r, by simp, by simp⟩
        · by_cases hle : plen r ≤ plen x
          · exact ⟨x, by simp [hx], by omega⟩
          · exact ⟨r, by simp, by omega⟩
    rcases att (l.filter p) with h0 | ⟨x, hx, hm⟩
    · exact h0
    · exact absurd (by simpa using hm) (h x hx)
  · intro x h
    have := List.find?_some h
    simpa using this

theorem best_snoc (p : DMRule → Bool) (l : List DMRule) (r : DMRule) :
    best p (l ++ [r]) = if p r then
      (match best p l with
        | none => some r
        | some x => if plen r ≤ plen x then some x else some r)
      else best p l := by
  by_cases hp : p r = true
  · rw [if_pos hp]
    have hf : (l ++ [r]).filter p = l.filter p ++ [r] := by simp [hp]
    have hs := best_spec p l
    unfold best at hs ⊢
    rw [hf, List.map_append, List.map_singleton, foldl_max_snoc, List.find?_append]
    cases hb : (l.filter p).find? fun r => plen r == ((l.filter p).map plen).foldl max 0 with
    | none =>
      rw [hb] at hs
      rw [hs.1 rfl]
      simp
    | some x =>
      have hx := hs.2 x hb
      by_cases hle : plen r ≤ plen x
      · simp only [if_pos hle]
        rw [show max (((l.filter p).map plen).foldl max 0) (plen r) =
          ((l.filter p).map plen).foldl max 0 by omega, hb]
        rfl
      · simp only [if_neg hle]
        have hnone : ((l.filter p).find? fun q => plen q == max (((l.filter p).map plen).foldl max 0) (plen r)) =
            none := by
          rw [List.find?_eq_none]
          intro y hy
          have := le_foldl_max _ _ (List.mem_map_of_mem (f := plen) hy)
          simp
          omega
        rw [hnone]
        have : max (((l.filter p).map plen).foldl max 0) (plen r) = plen r := by omega
        simp [this]
  · rw [if_neg hp]
    have hf : (l ++ [r]).filter p = l.filter p := by simp [hp]
    unfold best
    rw [hf]

theorem find_sort (p : DMRule → Bool) (l : List DMRule) : (sortRules l).find? p = best p l := by
  induction l using list_snoc_induction with
  | nil => rfl
  | snoc l r ih =>
    rw [sortRules_snoc, best_snoc, ← ih]
    have hs := sortRules_sorted l
    obtain ⟨a, b, h1, h2, h3, h4⟩ := insertRule_split r (sortRules l)
    rw [h2, List.find?_append, h1, List.find?_append, List.find?_cons]
    rw [h1] at hs
    have hb : ∀ y ∈ b, plen y < plen r := by
      intro y hy
      cases b with
      | nil => cases hy
      | cons z b =>
        have hz := h4 z rfl
        rcases List.mem_cons.mp hy with rfl | hy
        · exact hz
        · have := (List.pairwise_cons.mp (List.pairwise_append.mp hs).2.1).1 y hy
          omega
    by_cases hp : p r = true
    · rw [if_pos hp, hp]
      cases ha : a.find? p with
      | some x =>
        have := h3 x (List.mem_of_find?_eq_some ha)
        simp [this]
      | none =>
        cases hbf : b.find? p with
        | none => simp
        | some y =>
          have := hb y (List.mem_of_find?_eq_some hbf)
          simp
          intro h; omega
    · rw [if_neg hp, show p r = false by simpa using hp]

end DMKProofs
end Verif
