import Verif.Proofs.BMPhonemeExpr
/-!
# The files of rules
-/

set_option linter.unusedSimpArgs false
set_option linter.unusedVariables false

namespace Verif.BMProofs
open BM Spec ParserProofs Props
open DMKProofs (get?_insert quadruplet_shorter endOfLine_shorter multiline_shorter tail_print_ne)

/-! ## One rule -/

theorem parseContext_iff (R : RegexEngine) (text : Str) (c : Context) :
    parseContext R text = .ok (.ok c) ↔ ContextReads R text c := by
  unfold parseContext ContextReads
  simp only [bind, Except.bind]
  obtain ⟨o, ho⟩ := optimizedRegex_total text
  rw [ho]
  cases o with
  | some o =>
    simp only [pure, Except.pure, Except.ok.injEq, Option.some.injEq, exists_eq_left', reduceCtorEq, false_and,
      or_false]
    exact eq_comm
  | none =>
    cases he : R.error text with
    | some m => simp [pure, Except.pure, he]
    | none => simp [pure, Except.pure, he, eq_comm]

theorem parseContext_total (R : RegexEngine) (text : Str) :
    (∃ c, parseContext R text = .ok (.ok c)) ∨ ∃ e, parseContext R text = .ok (.error e) := by
  unfold parseContext
  simp only [bind, Except.bind]
  obtain ⟨o, ho⟩ := optimizedRegex_total text
  rw [ho]
  cases o with
  | some o => exact .inl ⟨_, rfl⟩
  | none =>
    cases he : R.error text with
    | some m => exact .inr ⟨_, by simp only [he]; rfl⟩
    | none => exact .inl ⟨_, by simp only [he]; rfl⟩

theorem parseQuadruplet_iff (R : RegexEngine) (fn : Str) (ln : Nat) (p l rc ph : Str) (r : Rule) :
    parseQuadruplet R fn ln (p, l, rc, ph) = .ok (.ok r) ↔ IsRule R fn ln p l rc ph r := by
  unfold parseQuadruplet
  simp only [bind, Except.bind]
  constructor
  · intro h
    cases h1 : parseContext R (l ++ c!"$") with
    | error e => rw [h1] at h; cases h
    | ok x =>
      rw [h1] at h
      cases x with
      | error e => cases h
      | ok lc =>
        simp only at h
        cases h2 : parseContext R ('^' :: rc) with
        | error e => rw [h2] at h; cases h
        | ok x =>
          rw [h2] at h
          cases x with
          | error e => cases h
          | ok rcx =>
            simp only at h
            cases h3 : parsePhonemeExpr ph with
            | error e => rw [h3] at h; cases h
            | ok x =>
              rw [h3] at h
              cases x with
              | error e => cases h
              | ok ps =>
                simp only [pure, Except.pure, Except.ok.injEq] at h
                subst h
                exact ⟨rfl, rfl, rfl, rfl, (parseContext_iff R _ _).mp h1, (parseContext_iff R _ _).mp h2,
                  (parsePhonemeExpr_iff _ _).mp h3⟩
  · rintro ⟨e1, e2, e3, e4, h1, h2, h3⟩
    rw [(parseContext_iff R _ _).mpr h1]
    simp only
    have h2' : parseContext R ('^' :: rc) = _ := (parseContext_iff R _ _).mpr h2
    rw [h2']
    simp only
    rw [(parsePhonemeExpr_iff _ _).mpr h3]
    obtain ⟨a, b, c, d, e, f, g⟩ := r
    simp only at e1 e2 e3 e4
    subst e1 e2 e3 e4
    rfl

theorem parseQuadruplet_total (R : RegexEngine) (fn : Str) (ln : Nat) (q : Str × Str × Str × Str) :
    (∃ r, parseQuadruplet R fn ln q = .ok (.ok r)) ∨ ∃ e, parseQuadruplet R fn ln q = .ok (.error e) := by
  unfold parseQuadruplet
  simp only [bind, Except.bind]
  rcases parseContext_total R (q.2.1 ++ c!"$") with ⟨c, h⟩ | ⟨e, h⟩
  · rw [h]
    simp only
    rcases parseContext_total R ('^' :: q.2.2.1) with ⟨c, h⟩ | ⟨e, h⟩
    · rw [h]
      simp only
      rcases parsePhonemeExpr_total q.2.2.2 with ⟨c, h⟩ | ⟨e, h⟩
      · rw [h]; exact .inl ⟨_, rfl⟩
      · rw [h]; exact .inr ⟨_, rfl⟩
    · rw [h]; exact .inr ⟨_, rfl⟩
  · rw [h]; exact .inr ⟨_, rfl⟩

/-! ## Items -/

theorem quoted_head (p s : Str) : ∃ t, quoted p ++ s = '"' :: t := ⟨_, rfl⟩

theorem quote_facts (cs : Str) : Parser.endOfLine ('"' :: cs) = none :=
  endOfLine_none_of (by decide) (by decide) (by decide) (by decide) (fun h => absurd h (by decide))

theorem hash_facts (cs : Str) : Parser.quadruplet ('#' :: cs) = none ∧ Parser.endOfLine ('#' :: cs) = none :=
  ⟨quadruplet_none (by simp), endOfLine_none_of (by decide) (by decide) (by decide) (by decide) (fun h => absurd h (by decide))⟩

theorem include_none_of {U : Unicode} {s : Str} (h : s.head? ≠ some '#') : Parser.includeDirective U s = none := by
  cases hi : Parser.includeDirective U s with
  | none => rfl
  | some x =>
    obtain ⟨t, -, -, -, rfl⟩ := include_some (a := x.1) (r := x.2) hi
    exact absurd rfl h

/-- Filler starts with a blank, the end of a line or '/'. -/
theorem filler_head {s r : Str} {f : Filler} (hs : s ≠ []) (h : f.Reads s r) :
    s.head? ≠ some '"' ∧ s.head? ≠ some '#' := by
  obtain ⟨rfl, hl⟩ := h
  cases f with
  | blank t =>
    simp only [Filler.print] at hs ⊢
    cases hc : t.print ++ r with
    | nil => exact absurd hc hs
    | cons c cs =>
      have := tail_head hl hc
      simp only [List.head?_cons, ne_eq, Option.some.injEq]
      rcases this with rfl | rfl | rfl | rfl | ⟨rfl, -⟩ <;> decide
  | block text t => simp [Filler.print]

theorem ruleItem_shorter {U : Unicode} {s : Str} {i : RuleItem} {r : Str} (hs : s ≠ []) (h : i.Reads U s r) :
    r.length < s.length := by
  cases i with
  | filler f => exact filler_shorter hs h
  | rule p b1 l b2 rc b3 ph t =>
    obtain ⟨rfl, _⟩ := h
    simp [quoted]; omega
  | directive name t =>
    obtain ⟨rfl, hne, _⟩ := h
    simp; omega

theorem include_shorter {U : Unicode} {s a r : Str} (h : Parser.includeDirective U s = some (a, r)) :
    r.length < s.length := by
  obtain ⟨t, -, -, -, rfl⟩ := include_some h
  simp; omega

/-! ## The loop -/

section
variable {U : Unicode} {R : RegexEngine} {load : Str → Res (Except PhoneticError RuleMap)} {fn : Str}

theorem ruleLoop_fuel (f f' : Nat) (s : Str) (ln : Nat) (m : RuleMap) (h : s.length < f) (h' : s.length < f') :
    ruleLoop U R load fn f s ln m = ruleLoop U R load fn f' s ln m := by
  induction f generalizing f' s ln m with
  | zero => omega
  | succ f ih =>
    cases f' with
    | zero => omega
    | succ f' =>
      unfold ruleLoop
      by_cases hs : s = []
      · subst hs; rfl
      rw [if_neg (by simpa using hs), if_neg (by simpa using hs)]
      simp only
      cases hq : Parser.quadruplet s with
      | some x =>
        obtain ⟨q, rm⟩ := x
        have := quadruplet_shorter hq
        simp only [bind, Except.bind]
        cases parseQuadruplet R fn (ln + 1) q with
        | error e => rfl
        | ok x =>
          cases x with
          | error e => rfl
          | ok rule =>
            simp only
            cases rule.pattern with
            | nil => rfl
            | cons c cs => exact ih _ _ _ _ (by omega) (by omega)
      | none =>
        simp only
        cases he : Parser.endOfLine s with
        | some x =>
          have := endOfLine_shorter (u := x.1) (r := x.2) hs he
          exact ih _ _ _ _ (by omega) (by omega)
        | none =>
          simp only
          cases hi : Parser.includeDirective U s with
          | some x =>
            obtain ⟨name, rm⟩ := x
            have := include_shorter hi
            simp only [bind, Except.bind]
            cases load name with
            | error e => rfl
            | ok x =>
              cases x with
              | error e => rfl
              | ok rules => exact ih _ _ _ _ (by omega) (by omega)
          | none =>
            simp only
            cases hm : Parser.multilineComment s with
            | some x =>
              have := multiline_shorter (n := x.1) (r := x.2) hm
              exact ih _ _ _ _ (by omega) (by omega)
            | none => rfl

/-- The loop with enough fuel. -/
def ruleFrom (U : Unicode) (R : RegexEngine) (load : Str → Res (Except PhoneticError RuleMap)) (fn : Str) (s : Str)
    (ln : Nat) (m : RuleMap) := ruleLoop U R load fn (s.length + 1) s ln m

theorem ruleFrom_nil (ln : Nat) (m : RuleMap) : ruleFrom U R load fn [] ln m = .ok (.ok m) := rfl

theorem ruleFrom_filler {s r : Str} {f : Filler} (hs : s ≠ []) (h : f.Reads s r) (ln : Nat) (m : RuleMap) :
    ruleFrom U R load fn s ln m = ruleFrom U R load fn r (ln + f.lines) m := by
  have hshort := filler_shorter hs h
  have hhead := filler_head hs h
  unfold ruleFrom
  conv => lhs; unfold ruleLoop
  rw [if_neg (by simpa using hs)]
  have hpos := filler_lines_pos f
  simp only [quadruplet_none hhead.1]
  rcases filler_some h with ⟨h1, h2⟩ | ⟨h1, h2⟩
  · simp only [h1, h2]
    exact ruleLoop_fuel _ _ _ _ _ (by omega) (by omega)
  · simp only [h1, h2, include_none_of hhead.2]
    rw [show ln + 1 + (f.lines - 1) = ln + f.lines by omega]
    exact ruleLoop_fuel _ _ _ _ _ (by omega) (by omega)

theorem ruleFrom_rule {s r p b1 l b2 rc b3 ph : Str} {t : Tail} (hs : s ≠ [])
    (h : RuleItem.Reads U s (.rule p b1 l b2 rc b3 ph t) r) (ln : Nat) (m : RuleMap) :
    ruleFrom U R load fn s ln m =
      match parseQuadruplet R fn (ln + 1) (p, l, rc, ph) with
      | .error e => .error e
      | .ok (.error e) => .ok (.error (.bmError e))
      | .ok (.ok rule) =>
        match p with
        | [] => .error .unwrap
        | ch :: _ => ruleFrom U R load fn r (ln + 1) (m.insert ch ((m.get? ch).getD [] ++ [rule])) := by
  have hshort := ruleItem_shorter hs h
  obtain ⟨rfl, w1, v1, w2, v2, w3, v3, w4, ht⟩ := h
  unfold ruleFrom
  conv => lhs; unfold ruleLoop
  rw [if_neg (by simpa using hs)]
  simp only [quadruplet_print w1 v1 w2 v2 w3 v3 w4 ht, bind, Except.bind]
  cases hq : parseQuadruplet R fn (ln + 1) (p, l, rc, ph) with
  | error e => rfl
  | ok x =>
    cases x with
    | error e => rfl
    | ok rule =>
      simp only
      have hr := (parseQuadruplet_iff _ _ _ _ _ _ _ _).mp hq
      rw [hr.hasPattern]
      cases p with
      | nil => rfl
      | cons c cs => exact ruleLoop_fuel _ _ _ _ _ (by omega) (by omega)

theorem ruleFrom_directive {s r name : Str} {t : Tail} (hs : s ≠ [])
    (h : RuleItem.Reads U s (.directive name t) r) (ln : Nat) (m : RuleMap) :
    ruleFrom U R load fn s ln m =
      match load name with
      | .error e => .error e
      | .ok (.error e) => .ok (.error (includeError (ln + 1) fn r e))
      | .ok (.ok rules) => ruleFrom U R load fn r (ln + 1) (extend m rules) := by
  have hshort := ruleItem_shorter hs h
  obtain ⟨rfl, hne, hc, ht⟩ := h
  have hf := hash_facts (c!"include " ++ name ++ t.print ++ r)
  have e : '#' :: (c!"include " ++ name ++ t.print ++ r) = c!"#include " ++ name ++ t.print ++ r := rfl
  rw [e] at hf
  unfold ruleFrom
  conv => lhs; unfold ruleLoop
  rw [if_neg (by simpa using hs)]
  simp only [hf.1, hf.2, include_print hne hc ht, bind, Except.bind]
  cases load name with
  | error e => rfl
  | ok x =>
    cases x with
    | error e => rfl
    | ok rules => exact ruleLoop_fuel _ _ _ _ _ (by omega) (by omega)

theorem ruleFrom_stuck {s : Str} (h : Stuck (RuleItem.Reads U) s) (ln : Nat) (m : RuleMap) :
    ruleFrom U R load fn s ln m = .ok (.error (.parseRuleError
      (buildError (ln + 1) (some fn) s c!"Can't parse line"))) := by
  obtain ⟨hs, hn⟩ := h
  have hf : ∀ f r, ¬ Filler.Reads s f r := fun f r hf => hn (.filler f) r hf
  unfold ruleFrom ruleLoop
  rw [if_neg (by simpa using hs)]
  obtain ⟨h1, h2⟩ := filler_none hf
  cases hq : Parser.quadruplet s with
  | some x =>
    obtain ⟨⟨a, b, c, d⟩, r⟩ := x
    obtain ⟨b1, b2, b3, t, w1, v1, w2, v2, w3, v3, w4, ht, e⟩ := quadruplet_some hq
    exact absurd ⟨e, w1, v1, w2, v2, w3, v3, w4, ht⟩ (hn (.rule a b1 b b2 c b3 d t) r)
  | none =>
    simp only [h1, h2]
    cases hi : Parser.includeDirective U s with
    | some x =>
      obtain ⟨t, a1, a2, a3, e⟩ := include_some (a := x.1) (r := x.2) hi
      exact absurd ⟨e, a1, a2, a3⟩ (hn (.directive x.1 t) x.2)
    | none => rfl

end

/-! ## The tables -/

/-- No empty lists, and each letter at most once. -/
def Proper (m : RuleMap) : Prop := (∀ e ∈ m, e.2 ≠ []) ∧ (m.map Prod.fst).Nodup

theorem proper_nil : Proper [] := ⟨fun e h => absurd h List.not_mem_nil, List.nodup_nil⟩

theorem rulesFor_nil : rulesFor [] = fun _ => [] := rfl

theorem rulesFor_insert (m : RuleMap) (k : Char) (v : List Rule) (c : Char) :
    rulesFor (m.insert k v) c = if c = k then v else rulesFor m c := by
  unfold rulesFor
  rw [get?_insert]
  split <;> rfl

theorem proper_insert {m : RuleMap} (h : Proper m) (k : Char) {v : List Rule} (hv : v ≠ []) : Proper (m.insert k v) := by
  obtain ⟨h1, h2⟩ := h
  unfold Assoc.insert
  refine ⟨fun e he => ?_, ?_⟩
  · rcases List.mem_cons.mp he with rfl | he
    · exact hv
    · exact h1 e (List.mem_filter.mp he).1
  · rw [List.map_cons, List.nodup_cons]
    refine ⟨?_, ?_⟩
    · intro hk
      obtain ⟨e, he, hk⟩ := List.mem_map.mp hk
      have := (List.mem_filter.mp he).2
      simp only at hk
      simp [hk] at this
    · exact (List.Sublist.map _ List.filter_sublist).nodup h2

theorem proper_extend {m rules : RuleMap} (h : Proper m) (hr : ∀ e ∈ rules, e.2 ≠ []) : Proper (extend m rules) := by
  unfold extend
  induction rules generalizing m with
  | nil => exact h
  | cons e rules ih =>
    exact ih (proper_insert h e.1 (hr e List.mem_cons_self)) fun e he => hr e (List.mem_cons_of_mem _ he)

theorem rulesFor_extend (m : RuleMap) {rules : RuleMap} (hr : Proper rules) (c : Char) :
    rulesFor (extend m rules) c = if rulesFor rules c = [] then rulesFor m c else rulesFor rules c := by
  unfold extend
  induction rules generalizing m with
  | nil => rfl
  | cons e rules ih =>
    obtain ⟨k, v⟩ := e
    obtain ⟨h1, h2⟩ := hr
    rw [List.map_cons, List.nodup_cons] at h2
    rw [List.foldl_cons, ih _ ⟨fun e he => h1 e (List.mem_cons_of_mem _ he), h2.2⟩, rulesFor_insert]
    have hv : v ≠ [] := h1 (k, v) List.mem_cons_self
    have hcons : rulesFor ((k, v) :: rules) c = if c = k then v else rulesFor rules c := by
      unfold rulesFor Assoc.get?
      rw [List.lookup_cons]
      by_cases hc : c = k
      · subst hc; simp
      · rw [show (c == k) = false by simpa using hc, if_neg hc]
    rw [hcons]
    by_cases hc : c = k
    · subst hc
      have hnone : rulesFor rules c = [] := by
        unfold rulesFor
        cases hg : Assoc.get? rules c with
        | none => rfl
        | some v' => exact absurd (List.mem_map.mpr ⟨(c, v'), get?_mem hg, rfl⟩) h2.1
      rw [hnone]
      simp [hv]
    · simp [hc]

/-! ## Whole files -/

section
variable {U : Unicode} {R : RegexEngine} {load : Str → Res (Except PhoneticError RuleMap)} {fn : Str}
  {included : Str → RuleTable → Prop}

theorem rulesFor_snoc (m : RuleMap) (ch : Char) (r : Rule) :
    rulesFor (m.insert ch ((m.get? ch).getD [] ++ [r])) =
      fun x => if x = ch then rulesFor m x ++ [r] else rulesFor m x := by
  funext x
  rw [rulesFor_insert]
  by_cases h : x = ch
  · subst h; simp [rulesFor]
  · simp [h]

/-- Items that collect take the loop further. -/
theorem ruleFrom_collects
    (hload : ∀ name t, included name t → ∃ mt, load name = .ok (.ok mt) ∧ Proper mt ∧ rulesFor mt = t)
    {s t : Str} {items : List RuleItem} (h : Reading (RuleItem.Reads U) s items t) {ln : Nat} {m : RuleMap}
    (hm : Proper m) {out : RuleTable} (hc : Collects R included fn ln items (rulesFor m) out) :
    ∃ m', Proper m' ∧ rulesFor m' = out ∧
      ruleFrom U R load fn s ln m = ruleFrom U R load fn t (ln + linesOf RuleItem.lines items) m' := by
  induction h generalizing ln m with
  | nil s => exact ⟨m, hm, hc.symm, by simp [linesOf]⟩
  | @cons s r t i items hs hr _ ih =>
    cases i with
    | filler f =>
      obtain ⟨m', h1, h2, h3⟩ := ih hm hc
      refine ⟨m', h1, h2, ?_⟩
      rw [ruleFrom_filler hs hr, h3]
      simp only [linesOf, List.map_cons, List.sum_cons, RuleItem.lines]
      congr 1; omega
    | rule p b1 l b2 rc b3 ph tl =>
      obtain ⟨c, rule, hp, hrule, hc⟩ := hc
      cases p with
      | nil => cases hp
      | cons c' p =>
        cases hp
        rw [← rulesFor_snoc] at hc
        obtain ⟨m', h1, h2, h3⟩ := ih (proper_insert hm c (by simp)) hc
        refine ⟨m', h1, h2, ?_⟩
        rw [ruleFrom_rule hs hr, (parseQuadruplet_iff _ _ _ _ _ _ _ _).mpr hrule]
        simp only
        rw [h3]
        simp only [linesOf, List.map_cons, List.sum_cons, RuleItem.lines]
        congr 1; omega
    | directive name tl =>
      obtain ⟨tb, hi, hc⟩ := hc
      obtain ⟨mt, hl, hp, rfl⟩ := hload _ _ hi
      have hext : (fun x => if rulesFor mt x = [] then rulesFor m x else rulesFor mt x) = rulesFor (extend m mt) := by
        funext x; exact (rulesFor_extend m hp x).symm
      rw [hext] at hc
      obtain ⟨m', h1, h2, h3⟩ := ih (proper_extend hm hp.1) hc
      refine ⟨m', h1, h2, ?_⟩
      rw [ruleFrom_directive hs hr, hl]
      simp only
      rw [h3]
      simp only [linesOf, List.map_cons, List.sum_cons, RuleItem.lines]
      congr 1; omega

/-- If the loop succeeds, the items collect. -/
theorem collects_of_ruleFrom
    (hload : ∀ name mt, load name = .ok (.ok mt) → Proper mt ∧ included name (rulesFor mt))
    {s t : Str} {items : List RuleItem} (h : Reading (RuleItem.Reads U) s items t) {ln : Nat} {m res : RuleMap}
    (hm : Proper m) (ho : ruleFrom U R load fn s ln m = .ok (.ok res)) :
    ∃ m', Proper m' ∧ Collects R included fn ln items (rulesFor m) (rulesFor m') ∧
      ruleFrom U R load fn t (ln + linesOf RuleItem.lines items) m' = .ok (.ok res) := by
  induction h generalizing ln m with
  | nil s => exact ⟨m, hm, rfl, by simpa [linesOf] using ho⟩
  | @cons s r t i items hs hr _ ih =>
    cases i with
    | filler f =>
      rw [ruleFrom_filler hs hr] at ho
      obtain ⟨m', h1, h2, h3⟩ := ih hm ho
      refine ⟨m', h1, h2, ?_⟩
      rw [← h3]
      simp only [linesOf, List.map_cons, List.sum_cons, RuleItem.lines]
      congr 1; omega
    | rule p b1 l b2 rc b3 ph tl =>
      rw [ruleFrom_rule hs hr] at ho
      cases hq : parseQuadruplet R fn (ln + 1) (p, l, rc, ph) with
      | error e => rw [hq] at ho; cases ho
      | ok x =>
        rw [hq] at ho
        cases x with
        | error e => cases ho
        | ok rule =>
          cases p with
          | nil => cases ho
          | cons ch p =>
            simp only at ho
            obtain ⟨m', h1, h2, h3⟩ := ih (proper_insert hm ch (by simp)) ho
            refine ⟨m', h1, ⟨ch, rule, rfl, (parseQuadruplet_iff _ _ _ _ _ _ _ _).mp hq, ?_⟩, ?_⟩
            · rw [← rulesFor_snoc]; exact h2
            · rw [← h3]
              simp only [linesOf, List.map_cons, List.sum_cons, RuleItem.lines]
              congr 1; omega
    | directive name tl =>
      rw [ruleFrom_directive hs hr] at ho
      cases hl : load name with
      | error e => rw [hl] at ho; cases ho
      | ok x =>
        rw [hl] at ho
        cases x with
        | error e => cases ho
        | ok mt =>
          simp only at ho
          obtain ⟨hp, hi⟩ := hload _ _ hl
          obtain ⟨m', h1, h2, h3⟩ := ih (proper_extend hm hp.1) ho
          refine ⟨m', h1, ⟨rulesFor mt, hi, ?_⟩, ?_⟩
          · have hext : (fun x => if rulesFor mt x = [] then rulesFor m x else rulesFor mt x) =
                rulesFor (extend m mt) := by
              funext x; exact (rulesFor_extend m hp x).symm
            rw [hext]; exact h2
          · rw [← h3]
            simp only [linesOf, List.map_cons, List.sum_cons, RuleItem.lines]
            congr 1; omega

end

theorem parseRule_succ {U : Unicode} {R : RegexEngine} {resolver : Resolver} {depth : Nat} {fn content : Str}
    (h : resolver fn = .ok content) :
    parseRule U R resolver (depth + 1) fn = ruleFrom U R (parseRule U R resolver depth) fn content 0 [] := by
  simp only [parseRule, h]
  rfl

theorem parseRule_proper {U : Unicode} {R : RegexEngine} {resolver : Resolver} {depth : Nat} {fn : Str} {m : RuleMap}
    (h : parseRule U R resolver depth fn = .ok (.ok m)) :
    Proper m ∧ FileRules U R resolver depth fn (rulesFor m) := by
  induction depth generalizing fn m with
  | zero => cases h
  | succ depth ih =>
    cases hc : resolver fn with
    | error e => simp only [parseRule, hc] at h; cases h
    | ok content =>
      rw [parseRule_succ hc] at h
      obtain ⟨items, t, hr, ht⟩ := reading_exists (reads := RuleItem.Reads U) (fun _ _ _ => ruleItem_shorter) content
      obtain ⟨m', h1, h2, h3⟩ := collects_of_ruleFrom (included := FileRules U R resolver depth)
        (fun name mt hl => ih hl) hr proper_nil h
      rcases ht with rfl | ht
      · rw [ruleFrom_nil] at h3
        simp only [Except.ok.injEq] at h3
        subst h3
        exact ⟨h1, content, items, hc, hr, h2⟩
      · rw [ruleFrom_stuck ht] at h3; cases h3

theorem parseRule_of_fileRules {U : Unicode} {R : RegexEngine} {resolver : Resolver} {depth : Nat} {fn : Str}
    {out : RuleTable} (h : FileRules U R resolver depth fn out) :
    ∃ m, parseRule U R resolver depth fn = .ok (.ok m) ∧ Proper m ∧ rulesFor m = out := by
  induction depth generalizing fn out with
  | zero => cases h
  | succ depth ih =>
    obtain ⟨content, items, hc, hr, hcol⟩ := h
    obtain ⟨m, h1, h2, h3⟩ := ruleFrom_collects (included := FileRules U R resolver depth)
      (load := parseRule U R resolver depth) (fun name t hi => ih hi) hr proper_nil hcol
    exact ⟨m, by rw [parseRule_succ hc, h3]; exact ruleFrom_nil _ _, h1, h2⟩

/-- A file that cannot be read further. -/
theorem parseRule_stuck {U : Unicode} {R : RegexEngine} {resolver : Resolver} {depth : Nat} {fn content rest : Str}
    {items : List RuleItem} {out : RuleTable} (hc : resolver fn = .ok content)
    (hr : Reading (RuleItem.Reads U) content items rest)
    (hcol : Collects R (FileRules U R resolver depth) fn 0 items (fun _ => []) out)
    (hs : Stuck (RuleItem.Reads U) rest) :
    parseRule U R resolver (depth + 1) fn = .ok (.error (.parseRuleError
      (buildError (linesOf RuleItem.lines items + 1) (some fn) rest c!"Can't parse line"))) := by
  obtain ⟨m, h1, h2, h3⟩ := ruleFrom_collects (included := FileRules U R resolver depth)
    (load := parseRule U R resolver depth) (fun name t hi => parseRule_of_fileRules hi) hr proper_nil hcol
  rw [parseRule_succ hc, h3, ruleFrom_stuck hs, Nat.zero_add]

/-! ## Termination -/

/-- The files an included file reads, and the patterns of the rules, of a reading that may stop anywhere. -/
theorem ruleFrom_total {U : Unicode} {R : RegexEngine} {load : Str → Res (Except PhoneticError RuleMap)} {fn : Str}
    {s t : Str} {items : List RuleItem} (h : Reading (RuleItem.Reads U) s items t)
    (ht : t = [] ∨ Stuck (RuleItem.Reads U) t)
    (hp : ∀ p b1 l b2 rc b3 ph tl, RuleItem.rule p b1 l b2 rc b3 ph tl ∈ items → p ≠ [])
    (hl : ∀ name tl, RuleItem.directive name tl ∈ items → ∃ x, load name = .ok x) (ln : Nat) (m : RuleMap) :
    ∃ x, ruleFrom U R load fn s ln m = .ok x := by
  induction h generalizing ln m with
  | nil s =>
    rcases ht with rfl | ht
    · exact ⟨_, ruleFrom_nil _ _⟩
    · exact ⟨_, ruleFrom_stuck ht _ _⟩
  | @cons s r t i items hs hr _ ih =>
    have ih := ih ht (fun p b1 l b2 rc b3 ph tl h => hp p b1 l b2 rc b3 ph tl (List.mem_cons_of_mem _ h))
      (fun n tl h => hl n tl (List.mem_cons_of_mem _ h))
    cases i with
    | filler f => rw [ruleFrom_filler hs hr]; exact ih _ _
    | rule p b1 l b2 rc b3 ph tl =>
      rw [ruleFrom_rule hs hr]
      have hpne := hp p b1 l b2 rc b3 ph tl List.mem_cons_self
      rcases parseQuadruplet_total R fn (ln + 1) (p, l, rc, ph) with ⟨rule, hq⟩ | ⟨e, hq⟩
      · rw [hq]
        cases p with
        | nil => exact absurd rfl hpne
        | cons c p => exact ih _ _
      · rw [hq]; exact ⟨_, rfl⟩
    | directive name tl =>
      rw [ruleFrom_directive hs hr]
      obtain ⟨x, hx⟩ := hl name tl List.mem_cons_self
      rw [hx]
      cases x with
      | error e => exact ⟨_, rfl⟩
      | ok rules => exact ih _ _

/-- Files whose includes are acyclic, and that have no empty patterns, are parsed. -/
theorem parseRule_total {U : Unicode} {R : RegexEngine} {resolver : Resolver} (rank : Str → Nat) (S : Str → Prop)
    (hrank : ∀ f g, S f → Includes U resolver f g → S g ∧ rank g < rank f)
    (hpat : ∀ f, S f → ¬ HasEmptyPattern U resolver f) {depth : Nat} {fn : Str} (hS : S fn) (hd : rank fn < depth) :
    ∃ x, parseRule U R resolver depth fn = .ok x := by
  induction depth generalizing fn with
  | zero => omega
  | succ depth ih =>
    cases hc : resolver fn with
    | error e => simp only [parseRule, hc]; exact ⟨_, rfl⟩
    | ok content =>
      rw [parseRule_succ hc]
      obtain ⟨items, t, hr, ht⟩ := reading_exists (reads := RuleItem.Reads U) (fun _ _ _ => ruleItem_shorter) content
      refine ruleFrom_total hr ht ?_ ?_ _ _
      · rintro p b1 l b2 rc b3 ph tl hm rfl
        exact hpat fn hS ⟨b1, l, b2, rc, b3, ph, tl, content, items, t, hc, hr, hm⟩
      · intro name tl hm
        obtain ⟨h1, h2⟩ := hrank fn name hS ⟨tl, content, items, t, hc, hr, hm⟩
        exact ih h1 (by omega)

/-- A result does not depend on the bound of the depth. -/
theorem ruleLoop_mono {U : Unicode} {R : RegexEngine} {load load' : Str → Res (Except PhoneticError RuleMap)} {fn : Str}
    (hl : ∀ name x, load name = .ok x → load' name = .ok x) {f : Nat} {s : Str} {ln : Nat} {m : RuleMap}
    {x : Except PhoneticError RuleMap} (h : ruleLoop U R load fn f s ln m = .ok x) :
    ruleLoop U R load' fn f s ln m = .ok x := by
  induction f generalizing s ln m with
  | zero => cases h
  | succ f ih =>
    unfold ruleLoop at h ⊢
    by_cases hs : s = []
    · subst hs; exact h
    rw [if_neg (by simpa using hs)] at h ⊢
    simp only at h ⊢
    cases hq : Parser.quadruplet s with
    | some y =>
      obtain ⟨q, rm⟩ := y
      rw [hq] at h
      simp only [bind, Except.bind] at h ⊢
      cases hp : parseQuadruplet R fn (ln + 1) q with
      | error e => rw [hp] at h; cases h
      | ok y =>
        rw [hp] at h
        cases y with
        | error e => exact h
        | ok rule =>
          simp only at h ⊢
          cases hpat : rule.pattern with
          | nil => rw [hpat] at h; cases h
          | cons c cs =>
            rw [hpat] at h
            exact ih h
    | none =>
      rw [hq] at h
      simp only at h ⊢
      cases he : Parser.endOfLine s with
      | some y => rw [he] at h; exact ih h
      | none =>
        rw [he] at h
        simp only at h ⊢
        cases hi : Parser.includeDirective U s with
        | some y =>
          obtain ⟨name, rm⟩ := y
          rw [hi] at h
          simp only [bind, Except.bind] at h ⊢
          cases hn : load name with
          | error e => rw [hn] at h; cases h
          | ok y =>
            rw [hn] at h
            rw [hl _ _ hn]
            cases y with
            | error e => exact h
            | ok rules => exact ih h
        | none =>
          rw [hi] at h
          simp only at h ⊢
          cases hm : Parser.multilineComment s with
          | some y => rw [hm] at h; exact ih h
          | none => rw [hm] at h; exact h

theorem parseRule_mono {U : Unicode} {R : RegexEngine} {resolver : Resolver} {depth : Nat} {fn : Str}
    {x : Except PhoneticError RuleMap} (h : parseRule U R resolver depth fn = .ok x) :
    parseRule U R resolver (depth + 1) fn = .ok x := by
  induction depth generalizing fn x with
  | zero => cases h
  | succ depth ih =>
    cases hc : resolver fn with
    | error e => simp only [parseRule, hc] at h ⊢; exact h
    | ok content =>
      rw [parseRule_succ hc] at h ⊢
      exact ruleLoop_mono (fun name y hy => ih hy) h

theorem parseRule_le {U : Unicode} {R : RegexEngine} {resolver : Resolver} {depth depth' : Nat} {fn : Str}
    {x : Except PhoneticError RuleMap} (hle : depth ≤ depth') (h : parseRule U R resolver depth fn = .ok x) :
    parseRule U R resolver depth' fn = .ok x := by
  induction hle with
  | refl => exact h
  | step _ ih => exact parseRule_mono ih

/-- A file that includes a file whose loading never ends. -/
theorem parseRule_diverges {U : Unicode} {R : RegexEngine} {resolver : Resolver} (S : Str → Prop)
    (h : ∀ f, S f → ∃ content items rest r name tail out, resolver f = .ok content ∧
      Reading (RuleItem.Reads U) content items rest ∧ Collects R (fun _ _ => False) f 0 items (fun _ => []) out ∧
      rest ≠ [] ∧ RuleItem.Reads U rest (.directive name tail) r ∧ S name) (depth : Nat) (fn : Str) (hS : S fn) :
    parseRule U R resolver depth fn = .error .diverge := by
  induction depth generalizing fn with
  | zero => rfl
  | succ depth ih =>
    obtain ⟨content, items, rest, r, name, tail, out, h1, h2, h3, h4, h5, h6⟩ := h fn hS
    obtain ⟨m, -, -, e⟩ := ruleFrom_collects (included := fun _ _ => False) (load := parseRule U R resolver depth)
      (fun _ _ h => h.elim) h2 proper_nil h3
    rw [parseRule_succ h1, e, ruleFrom_directive h4 h5, ih name h6]

end Verif.BMProofs
