import Verif.Props.DaitchMokotoff
/-!
# The order of Daitch-Mokotoff rules (C95)
-/

namespace Verif.DMKProofs
open Parser Spec DaitchMokotoff ParserProofs Props

theorem best_some {rules : List DMSpecRule} {text : Str} {x : DMSpecRule} (hx : x ∈ rules)
    (hp : x.pattern <+: text) : ∃ r, bestRule rules text = some r := by
  cases h : bestRule rules text with
  | some r => exact ⟨r, rfl⟩
  | none =>
    exfalso
    unfold bestRule at h
    simp only [List.find?_eq_none] at h
    have hfold : ∀ (l : List Nat) (a : Nat), l.foldl max a = a ∨ l.foldl max a ∈ l := by
      intro l
      induction l with
      | nil => intro a; exact .inl rfl
      | cons b l ih =>
        intro a
        rw [List.foldl_cons]
        rcases ih (max a b) with h | h
        · rw [h]
          rcases Nat.le_total a b with hab | hab
          · exact .inr (by rw [Nat.max_eq_right hab]; exact List.mem_cons_self)
          · exact .inl (Nat.max_eq_left hab)
        · exact .inr (List.mem_cons_of_mem _ h)
    have hatt : ∀ l : List DMSpecRule, l ≠ [] → ∃ y ∈ l, byteLen y.pattern = longest l := by
      intro l hl
      rcases hfold (l.map fun r => byteLen r.pattern) 0 with h | h
      · obtain ⟨y, hy⟩ := List.exists_mem_of_ne_nil l hl
        refine ⟨y, hy, ?_⟩
        have := le_foldl_max _ _ (List.mem_map_of_mem (f := fun r : DMSpecRule => byteLen r.pattern) hy)
        unfold longest
        omega
      · obtain ⟨y, hy, he⟩ := List.mem_map.mp h
        exact ⟨y, hy, he⟩
    have hm : x ∈ rules.filter fun r => r.pattern.isPrefixOf text := by
      rw [List.mem_filter]; exact ⟨hx, by simpa using hp⟩
    obtain ⟨y, hy, he⟩ := hatt _ (List.ne_nil_of_mem hm)
    exact h y hy (by simpa using he)

theorem prefix_same {a b text : Str} (ha : a <+: text) (hb : b <+: text) (h : byteLen a = byteLen b) : a = b := by
  rcases List.prefix_or_prefix_of_prefix ha hb with ⟨t, rfl⟩ | ⟨t, rfl⟩
  · rw [byteLen_append] at h
    rw [byteLen_eq_zero.mp (show byteLen t = 0 by omega), List.append_nil]
  · rw [byteLen_append] at h
    rw [byteLen_eq_zero.mp (show byteLen t = 0 by omega), List.append_nil]

/-- The first rule with a given pattern. -/
def firstWith (rules : List DMSpecRule) (p : Str) : Option DMSpecRule := rules.find? fun r => r.pattern == p

theorem best_first {rules : List DMSpecRule} {text : Str} {r : DMSpecRule} (h : bestRule rules text = some r) :
    firstWith rules r.pattern = some r := by
  obtain ⟨hp, before, after, e, h1, -⟩ := dm_best_rule rules text r h
  unfold firstWith
  rw [List.find?_eq_some_iff_append]
  refine ⟨by simp, before, after, e, ?_⟩
  intro x hx
  simp only [Bool.not_eq_true', beq_eq_false_iff_ne]
  intro he
  have := h1 x hx (he ▸ hp)
  rw [he] at this
  omega

theorem first_mem {rules : List DMSpecRule} {p : Str} {r : DMSpecRule} (h : firstWith rules p = some r) :
    r ∈ rules ∧ r.pattern = p := ⟨List.mem_of_find?_eq_some h, by simpa using List.find?_some h⟩

theorem best_le {rules : List DMSpecRule} {text : Str} {r x : DMSpecRule} (h : bestRule rules text = some r)
    (hx : x ∈ rules) (hp : x.pattern <+: text) : byteLen x.pattern ≤ byteLen r.pattern := by
  obtain ⟨-, before, after, e, h1, h2⟩ := dm_best_rule rules text r h
  rw [e] at hx
  rcases List.mem_append.mp hx with hx | hx
  · exact Nat.le_of_lt (h1 x hx hp)
  · rcases List.mem_cons.mp hx with rfl | hx
    · exact Nat.le_refl _
    · exact h2 x hx hp

theorem best_congr {rules rules' : List DMSpecRule} (h : ∀ p, firstWith rules p = firstWith rules' p) (text : Str) :
    bestRule rules text = bestRule rules' text := by
  have one : ∀ {rules rules' : List DMSpecRule}, (∀ p, firstWith rules p = firstWith rules' p) → ∀ r,
      bestRule rules text = some r → bestRule rules' text = some r := by
    intro rules rules' h r hr
    have hp := (dm_best_rule rules text r hr).1
    have hf := best_first hr
    have hf' : firstWith rules' r.pattern = some r := by rw [← h]; exact hf
    obtain ⟨r', hr'⟩ := best_some (first_mem hf').1 hp
    have hp' := (dm_best_rule rules' text r' hr').1
    have hb' := best_first hr'
    have l1 := best_le hr' (first_mem hf').1 hp
    have l2 := best_le hr (first_mem ((h r'.pattern).trans hb')).1 hp'
    have he := prefix_same hp hp' (by omega)
    rw [he, hb'] at hf'
    rw [hr', Option.some.inj hf']
  cases hr : bestRule rules text with
  | some r => exact (one h r hr).symm
  | none =>
    cases hr' : bestRule rules' text with
    | none => rfl
    | some r' =>
      rw [one (fun p => (h p).symm) r' hr'] at hr
      cases hr

theorem starts_congr {rules rules' : List DMSpecRule} (h : ∀ p, firstWith rules p = firstWith rules' p) (c : Char) :
    rules.all (fun r => r.pattern.head? != some c) = rules'.all (fun r => r.pattern.head? != some c) := by
  have one : ∀ {rules rules' : List DMSpecRule}, (∀ p, firstWith rules p = firstWith rules' p) →
      (∀ r ∈ rules', r.pattern.head? ≠ some c) → ∀ r ∈ rules, r.pattern.head? ≠ some c := by
    intro rules rules' h hr r hm he
    cases hf : firstWith rules r.pattern with
    | none =>
      unfold firstWith at hf
      rw [List.find?_eq_none] at hf
      exact hf r hm (by simp)
    | some x =>
      rw [h] at hf
      obtain ⟨h1, h2⟩ := first_mem hf
      exact hr x h1 (h2 ▸ he)
  rw [Bool.eq_iff_iff]
  simp only [List.all_eq_true, bne_iff_ne]
  exact ⟨one fun p => (h p).symm, one h⟩

theorem groups_congr {rules rules' : List DMSpecRule} (h : ∀ p, firstWith rules p = firstWith rules' p)
    (text : Str) (prev : Option Char) (skip : Nat) : dmGroups rules prev skip text = dmGroups rules' prev skip text := by
  induction text generalizing prev skip with
  | nil => cases skip <;> rfl
  | cons c text ih =>
    cases skip with
    | succ n => exact ih prev n
    | zero =>
      unfold dmGroups
      rw [starts_congr h c, best_congr h (c :: text)]
      split
      · exact ih _ _
      · split
        · exact ih _ _
        · rw [ih]

theorem patterns_nonempty {items : List DMItem} (hl : EveryItem (fun r i => i.Legal r ∧ i.Clear r) [] items) :
    ∀ i ∈ items, ∀ r, itemRule i = some r → r.pattern ≠ [] := by
  have : ∀ rest, EveryItem (fun r i => i.Legal r ∧ i.Clear r) rest items →
      ∀ i ∈ items, ∀ r, itemRule i = some r → r.pattern ≠ [] := by
    intro rest h
    clear hl
    induction items with
    | nil => simp
    | cons j items ih =>
      intro i hi r hr
      rcases List.mem_cons.mp hi with rfl | hi
      · cases i with
        | rule p b1 s b2 v b3 o tl => cases hr; exact h.1.2
        | fold a b tl => cases hr
        | blank tl => cases hr
        | block text tl => cases hr
      · exact ih h.2 i hi r hr
  exact this [] hl

end Verif.DMKProofs

namespace Verif.Props
open Spec DaitchMokotoff DMKProofs

/-- C95. Only the first rule of each pattern and the last folding of each character matter: two rule files that agree on
these give encoders with the same codes (and panics) on every text, wherever their rules, comments and blanks are. -/
theorem dm_rules_that_matter (items items' : List DMItem) (folding : Bool)
    (hl : EveryItem (fun r i => i.Legal r ∧ i.Clear r) [] items)
    (hl' : EveryItem (fun r i => i.Legal r ∧ i.Clear r) [] items')
    (hr : ∀ p, ((dmRules items).find? fun r => r.pattern == p) = (dmRules items').find? fun r => r.pattern == p)
    (hf : folding = true → ∀ c, dmFold items c = dmFold items' c) :
    ∃ d d', Builder.build ⟨dmPrint items, folding⟩ = .ok (.ok d) ∧
      Builder.build ⟨dmPrint items', folding⟩ = .ok (.ok d') ∧
      ∀ U v, d.encode U v = d'.encode U v ∧ d.soundex U v = d'.soundex U v ∧
        ∀ branching, d.innerSoundex U v branching = d'.innerSoundex U v branching := by
  refine ⟨_, _, encoderOf_build items folding hl, encoderOf_build items' folding hl', fun U v => ?_⟩
  have h : ∀ branching, innerSoundex U (encoderOf folding items) v branching =
      innerSoundex U (encoderOf folding items') v branching := by
    intro branching
    have hn : dmNormalise U folding (dmFold items) v = dmNormalise U folding (dmFold items') v := by
      cases folding with
      | false => rfl
      | true => rw [funext (hf rfl)]
    rw [innerSoundex_any (patterns_nonempty hl), innerSoundex_any (patterns_nonempty hl'), hn, groups_congr hr]
  refine ⟨?_, ?_, h⟩
  · unfold encode; rw [h]
  · unfold soundex; rw [h]

/-- The foldings of a file, in order. -/
def dmFoldings (items : List DMItem) : List (Char × Char) :=
  items.filterMap fun
    | .fold a b _ => some (a, b)
    | _ => none

theorem dmFold_eq (items : List DMItem) (c : Char) :
    dmFold items c = ((dmFoldings items).filterMap fun x => if x.1 = c then some x.2 else none).getLast? := by
  unfold dmFold dmFoldings
  rw [List.filterMap_filterMap]
  congr 2
  funext i
  cases i <;> rfl

/-- C95. In particular the lines of a rule file can be put into any order, provided each pattern and each folded character
occurs once. -/
theorem dm_rule_order (items items' : List DMItem) (folding : Bool)
    (hl : EveryItem (fun r i => i.Legal r ∧ i.Clear r) [] items)
    (hl' : EveryItem (fun r i => i.Legal r ∧ i.Clear r) [] items')
    (hr : (dmRules items).Perm (dmRules items')) (hn : ((dmRules items).map DMSpecRule.pattern).Nodup)
    (hf : (dmFoldings items).Perm (dmFoldings items')) (hm : ((dmFoldings items).map Prod.fst).Nodup) :
    ∃ d d', Builder.build ⟨dmPrint items, folding⟩ = .ok (.ok d) ∧
      Builder.build ⟨dmPrint items', folding⟩ = .ok (.ok d') ∧
      ∀ U v, d.encode U v = d'.encode U v ∧ d.soundex U v = d'.soundex U v ∧
        ∀ branching, d.innerSoundex U v branching = d'.innerSoundex U v branching := by
  refine dm_rules_that_matter items items' folding hl hl' (fun p => ?_) fun _ c => ?_
  case refine_2 =>
    rw [dmFold_eq, dmFold_eq]
    have hp := hf.filterMap fun x => if x.1 = c then some x.2 else none
    have hlen : ∀ l : List (Char × Char), (l.map Prod.fst).Nodup →
        (l.filterMap fun x => if x.1 = c then some x.2 else none).length ≤ 1 := by
      intro l
      induction l with
      | nil => intro _; exact Nat.zero_le _
      | cons x l ih =>
        intro h
        rw [List.map_cons, List.nodup_cons] at h
        by_cases hx : x.1 = c
        · have : (l.filterMap fun x => if x.1 = c then some x.2 else none) = [] := by
            rw [List.filterMap_eq_nil_iff]
            intro y hy
            rw [if_neg]
            intro hc
            exact h.1 (by rw [hx, ← hc]; exact List.mem_map_of_mem hy)
          simp [hx, this]
        · simpa [hx] using ih h.2
    have h1 := hlen _ hm
    generalize (dmFoldings items).filterMap (fun x => if x.1 = c then some x.2 else none) = a at hp h1
    generalize (dmFoldings items').filterMap (fun x => if x.1 = c then some x.2 else none) = b at hp
    match a, h1 with
    | [], _ => rw [List.nil_perm.mp hp]
    | [x], _ => rw [List.singleton_perm.mp hp]
  have key : ∀ {a b : List DMSpecRule}, a.Perm b → (b.map DMSpecRule.pattern).Nodup → ∀ r,
      a.find? (fun r => r.pattern == p) = some r → b.find? (fun r => r.pattern == p) = some r := by
    intro a b hab hb r h
    have h1 := (hab.mem_iff).mp (List.mem_of_find?_eq_some h)
    have h2 : r.pattern = p := by simpa using List.find?_some h
    obtain ⟨s, t, rfl⟩ := List.append_of_mem h1
    rw [List.find?_eq_some_iff_append]
    refine ⟨by simp [h2], s, t, rfl, fun x hx => ?_⟩
    simp only [Bool.not_eq_true', beq_eq_false_iff_ne]
    intro he
    rw [List.map_append, List.nodup_append] at hb
    exact hb.2.2 x.pattern (List.mem_map_of_mem hx) r.pattern (by simp) (he.trans h2.symm)
  have hn' : ((dmRules items').map DMSpecRule.pattern).Nodup := (hr.map _).nodup_iff.mp hn
  cases h : (dmRules items).find? (fun r => r.pattern == p) with
  | some r => exact (key hr hn' r h).symm
  | none =>
    cases h' : (dmRules items').find? (fun r => r.pattern == p) with
    | none => rfl
    | some r => rw [key hr.symm hn r h'] at h; cases h

/-- The rules of `sampleItems` in another order, without comments. -/
def sampleReordered : List DMItem := [
  .fold 'à' 'a' ⟨c!" ", none, c!"\n"⟩,
  .rule c!"s" c!"  " c!"4" c!" " c!"4" c!" " c!"4" ⟨[], none, c!"\n"⟩,
  .rule c!"sh" c!" " c!"0" c!" " c!"" c!" " c!"0|1" ⟨[], none, c!"\n"⟩]

theorem dm_rule_order_example : EveryItem (fun r i => i.Legal r ∧ i.Clear r) [] sampleItems ∧
    EveryItem (fun r i => i.Legal r ∧ i.Clear r) [] sampleReordered ∧
    (dmRules sampleItems).Perm (dmRules sampleReordered) ∧ dmRules sampleItems ≠ dmRules sampleReordered ∧
    ((dmRules sampleItems).map DMSpecRule.pattern).Nodup ∧
    (dmFoldings sampleItems).Perm (dmFoldings sampleReordered) ∧ ((dmFoldings sampleItems).map Prod.fst).Nodup := by
  have W : ∀ (t : Tail) (r : Str), (∀ c ∈ t.blanks, isSpaceTab c = true) →
      (∀ c, t.comment = some c → '\n' ∉ c ∧ t.ending ≠ ['\r', '\n']) →
      (t.ending = ['\n'] ∨ t.ending = ['\r', '\n'] ∨ (t.ending = [] ∧ r = [])) → t.WF r :=
    fun t r a b c => ⟨a, b, c⟩
  refine ⟨sample_legal, ⟨⟨?_, show 'à' ≠ '"' by decide⟩,
    ⟨⟨by decide, ?_, by decide, ?_, by decide, ?_, by decide, ?_⟩, List.cons_ne_nil _ _⟩,
    ⟨⟨by decide, ?_, by decide, ?_, by decide, ?_, by decide, ?_⟩, List.cons_ne_nil _ _⟩, trivial⟩,
    List.isPerm_iff.mp (by decide +kernel), by decide +kernel, by decide +kernel,
    List.isPerm_iff.mp (by decide +kernel), by decide +kernel⟩
  all_goals first
    | exact ⟨by decide, by decide⟩
    | exact W _ _ (by decide) (by decide) (.inl rfl)

/-- Two rules with the same pattern: the first counts, so their order does matter. -/
theorem dm_repeated_pattern :
    ∃ d d', (Builder.withRules c!"\"s\" \"4\" \"4\" \"4\"\n\"s\" \"5\" \"5\" \"5\"\n").build = .ok (.ok d) ∧
      (Builder.withRules c!"\"s\" \"5\" \"5\" \"5\"\n\"s\" \"4\" \"4\" \"4\"\n").build = .ok (.ok d') ∧
      d.encode .latin1 c!"s" = .ok c!"400000" ∧ d'.encode .latin1 c!"s" = .ok c!"500000" :=
  ⟨⟨true, [('s', [⟨c!"s", [c!"4"], [c!"4"], [c!"4"]⟩, ⟨c!"s", [c!"5"], [c!"5"], [c!"5"]⟩])], []⟩,
    ⟨true, [('s', [⟨c!"s", [c!"5"], [c!"5"], [c!"5"]⟩, ⟨c!"s", [c!"4"], [c!"4"], [c!"4"]⟩])], []⟩,
    by decide +kernel, by decide +kernel, by decide +kernel, by decide +kernel⟩

end Verif.Props
