import Verif.Props.CodesDaitchMokotoff
import Verif.Proofs.Interchange
/-!
# Letters that Daitch-Mokotoff Soundex confuses, and letters that may be written twice (C100, C101)
-/

set_option linter.unusedSimpArgs false
set_option linter.unusedVariables false

namespace Verif.DMKProofs
open Parser Spec DaitchMokotoff ParserProofs

/-! ## Groups that repeat the group before -/

/-- Groups with the same codes after every beginning. -/
def SameGroups (gs hs : List (List Str × Bool)) : Prop := ∀ ps, gs.foldl pathStep ps = hs.foldl pathStep ps

theorem SameGroups.rfl' (gs : List (List Str × Bool)) : SameGroups gs gs := fun _ => rfl

theorem SameGroups.cons {gs hs : List (List Str × Bool)} (g : List Str × Bool) (h : SameGroups gs hs) :
    SameGroups (g :: gs) (g :: hs) := fun ps => h _

theorem SameGroups.symm {gs hs : List (List Str × Bool)} (h : SameGroups gs hs) : SameGroups hs gs := fun ps => (h ps).symm

theorem SameGroups.trans {gs hs ks : List (List Str × Bool)} (h : SameGroups gs hs) (h' : SameGroups hs ks) : SameGroups gs ks :=
  fun ps => (h ps).trans (h' ps)

theorem eraseDups_of_nodup {α : Type} [BEq α] [LawfulBEq α] (l : List α) (h : l.Nodup) : l.eraseDups = l := by
  induction l with
  | nil => rfl
  | cons a l ih =>
    rw [List.eraseDups_cons]
    obtain ⟨h1, h2⟩ := List.nodup_cons.mp h
    have : l.filter (fun b => !b == a) = l := by
      rw [List.filter_eq_self]
      intro b hb
      simp only [Bool.not_eq_true', beq_eq_false_iff_ne]
      rintro rfl
      exact h1 hb
    rw [this, ih h2]

theorem SameGroups.again (a : Str) (gs : List (List Str × Bool)) :
    SameGroups (([a], false) :: ([a], false) :: gs) (([a], false) :: gs) := by
  intro ps
  simp only [List.foldl_cons]
  congr 1
  have h1 : ∀ p ∈ pathStep ps ([a], false), p.last = some a := by
    intro p hp
    have := mem_eraseDups hp
    obtain ⟨q, _, hq⟩ := List.mem_flatMap.mp this
    simp only [List.map_cons, List.map_nil, List.mem_singleton] at hq
    rw [hq]; rfl
  have h2 : (pathStep ps ([a], false)).Nodup := nodup_eraseDups _
  generalize pathStep ps ([a], false) = qs at h1 h2
  unfold pathStep
  have : (qs.flatMap fun p => [a].map (p.add false)) = qs := by
    clear h2
    induction qs with
    | nil => rfl
    | cons q qs ih =>
      rw [List.flatMap_cons, ih fun p hp => h1 p (List.mem_cons_of_mem _ hp)]
      have hq := h1 q (by simp)
      have : q.add false a = q := by
        unfold Partial.add
        rw [hq]
        have hs : a.isSuffixOf a = true := List.isSuffixOf_iff_suffix.mpr (List.suffix_refl _)
        simp only [hs, Bool.not_false, Bool.and_true, if_true]
        cases q
        simp only at hq
        rw [hq]
      simp [this]
  rw [this, eraseDups_of_nodup _ h2]

theorem dmCodes_same {rules : List DMSpecRule} {s t : Str} (h : SameGroups (dmGroups rules none 0 s) (dmGroups rules none 0 t)) :
    dmCodes rules s = dmCodes rules t := by
  unfold dmCodes dmPaths
  exact congrArg _ (h _)

/-! ## One step over the text -/

theorem groups_drop (rules : List DMSpecRule) (t : Str) : ∀ (prev : Option Char) (k : Nat),
    dmGroups rules prev k t = dmGroups rules prev 0 (t.drop k) := by
  induction t with
  | nil => intro prev k; cases k <;> simp [dmGroups]
  | cons c t ih =>
    intro prev k
    cases k with
    | zero => rfl
    | succ k => rw [dmGroups, ih, List.drop_succ_cons]

/-- Previous letters that make no difference. -/
def SamePrev (p q : Option Char) : Prop :=
  ((p = none ∨ p = some '\x00') ↔ (q = none ∨ q = some '\x00')) ∧ (p = some 'm' ↔ q = some 'm') ∧ (p = some 'n' ↔ q = some 'n')

theorem SamePrev.refl (p : Option Char) : SamePrev p p := ⟨Iff.rfl, Iff.rfl, Iff.rfl⟩

theorem SamePrev.alternatives {p q : Option Char} (h : SamePrev p q) (r : DMSpecRule) (t : Str) :
    alternativesAt r p t = alternativesAt r q t := by
  unfold alternativesAt
  by_cases hp : p = none ∨ p = some '\x00'
  · rw [if_pos hp, if_pos (h.1.mp hp)]
  · rw [if_neg hp, if_neg (fun hq => hp (h.1.mpr hq))]

theorem SamePrev.mn {p q : Option Char} (h : SamePrev p q) (c : Char) : mn p c = mn q c := by
  unfold Spec.mn
  have e1 : (p == some 'm') = (q == some 'm') := by rw [Bool.eq_iff_iff]; simpa using h.2.1
  have e2 : (p == some 'n') = (q == some 'n') := by rw [Bool.eq_iff_iff]; simpa using h.2.2
  rw [e1, e2]

theorem SamePrev.groups {p q : Option Char} (h : SamePrev p q) (rules : List DMSpecRule) (t : Str) :
    dmGroups rules p 0 t = dmGroups rules q 0 t := by
  induction t with
  | nil => simp [dmGroups]
  | cons c t ih =>
    rw [dmGroups, dmGroups]
    split
    · exact ih
    · cases bestRule rules (c :: t) with
      | none => rfl
      | some r => simp only [h.alternatives, h.mn]

theorem samePrev_of {a b : Char} (ha : a ≠ '\x00' ∧ a ≠ 'm' ∧ a ≠ 'n') (hb : b ≠ '\x00' ∧ b ≠ 'm' ∧ b ≠ 'n') :
    SamePrev (some a) (some b) := by
  refine ⟨?_, ?_, ?_⟩ <;> simp [ha.1, ha.2.1, ha.2.2, hb.1, hb.2.1, hb.2.2]

/-- The group of a text whose first pattern is known. -/
theorem groups_rule {rules : List DMSpecRule} (hd : Default rules) {c : Char} {p rest : Str}
    (hp : (ruleFor (c :: p)).pattern = c :: p) (hpre : p <+: rest)
    (hall : ∀ x ∈ rules, x.pattern.head? = some c → x.pattern <+: c :: rest → x = ruleFor (c :: p) ∨
      byteLen x.pattern < byteLen (c :: p)) (prev : Option Char) :
    dmGroups rules prev 0 (c :: rest) = (alternativesAt (ruleFor (c :: p)) prev (c :: rest), mn prev c) ::
      dmGroups rules (some c) 0 (rest.drop (byteLen (c :: p) - 1)) := by
  have hm := ruleFor_mem hd (c :: p) (by rw [hp]; simp)
  have hb : bestRule rules (c :: rest) = some (ruleFor (c :: p)) := by
    refine bestRule_unique hm ?_ ?_
    · rw [hp, List.isPrefixOf_iff_prefix, List.cons_prefix_cons]
      exact ⟨rfl, hpre⟩
    · intro x hx hxp
      rw [List.isPrefixOf_iff_prefix] at hxp
      have hne : x.pattern ≠ [] := by
        refine hd.all (fun r => r.pattern ≠ []) ?_ x hx
        have : ∀ e ∈ defaultEncoder.rules, ∀ r ∈ e.2, r.pattern ≠ [] := by decide +kernel
        exact fun e he r hr => this e he r hr
      rw [hp]
      refine hall x hx ?_ hxp
      cases hxe : x.pattern with
      | nil => exact absurd hxe hne
      | cons e w =>
        rw [hxe, List.cons_prefix_cons] at hxp
        rw [hxp.1]; rfl
  rw [dmGroups, if_neg, hb]
  · dsimp only
    rw [hp, groups_drop]
  · simp only [Bool.not_eq_true, List.all_eq_false, bne_iff_ne, ne_eq, Decidable.not_not]
    exact ⟨_, hm, by rw [hp]; rfl⟩

theorem default_all {rules : List DMSpecRule} (hd : Default rules) (Q : DMSpecRule → Bool)
    (h : (defaultEncoder.rules.all fun e => e.2.all fun r => Q (toSpec r)) = true) : ∀ x ∈ rules, Q x = true := by
  refine hd.all (fun x => Q x = true) ?_
  intro e he r hr
  exact List.all_eq_true.mp (List.all_eq_true.mp h e he) r hr

/-- The letters with only one pattern, the letter itself, and always the same code. -/
theorem groups_flat {rules : List DMSpecRule} (hd : Default rules) {c a : Char}
    (hc : (c, a) ∈ [('b', '7'), ('v', '7'), ('w', '7'), ('g', '5'), ('q', '5'), ('l', '8')]) (prev : Option Char) (rest : Str) :
    dmGroups rules prev 0 (c :: rest) = ([[a]], false) :: dmGroups rules (some c) 0 rest := by
  have facts : ∀ x ∈ [('b', '7'), ('v', '7'), ('w', '7'), ('g', '5'), ('q', '5'), ('l', '8')],
      ruleFor [x.1] = ⟨[x.1], [[x.2]], [[x.2]], [[x.2]]⟩ ∧ x.1 ≠ 'm' ∧ x.1 ≠ 'n' ∧ byteLen [x.1] = 1 ∧
      (defaultEncoder.rules.all fun e => e.2.all fun r =>
        !((toSpec r).pattern.head? == some x.1) || decide (toSpec r = ruleFor [x.1])) = true := by decide +kernel
  obtain ⟨h1, h2, h3, h4, h5⟩ := facts _ hc
  rw [groups_rule hd (p := []) (by rw [h1]) (List.nil_prefix) ?_ prev, h1, h4]
  · have e1 : mn prev c = false := by simp [Spec.mn, h2, h3]
    have e2 : alternativesAt ⟨[c], [[a]], [[a]], [[a]]⟩ prev (c :: rest) = [[a]] := by
      unfold alternativesAt
      split
      · rfl
      · split
        · split <;> rfl
        · rfl
    rw [e1, e2]; rfl
  · intro x hx hh _
    have := default_all hd (fun r => !(r.pattern.head? == some c) || decide (r = ruleFor [c])) h5 x hx
    simp only [hh, beq_self_eq_true, Bool.not_true, Bool.false_or, decide_eq_true_eq] at this
    exact .inl this


/-- The columns of a rule with the same code everywhere. -/
theorem alternatives_flat (p : Str) (a : List Str) (prev : Option Char) (t : Str) :
    alternativesAt ⟨p, a, a, a⟩ prev t = a := by
  unfold alternativesAt
  split
  · rfl
  · split
    · split <;> rfl
    · rfl

theorem groups_f {rules : List DMSpecRule} (hd : Default rules) (prev : Option Char) (rest : Str) :
    dmGroups rules prev 0 ('f' :: rest) = ([['7']], false) ::
      if ['b'] <+: rest then dmGroups rules (some 'f') 0 (rest.drop 1) else dmGroups rules (some 'f') 0 rest := by
  have facts : ruleFor c!"f" = ⟨c!"f", [c!"7"], [c!"7"], [c!"7"]⟩ ∧ ruleFor c!"fb" = ⟨c!"fb", [c!"7"], [c!"7"], [c!"7"]⟩ ∧
      (defaultEncoder.rules.all fun e => e.2.all fun r =>
        !((toSpec r).pattern.head? == some 'f') || decide (toSpec r = ruleFor c!"f") || decide (toSpec r = ruleFor c!"fb")) = true := by
    decide +kernel
  obtain ⟨h1, h2, h5⟩ := facts
  have hm : mn prev 'f' = false := by simp [Spec.mn]
  have ha := default_all hd (fun r => !(r.pattern.head? == some 'f') || decide (r = ruleFor c!"f") || decide (r = ruleFor c!"fb")) h5
  by_cases hb : ['b'] <+: rest
  · rw [if_pos hb, groups_rule hd (p := c!"b") (by rw [h2]) hb ?_ prev, h2, alternatives_flat, hm]
    · rfl
    · intro x hx hh _
      have := ha x hx
      simp only [hh, beq_self_eq_true, Bool.not_true, Bool.false_or, Bool.or_eq_true, decide_eq_true_eq] at this
      rcases this with h | h
      · right; rw [h, h1]; decide
      · exact .inl h
  · rw [if_neg hb, groups_rule hd (p := []) (by rw [h1]) List.nil_prefix ?_ prev, h1, alternatives_flat, hm]
    · rfl
    · intro x hx hh hp
      have := ha x hx
      simp only [hh, beq_self_eq_true, Bool.not_true, Bool.false_or, Bool.or_eq_true, decide_eq_true_eq] at this
      rcases this with h | h
      · exact .inl h
      · rw [h, h2] at hp
        exact absurd (List.cons_prefix_cons.mp hp).2 hb

theorem groups_p {rules : List DMSpecRule} (hd : Default rules) (prev : Option Char) (rest : Str) :
    dmGroups rules prev 0 ('p' :: rest) = ([['7']], false) ::
      if ['f'] <+: rest ∨ ['h'] <+: rest then dmGroups rules (some 'p') 0 (rest.drop 1) else dmGroups rules (some 'p') 0 rest := by
  have facts : ruleFor c!"p" = ⟨c!"p", [c!"7"], [c!"7"], [c!"7"]⟩ ∧ ruleFor c!"pf" = ⟨c!"pf", [c!"7"], [c!"7"], [c!"7"]⟩ ∧
      ruleFor c!"ph" = ⟨c!"ph", [c!"7"], [c!"7"], [c!"7"]⟩ ∧
      (defaultEncoder.rules.all fun e => e.2.all fun r =>
        !((toSpec r).pattern.head? == some 'p') || decide (toSpec r = ruleFor c!"p") || decide (toSpec r = ruleFor c!"pf") ||
          decide (toSpec r = ruleFor c!"ph")) = true := by
    decide +kernel
  obtain ⟨h1, h2, h3, h5⟩ := facts
  have hm : mn prev 'p' = false := by simp [Spec.mn]
  have ha := default_all hd (fun r => !(r.pattern.head? == some 'p') || decide (r = ruleFor c!"p") || decide (r = ruleFor c!"pf") ||
    decide (r = ruleFor c!"ph")) h5
  have ha' : ∀ x ∈ rules, x.pattern.head? = some 'p' → x = ruleFor c!"p" ∨ x = ruleFor c!"pf" ∨ x = ruleFor c!"ph" := by
    intro x hx hh
    have := ha x hx
    simp only [hh, beq_self_eq_true, Bool.not_true, Bool.false_or, Bool.or_eq_true, decide_eq_true_eq] at this
    rcases this with (h | h) | h
    · exact .inl h
    · exact .inr (.inl h)
    · exact .inr (.inr h)
  have no : ∀ {a b : Char}, a ≠ b → [a] <+: rest → ¬ [b] <+: rest := by
    intro a b hab h h'
    cases rest with
    | nil => cases List.prefix_nil.mp h
    | cons d r =>
      exact hab ((List.cons_prefix_cons.mp h).1.trans (List.cons_prefix_cons.mp h').1.symm)
  by_cases hf : ['f'] <+: rest
  · rw [if_pos (.inl hf), groups_rule hd (p := c!"f") (by rw [h2]) hf ?_ prev, h2, alternatives_flat, hm]
    · rfl
    · intro x hx hh hp
      rcases ha' x hx hh with h | h | h
      · right; rw [h, h1]; decide
      · exact .inl h
      · rw [h, h3] at hp
        exact absurd (List.cons_prefix_cons.mp hp).2 (no (by decide) hf)
  · by_cases hh' : ['h'] <+: rest
    · rw [if_pos (.inr hh'), groups_rule hd (p := c!"h") (by rw [h3]) hh' ?_ prev, h3, alternatives_flat, hm]
      · rfl
      · intro x hx hh hp
        rcases ha' x hx hh with h | h | h
        · right; rw [h, h1]; decide
        · rw [h, h2] at hp
          exact absurd (List.cons_prefix_cons.mp hp).2 hf
        · exact .inl h
    · rw [if_neg (by simp [hf, hh']), groups_rule hd (p := []) (by rw [h1]) List.nil_prefix ?_ prev, h1, alternatives_flat, hm]
      · rfl
      · intro x hx hh hp
        rcases ha' x hx hh with h | h | h
        · exact .inl h
        · rw [h, h2] at hp
          exact absurd (List.cons_prefix_cons.mp hp).2 hf
        · rw [h, h3] at hp
          exact absurd (List.cons_prefix_cons.mp hp).2 hh'

theorem groups_x {rules : List DMSpecRule} (hd : Default rules) {prev : Option Char} (hp : ¬ (prev = none ∨ prev = some '\x00'))
    (rest : Str) : dmGroups rules prev 0 ('x' :: rest) = ([c!"54"], false) :: dmGroups rules (some 'x') 0 rest := by
  have facts : ruleFor c!"x" = ⟨c!"x", [c!"5"], [c!"54"], [c!"54"]⟩ ∧
      (defaultEncoder.rules.all fun e => e.2.all fun r =>
        !((toSpec r).pattern.head? == some 'x') || decide (toSpec r = ruleFor c!"x")) = true := by
    decide +kernel
  obtain ⟨h1, h5⟩ := facts
  have hm : mn prev 'x' = false := by simp [Spec.mn]
  have ha := default_all hd (fun r => !(r.pattern.head? == some 'x') || decide (r = ruleFor c!"x")) h5
  rw [groups_rule hd (p := []) (by rw [h1]) List.nil_prefix ?_ prev, h1, hm]
  · have : alternativesAt ⟨c!"x", [c!"5"], [c!"54"], [c!"54"]⟩ prev ('x' :: rest) = [c!"54"] := by
      unfold alternativesAt
      rw [if_neg hp]
      split
      · split <;> rfl
      · rfl
    rw [this]; rfl
  · intro x hx hh _
    have := ha x hx
    simp only [hh, beq_self_eq_true, Bool.not_true, Bool.false_or, decide_eq_true_eq] at this
    exact .inl this

/-! ## Letters that are confused -/

/-- F, V and W are coded as B, Q as G. -/
def dmCanon (c : Char) : Char := if c = 'f' ∨ c = 'v' ∨ c = 'w' then 'b' else if c = 'q' then 'g' else c

theorem dm_all {P : Char → Prop} (h1 : ∀ c, dmCanon c = c → P c) (h2 : ∀ c ∈ c!"fvwq", P c) (c : Char) : P c := by
  by_cases hc : c ∈ c!"fvwq"
  · exact h2 c hc
  · refine h1 c ?_
    simp only [List.mem_cons, List.not_mem_nil, or_false, not_or] at hc
    unfold dmCanon
    simp only [hc.1, hc.2.1, hc.2.2.1, hc.2.2.2, or_self, if_false]

theorem dmCanon_eq {k : Char} (hk : k ∉ c!"bfvwgq") (c : Char) : dmCanon c = k ↔ c = k := by
  simp only [List.mem_cons, List.not_mem_nil, or_false, not_or] at hk
  obtain ⟨a1, a2, a3, a4, a5, a6⟩ := hk
  refine dm_all (P := fun c => dmCanon c = k ↔ c = k) (fun c h => by rw [h]) ?_ c
  intro c hc
  simp only [List.mem_cons, List.not_mem_nil, or_false] at hc
  rcases hc with rfl | rfl | rfl | rfl
  · exact ⟨fun h => absurd h.symm a1, fun h => absurd h.symm a2⟩
  · exact ⟨fun h => absurd h.symm a1, fun h => absurd h.symm a3⟩
  · exact ⟨fun h => absurd h.symm a1, fun h => absurd h.symm a4⟩
  · exact ⟨fun h => absurd h.symm a5, fun h => absurd h.symm a6⟩

theorem canon_prefix {w : Str} (hw : ∀ c ∈ w, c ∉ c!"bfvwgq") (t : Str) : (w <+: t.map dmCanon) ↔ (w <+: t) := by
  induction w generalizing t with
  | nil => simp
  | cons c w ih =>
    cases t with
    | nil => simp
    | cons d t =>
      simp only [List.map_cons, List.cons_prefix_cons, ih (fun x hx => hw x (by simp [hx])) t]
      have := dmCanon_eq (hw c (by simp)) d
      rw [eq_comm, this, eq_comm]

theorem canon_vowel (c : Char) : c!"aeiou".contains (dmCanon c) = c!"aeiou".contains c :=
  dm_all (P := fun c => c!"aeiou".contains (dmCanon c) = c!"aeiou".contains c) (fun c h => by rw [h]) (by decide) c

theorem canon_alternatives (r : DMSpecRule) (prev : Option Char) (t : Str) :
    alternativesAt r prev (t.map dmCanon) = alternativesAt r prev t := by
  unfold alternativesAt
  rw [List.getElem?_map]
  cases t[byteLen r.pattern]? with
  | none => rfl
  | some c => simp only [Option.map_some, canon_vowel]

/-- Groups of the text with the letters of a group replaced by the first of them. -/
theorem groups_canon {rules : List DMSpecRule} (hd : Default rules) (n : Nat) : ∀ (t : Str), t.length ≤ n → ∀ prev,
    SameGroups (dmGroups rules prev 0 t) (dmGroups rules prev 0 (t.map dmCanon)) := by
  induction n with
  | zero =>
    intro t ht prev
    cases t with
    | nil => exact SameGroups.rfl' _
    | cons c t => simp at ht
  | succ n ih =>
    intro t ht prev
    cases t with
    | nil => exact SameGroups.rfl' _
    | cons c t =>
      have hl : t.length ≤ n := by simpa using ht
      have ih0 := ih t hl
      have ok : ∀ a ∈ c!"bfvwgqp", a ≠ '\x00' ∧ a ≠ 'm' ∧ a ≠ 'n' := by decide
      have change : ∀ a ∈ c!"bfvwgqp", ∀ b ∈ c!"bfvwgqp", ∀ s, dmGroups rules (some a) 0 s = dmGroups rules (some b) 0 s :=
        fun a ha b hb s => (samePrev_of (ok a ha) (ok b hb)).groups rules s
      by_cases hc : c ∈ c!"bfvwgqp"
      · have hm : ∀ (d : Char) (s : Str), ([d] <+: s) → s = d :: s.drop 1 := by
          rintro d s ⟨r, rfl⟩; rfl
        simp only [List.mem_cons, List.not_mem_nil, or_false] at hc
        rcases hc with rfl | rfl | rfl | rfl | rfl | rfl | rfl
        · rw [List.map_cons, show dmCanon 'b' = 'b' from rfl, groups_flat hd (a := '7') (by decide), groups_flat hd (a := '7') (by decide)]
          exact (ih0 _).cons _
        · rw [List.map_cons, show dmCanon 'f' = 'b' from rfl, groups_f hd, groups_flat hd (a := '7') (by decide)]
          by_cases hb : ['b'] <+: t
          · rw [if_pos hb]
            have e := hm _ _ hb
            generalize hs : t.drop 1 = s at e
            subst e
            rw [List.map_cons, show dmCanon 'b' = 'b' from rfl, groups_flat hd (c := 'b') (a := '7') (by decide)]
            refine SameGroups.trans ?_ (SameGroups.again _ _).symm
            rw [change 'f' (by decide) 'b' (by decide)]
            exact (ih s (by simp at hl; omega) _).cons _
          · rw [if_neg hb, change 'f' (by decide) 'b' (by decide)]
            exact (ih0 _).cons _
        · rw [List.map_cons, show dmCanon 'v' = 'b' from rfl, groups_flat hd (a := '7') (by decide), groups_flat hd (a := '7') (by decide),
            change 'v' (by decide) 'b' (by decide)]
          exact (ih0 _).cons _
        · rw [List.map_cons, show dmCanon 'w' = 'b' from rfl, groups_flat hd (a := '7') (by decide), groups_flat hd (a := '7') (by decide),
            change 'w' (by decide) 'b' (by decide)]
          exact (ih0 _).cons _
        · rw [List.map_cons, show dmCanon 'g' = 'g' from rfl, groups_flat hd (a := '5') (by decide), groups_flat hd (a := '5') (by decide)]
          exact (ih0 _).cons _
        · rw [List.map_cons, show dmCanon 'q' = 'g' from rfl, groups_flat hd (a := '5') (by decide), groups_flat hd (a := '5') (by decide),
            change 'q' (by decide) 'g' (by decide)]
          exact (ih0 _).cons _
        · have nf : ¬ ['f'] <+: t.map dmCanon := by
            cases t with
            | nil => simp
            | cons d t =>
              rw [List.map_cons, List.cons_prefix_cons]
              rintro ⟨h, _⟩
              exact dm_all (P := fun d => 'f' ≠ dmCanon d) (fun c h => by
                rw [h]; rintro rfl; revert h; decide) (by decide) d h
          rw [List.map_cons, show dmCanon 'p' = 'p' from rfl, groups_p hd, groups_p hd]
          by_cases hf : ['f'] <+: t
          · have e := hm _ _ hf
            have nh : ¬ ['h'] <+: t.map dmCanon := by
              rw [e, List.map_cons, List.cons_prefix_cons]
              rintro ⟨h, _⟩
              revert h; decide
            rw [if_pos (.inl hf), if_neg (by simp only [nf, nh, or_self, not_false_eq_true])]
            generalize hs : t.drop 1 = s at e
            subst e
            rw [List.map_cons, show dmCanon 'f' = 'b' from rfl, groups_flat hd (c := 'b') (a := '7') (by decide)]
            refine SameGroups.trans ?_ (SameGroups.again _ _).symm
            rw [change 'p' (by decide) 'b' (by decide)]
            exact (ih s (by simp at hl; omega) _).cons _
          · by_cases hh : ['h'] <+: t
            · rw [if_pos (.inr hh), if_pos (.inr ((canon_prefix (by decide) t).mpr hh)), ← List.map_drop]
              exact (ih _ (by simp; omega) _).cons _
            · have hh' : ¬ ['h'] <+: t.map dmCanon := fun h => hh ((canon_prefix (by decide) t).mp h)
              rw [if_neg (by simp only [hf, hh, or_self, not_false_eq_true]), if_neg (by simp only [nf, hh', or_self, not_false_eq_true])]
              exact (ih0 _).cons _
      · have hcc : dmCanon c = c := by
          simp only [List.mem_cons, List.not_mem_nil, or_false, not_or] at hc
          unfold dmCanon
          simp [hc]
        have pat : ∀ x ∈ rules, x.pattern.head? = some c → ∀ d ∈ x.pattern, d ∉ c!"bfvwgq" := by
          have := default_all hd (fun r => c!"bfvwgqp".contains (r.pattern.headD 'b') || r.pattern.all fun d => !c!"bfvwgq".contains d)
            (by decide +kernel)
          intro x hx hh d hm
          have h := this x hx
          rw [Bool.or_eq_true] at h
          rcases h with h | h
          · rw [List.headD_eq_head?_getD, hh, Option.getD_some] at h
            exact absurd (by simpa using h) hc
          · have := List.all_eq_true.mp h d hm
            simpa using this
        have hbest : bestRule rules ((c :: t).map dmCanon) = bestRule rules (c :: t) := by
          unfold bestRule
          have : rules.filter (fun r => r.pattern.isPrefixOf ((c :: t).map dmCanon)) = rules.filter (fun r => r.pattern.isPrefixOf (c :: t)) := by
            refine List.filter_congr fun x hx => ?_
            rw [Bool.eq_iff_iff, List.isPrefixOf_iff_prefix, List.isPrefixOf_iff_prefix]
            cases hxe : x.pattern with
            | nil => simp
            | cons e w =>
              by_cases he : e = c
              · subst he
                rw [← hxe]
                exact canon_prefix (pat x hx (by rw [hxe]; rfl)) _
              · simp only [List.map_cons, hcc, List.cons_prefix_cons, he, false_and]
          rw [this]
        have e1 := canon_alternatives
        rw [show (c :: t).map dmCanon = c :: t.map dmCanon by rw [List.map_cons, hcc]] at hbest ⊢
        rw [dmGroups, dmGroups, hbest]
        split
        · exact ih0 _
        · cases hb : bestRule rules (c :: t) with
          | none => exact ih0 _
          | some r =>
            simp only
            have := canon_alternatives r prev (c :: t)
            rw [List.map_cons, hcc] at this
            rw [this, groups_drop, groups_drop rules (t.map dmCanon), ← List.map_drop]
            exact (ih _ (by simp; omega) _).cons _

/-! ## Letters that may be written twice -/

theorem prefix_before {w x z : Str} {c : Char} (h : c ∉ w) : (w <+: x ++ c :: z) ↔ (w <+: x) := by
  induction w generalizing x with
  | nil => simp
  | cons d w ih =>
    have hd : d ≠ c := fun e => h (by simp [e])
    cases x with
    | nil => simp [List.cons_prefix_cons, hd]
    | cons e x =>
      simp only [List.cons_append, List.cons_prefix_cons, ih (fun hm => h (List.mem_cons_of_mem _ hm))]

theorem groups_doubled {rules : List DMSpecRule} (hd : Default rules) {c : Char} (hc : c ∈ c!"bglpx") (y : Str) (hy : 'f' ∉ y)
    (n : Nat) : ∀ (x : Str), x.length ≤ n → 'f' ∉ x → AsciiStr x → ∀ prev : Option Char,
      (c ≠ 'x' ∨ ¬ (prev = none ∨ prev = some '\x00') ∨ ∃ d ∈ x, isAsciiLower d = true) →
      SameGroups (dmGroups rules prev 0 (x ++ c :: c :: y)) (dmGroups rules prev 0 (x ++ c :: y)) := by
  induction n with
  | zero =>
    intro x hx hf ha prev hp
    obtain rfl : x = [] := by cases x with | nil => rfl | cons _ _ => simp at hx
    simp only [List.not_mem_nil, false_and, exists_false, or_false] at hp
    simp only [List.nil_append]
    simp only [List.mem_cons, List.not_mem_nil, or_false] at hc
    rcases hc with rfl | rfl | rfl | rfl | rfl
    · rw [groups_flat hd (a := '7') (by decide), groups_flat hd (a := '7') (by decide), groups_flat hd (a := '7') (by decide)]
      exact SameGroups.again _ _
    · rw [groups_flat hd (a := '5') (by decide), groups_flat hd (a := '5') (by decide), groups_flat hd (a := '5') (by decide)]
      exact SameGroups.again _ _
    · rw [groups_flat hd (a := '8') (by decide), groups_flat hd (a := '8') (by decide), groups_flat hd (a := '8') (by decide)]
      exact SameGroups.again _ _
    · rw [groups_p hd prev, if_neg (by simp [List.cons_prefix_cons]), groups_p hd, groups_p hd prev]
      exact SameGroups.again _ _
    · have hp' : ¬ (prev = none ∨ prev = some '\x00') := by
        rcases hp with h | h
        · exact absurd rfl h
        · exact h
      rw [groups_x hd hp', groups_x hd (by decide), groups_x hd hp']
      exact SameGroups.again _ _
  | succ n ih =>
    intro x hx hf ha prev hp
    cases x with
    | nil => exact ih [] (by simp) (by simp) ha prev hp
    | cons d x =>
      have hl : x.length ≤ n := by simpa using hx
      have hfx : 'f' ∉ x := fun h => hf (List.mem_cons_of_mem _ h)
      have hax := (asciiStr_cons.mp ha).2
      have hdf : d ≠ 'f' := fun h => hf (by simp [h])
      have nof : ∀ z : Str, 'f' ∉ z → 'f' ∉ d :: x ++ z := by
        intro z hz h
        rcases List.mem_append.mp h with h | h
        · exact hf h
        · exact hz h
      have hcf : c ≠ 'f' := by rintro rfl; revert hc; decide
      have pat : ∀ r ∈ rules, 'f' ∈ r.pattern ∨ c ∉ r.pattern.tail := by
        have := default_all hd (fun r => r.pattern.contains 'f' || r.pattern.tail.all fun e => !c!"bglpx".contains e) (by decide +kernel)
        intro r hr
        have h := this r hr
        rw [Bool.or_eq_true] at h
        rcases h with h | h
        · exact .inl (by simpa using h)
        · right
          intro hm
          have := List.all_eq_true.mp h c hm
          simp only [Bool.not_eq_true', List.contains_eq_mem, decide_eq_false_iff_not] at this
          exact this hc
      have fits : ∀ r ∈ rules, ∀ z : Str, 'f' ∉ z → (r.pattern <+: d :: x ++ c :: z ↔ ('f' ∉ r.pattern ∧ r.pattern <+: d :: x)) := by
        intro r hr z hz
        have hnf : 'f' ∉ d :: x ++ c :: z := nof _ (by simp [Ne.symm hcf, hz])
        rcases pat r hr with h | h
        · constructor
          · intro hp'
            exact absurd (hp'.subset h) hnf
          · exact fun h' => absurd h h'.1
        · constructor
          · intro hp'
            refine ⟨fun hm => hnf (hp'.subset hm), ?_⟩
            cases he : r.pattern with
            | nil => simp
            | cons e w =>
              rw [he, List.cons_append, List.cons_prefix_cons] at hp'
              rw [he] at h
              rw [List.cons_prefix_cons]
              exact ⟨hp'.1, (prefix_before h).mp hp'.2⟩
          · rintro ⟨_, h'⟩
            exact h'.trans (List.prefix_append _ _)
      have hcy : 'f' ∉ c :: y := by simp [Ne.symm hcf, hy]
      have hbest : bestRule rules (d :: x ++ c :: c :: y) = bestRule rules (d :: x ++ c :: y) := by
        unfold bestRule
        have : rules.filter (fun r => r.pattern.isPrefixOf (d :: x ++ c :: c :: y)) = rules.filter (fun r => r.pattern.isPrefixOf (d :: x ++ c :: y)) := by
          refine List.filter_congr fun r hr => ?_
          rw [Bool.eq_iff_iff, List.isPrefixOf_iff_prefix, List.isPrefixOf_iff_prefix, fits r hr _ hcy, fits r hr _ hy]
        rw [this]
      have hnul : ∀ r ∈ rules, r.pattern.head? = some d → d ≠ '\x00' ∧ r.pattern ≠ [] := by
        have := default_all hd (fun r => !(r.pattern.headD 'a' == '\x00')) (by decide +kernel)
        intro r hr hh
        have h := this r hr
        rw [List.headD_eq_head?_getD, hh, Option.getD_some] at h
        refine ⟨by simpa using h, ?_⟩
        intro h0
        rw [h0] at hh
        cases hh
      rw [List.cons_append] at hbest ⊢
      rw [List.cons_append] at hbest ⊢
      rw [dmGroups, dmGroups, hbest]
      by_cases hr : (rules.all fun r => r.pattern.head? != some d) = true
      · rw [if_pos hr, if_pos hr]
        refine ih x hl hfx hax prev ?_
        rcases hp with h | h | ⟨e, he, h⟩
        · exact .inl h
        · exact .inr (.inl h)
        · rcases List.mem_cons.mp he with rfl | he
          · exfalso
            have hl : ∀ e, isAscii e = true → isAsciiLower e = true → (defaultEncoder.rules.get? e).isSome = true ∧
                ((defaultEncoder.rules.get? e).getD []).any (fun r => r.pattern.head? == some e) = true := by
              apply forall_ascii; decide +kernel
            obtain ⟨h1, h2⟩ := hl e (asciiStr_cons.mp ha).1 h
            obtain ⟨rs, hrs⟩ := Option.isSome_iff_exists.mp h1
            rw [hrs, Option.getD_some] at h2
            obtain ⟨r, hm, hh⟩ := List.any_eq_true.mp h2
            have := List.all_eq_true.mp hr (toSpec r) (hd.mem e rs hrs r hm)
            simp only [bne_iff_ne, ne_eq] at this
            exact this (by simpa [toSpec] using hh)
          · exact .inr (.inr ⟨e, he, h⟩)
      · rw [if_neg hr, if_neg hr]
        have hdn : d ≠ '\x00' := by
          simp only [Bool.not_eq_true, List.all_eq_false, bne_iff_ne, ne_eq, Decidable.not_not] at hr
          obtain ⟨r, hm, hh⟩ := hr
          exact (hnul r hm hh).1
        have hp' : c ≠ 'x' ∨ ¬ (some d = none ∨ some d = some '\x00') ∨ ∃ e ∈ x, isAsciiLower e = true :=
          .inr (.inl (by simp [hdn]))
        cases hb : bestRule rules (d :: (x ++ c :: y)) with
        | none => exact ih x hl hfx hax _ hp'
        | some r =>
          simp only
          have hbb := hb
          unfold bestRule at hbb
          have hm := List.mem_of_find?_eq_some hbb
          obtain ⟨hm1, hm2⟩ := List.mem_filter.mp hm
          rw [List.isPrefixOf_iff_prefix, ← List.cons_append, fits r hm1 _ hy] at hm2
          have hpl := hm2.2.length_le
          have hpa : AsciiStr r.pattern := fun e he => ha e (hm2.2.subset he)
          have hbl : byteLen r.pattern = r.pattern.length := byteLen_ascii hpa
          have halt : alternativesAt r prev (d :: (x ++ c :: c :: y)) = alternativesAt r prev (d :: (x ++ c :: y)) := by
            unfold alternativesAt
            have : (d :: (x ++ c :: c :: y))[byteLen r.pattern]? = (d :: (x ++ c :: y))[byteLen r.pattern]? := by
              rw [hbl, ← List.cons_append, ← List.cons_append]
              by_cases hlt : r.pattern.length < (d :: x).length
              · rw [List.getElem?_append_left hlt, List.getElem?_append_left hlt]
              · have he : r.pattern.length = (d :: x).length := by omega
                rw [he, List.getElem?_append_right (Nat.le_refl _), List.getElem?_append_right (Nat.le_refl _), Nat.sub_self]
                rfl
            rw [this]
          rw [halt, groups_drop, groups_drop rules (x ++ c :: y), hbl]
          have hk : r.pattern.length - 1 ≤ x.length := by simp at hpl; omega
          rw [List.drop_append_of_le_length hk, List.drop_append_of_le_length hk]
          refine (ih _ (by simp; omega) (fun h => hfx (List.mem_of_mem_drop h)) (fun e he => hax e (List.mem_of_mem_drop he)) _ ?_).cons _
          exact .inr (.inl (by simp [hdn]))

/-! ## The encoder -/

theorem default_codes : ∃ rules, Default rules ∧
    ∀ (U : Unicode) (v : Str), defaultEncoder.innerSoundex U v true = .ok (dmCodes rules (clean U defaultEncoder v)) := by
  obtain ⟨items, h1, h2, hp, he⟩ := build_ok Props.dm_default_builds
  have he' : encoderOf true items = defaultEncoder := he.symm
  have hdA : EveryAlternative AsciiStr defaultEncoder := everyAlternative_mem (by decide +kernel)
  have ha : ItemAlternatives AsciiStr items := by
    refine itemAlternatives_of_encoder (f := true) hp ?_
    rw [he']
    exact hdA
  refine ⟨dmRules items, ?_, ?_⟩
  · have all : ∀ Q : DMSpecRule → Prop, (∀ e ∈ defaultEncoder.rules, ∀ r ∈ e.2, Q (toSpec r)) → ∀ r ∈ dmRules items, Q r := by
      intro Q h
      refine dmRules_of_encoder (f := true) hp ?_
      rw [he']
      exact h
    refine ⟨all (fun r => shapely r = true) (by decide +kernel), ?_, all⟩
    intro c rs hg r hr
    rw [← he'] at hg
    exact mem_dmRules_iff hg hr
  · intro U v
    have := innerSoundex_spec hp ha U true v
    rw [← clean_spec, he'] at this
    exact this

theorem clean_append (U : Unicode) (u v : Str) : clean U defaultEncoder (u ++ v) = clean U defaultEncoder u ++ clean U defaultEncoder v := by
  simp [clean, List.filter_append, List.map_append]

theorem clean_cap (U : Unicode) {c : Char} (hc : c ∈ allLetters) (v : Str) :
    clean U defaultEncoder (c :: v) = asciiLower c :: clean U defaultEncoder v := by
  have facts : ∀ c ∈ allLetters, isAscii c = true ∧ isAsciiWs c = false ∧
      defaultEncoder.foldingRules.get? (asciiLower c) = none := by decide +kernel
  obtain ⟨h1, h2, h3⟩ := facts c hc
  unfold clean
  rw [List.filter_cons, U.isWhitespace_ascii c h1, h2, Bool.not_false, if_pos rfl, List.map_cons]
  congr 1
  unfold fold
  simp [U.toLower_ascii c h1, h3]

theorem clean_ascii (U : Unicode) {u : Str} (h : AsciiStr u) :
    clean U defaultEncoder u = (u.filter fun c => !isAsciiWs c).map asciiLower := by
  have facts : ∀ c, isAscii c = true → defaultEncoder.foldingRules.get? (asciiLower c) = none := by
    apply forall_ascii; decide +kernel
  unfold clean
  have e : u.filter (fun c => !U.isWhitespace c) = u.filter (fun c => !isAsciiWs c) :=
    List.filter_congr fun c hc => by rw [U.isWhitespace_ascii c (h c hc)]
  rw [e]
  refine List.map_congr_left fun c hc => ?_
  have ha := h c (List.mem_filter.mp hc).1
  unfold fold
  simp [U.toLower_ascii c ha, facts c ha]

/-- The codes, and so both `soundex` and `encode`, are the same for texts with the same normalised form up to confusion. -/
theorem same_results (U : Unicode) {s t : Str}
    (h : ∀ rules, Default rules → dmCodes rules (clean U defaultEncoder s) = dmCodes rules (clean U defaultEncoder t)) :
    defaultEncoder.soundex U s = defaultEncoder.soundex U t ∧ defaultEncoder.encode U s = defaultEncoder.encode U t := by
  obtain ⟨rules, hd, hs⟩ := default_codes
  have e : defaultEncoder.soundex U s = defaultEncoder.soundex U t := by
    unfold DaitchMokotoff.soundex
    rw [hs, hs, h rules hd]
  refine ⟨e, ?_⟩
  obtain ⟨w, hw⟩ : ∃ w, defaultEncoder.soundex U s = .ok w := by
    unfold DaitchMokotoff.soundex
    rw [hs]
    exact ⟨_, rfl⟩
  obtain ⟨c1, o1, a1, b1, _⟩ := Props.dm_encode_first U _ _ Props.dm_default_builds s w hw
  obtain ⟨c2, o2, a2, b2, _⟩ := Props.dm_encode_first U _ _ Props.dm_default_builds t w (e ▸ hw)
  rw [b1, b2, (List.cons.inj (a1.symm.trans a2)).1]

theorem dm_swap (U : Unicode) (u v : Str) {a b : Char} (ha : a ∈ allLetters) (hb : b ∈ allLetters)
    (h : dmCanon (asciiLower a) = dmCanon (asciiLower b)) :
    defaultEncoder.soundex U (u ++ a :: v) = defaultEncoder.soundex U (u ++ b :: v) ∧
    defaultEncoder.encode U (u ++ a :: v) = defaultEncoder.encode U (u ++ b :: v) := by
  refine same_results U fun rules hd => ?_
  rw [clean_append, clean_append, clean_cap U ha, clean_cap U hb]
  refine dmCodes_same ((groups_canon hd _ _ (Nat.le_refl _) _).trans ?_)
  refine SameGroups.trans ?_ (groups_canon hd _ _ (Nat.le_refl _) _).symm
  simp only [List.map_append, List.map_cons, h]
  exact SameGroups.rfl' _

theorem dm_twice (U : Unicode) (u v : Str) (hu : AsciiStr u) {c : Char} (hc : c ∈ allLetters)
    (h : c ∈ c!"BFGLPQVW" ∨ hasLetter u ∧ c = 'X') :
    defaultEncoder.soundex U (u ++ c :: c :: v) = defaultEncoder.soundex U (u ++ c :: v) ∧
    defaultEncoder.encode U (u ++ c :: c :: v) = defaultEncoder.encode U (u ++ c :: v) := by
  refine same_results U fun rules hd => ?_
  rw [clean_append, clean_append, clean_cap U hc, clean_cap U hc]
  refine dmCodes_same ((groups_canon hd _ _ (Nat.le_refl _) _).trans ?_)
  refine SameGroups.trans ?_ (groups_canon hd _ _ (Nat.le_refl _) _).symm
  simp only [List.map_append, List.map_cons]
  have canonf : ∀ d, dmCanon d ≠ 'f' := dm_all (P := fun d => dmCanon d ≠ 'f') (fun c h => by
    rw [h]; rintro rfl; revert h; decide) (by decide)
  have nof : ∀ s : Str, 'f' ∉ s.map dmCanon := by
    intro s hm
    obtain ⟨d, _, e⟩ := List.mem_map.mp hm
    exact canonf d e
  have hc' : dmCanon (asciiLower c) ∈ c!"bglpx" := by
    have h1 : ∀ c ∈ c!"BFGLPQVWX", dmCanon (asciiLower c) ∈ c!"bglpx" := by decide
    refine h1 c ?_
    rcases h with h | ⟨_, rfl⟩
    · have : ∀ c ∈ c!"BFGLPQVW", c ∈ c!"BFGLPQVWX" := by decide
      exact this c h
    · decide
  have hasc : AsciiStr ((clean U defaultEncoder u).map dmCanon) := by
    rw [clean_ascii U hu]
    have : ∀ d, isAscii d = true → isAscii (dmCanon (asciiLower d)) = true := by apply forall_ascii; decide +kernel
    intro e he
    simp only [List.map_map, List.mem_map, Function.comp] at he
    obtain ⟨d, hd, rfl⟩ := he
    exact this d (hu d (List.mem_filter.mp hd).1)
  refine groups_doubled hd hc' _ (nof _) _ _ (Nat.le_refl _) (nof _) hasc _ ?_
  rcases h with h | ⟨⟨d, hd1, hd2⟩, rfl⟩
  · left
    have : ∀ c ∈ c!"BFGLPQVW", dmCanon (asciiLower c) ≠ 'x' := by decide
    exact this c h
  · right; right
    rw [clean_ascii U hu]
    have : ∀ d, isAscii d = true → isAsciiAlpha d = true → isAsciiWs d = false ∧ isAsciiLower (dmCanon (asciiLower d)) = true := by
      apply forall_ascii; decide +kernel
    obtain ⟨h1, h2⟩ := this d (hu d hd1) hd2
    refine ⟨dmCanon (asciiLower d), ?_, h2⟩
    exact List.mem_map_of_mem (List.mem_map_of_mem (List.mem_filter.mpr ⟨hd1, by rw [h1]; rfl⟩))

end Verif.DMKProofs
