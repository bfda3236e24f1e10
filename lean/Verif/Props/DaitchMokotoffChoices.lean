import Verif.Props.DaitchMokotoff
/-!
# The codes of Daitch-Mokotoff Soundex as choices (C87)
-/

set_option linter.unusedSimpArgs false

namespace Verif.DMKProofs
open Parser Spec DaitchMokotoff ParserProofs

def follow (p : Partial) (choice : List (Str × Bool)) : Partial :=
  choice.foldl (fun p a => p.add a.2 a.1) p

theorem mem_paths (groups : List (List Str × Bool)) (ps : List Partial) (x : Partial) :
    x ∈ groups.foldl (fun ps g => (ps.flatMap fun p => g.1.map (p.add g.2)).eraseDups) ps ↔
      ∃ p ∈ ps, ∃ choice, DMChoice groups choice ∧ x = follow p choice := by
  induction groups generalizing ps with
  | nil =>
    constructor
    · intro h; exact ⟨x, h, [], .nil, rfl⟩
    · rintro ⟨p, hp, choice, hc, rfl⟩; cases hc; exact hp
  | cons g groups ih =>
    obtain ⟨alts, force⟩ := g
    rw [List.foldl_cons, ih]
    constructor
    · rintro ⟨p, hp, choice, hc, rfl⟩
      rw [List.mem_eraseDups] at hp
      obtain ⟨q, hq, h⟩ := List.mem_flatMap.mp hp
      obtain ⟨a, ha, rfl⟩ := List.mem_map.mp h
      exact ⟨q, hq, (a, force) :: choice, .cons ha hc, rfl⟩
    · rintro ⟨p, hp, choice, hc, rfl⟩
      cases hc with
      | cons ha hc =>
        refine ⟨_, ?_, _, hc, rfl⟩
        rw [List.mem_eraseDups]
        exact List.mem_flatMap.mpr ⟨p, hp, List.mem_map_of_mem ha⟩

theorem take_take_append {α : Type _} (n : Nat) (x w : List α) : (x.take n ++ w).take n = (x ++ w).take n := by
  rw [List.take_append, List.take_append, List.take_take, Nat.min_self, List.length_take]
  congr 2
  omega

theorem follow_code (choice : List (Str × Bool)) (p : Partial) (h : p.code.length ≤ 6) :
    (follow p choice).code = (p.code ++ written p.last choice).take 6 := by
  induction choice generalizing p with
  | nil => simp [follow, written, List.take_of_length_le h]
  | cons a choice ih =>
    obtain ⟨a, force⟩ := a
    have h1 : (follow p ((a, force) :: choice)) = follow (p.add force a) choice := rfl
    rw [h1, ih]
    · cases hl : p.last with
      | none =>
        simp only [Partial.add, hl, Bool.false_and, Bool.false_eq_true, if_false, written]
        rw [take_take_append, List.append_assoc]
      | some l =>
        have hs : a.isSuffixOf l = decide (a <:+ l) := by
          rw [Bool.eq_iff_iff]; simp
        simp only [Partial.add, hl, written, hs]
        by_cases hx : force = true ∨ ¬ a <:+ l
        · rw [if_pos hx]
          have : (decide (a <:+ l) && !force) = false := by
            rcases hx with rfl | hx <;> simp [*]
          rw [this]
          simp only [Bool.false_eq_true, if_false]
          rw [take_take_append, List.append_assoc]
        · rw [if_neg hx]
          have : (decide (a <:+ l) && !force) = true := by
            simp only [not_or] at hx
            have := Classical.not_not.mp hx.2
            simp_all
          rw [this]
          simp
    · have : ∀ r : Bool, (if (r && !force) = true then p.code else (p.code ++ a).take 6).length ≤ 6 := by
        intro r
        split
        · exact h
        · rw [List.length_take]; omega
      exact this _

theorem mem_dmCodes (rules : List DMSpecRule) (text c : Str) :
    c ∈ dmCodes rules text ↔ ∃ choice, DMChoice (dmGroups rules none 0 text) choice ∧
      c = pad6 ((written none choice).take 6) := by
  unfold dmCodes dmPaths
  rw [List.mem_map]
  constructor
  · rintro ⟨x, hx, rfl⟩
    obtain ⟨p, hp, choice, hc, rfl⟩ := (mem_paths _ _ x).mp hx
    rw [List.mem_singleton] at hp
    subst hp
    exact ⟨choice, hc, by rw [follow_code _ _ (by simp)]; rfl⟩
  · rintro ⟨choice, hc, rfl⟩
    refine ⟨follow ⟨[], none⟩ choice, (mem_paths _ _ _).mpr ⟨_, List.mem_singleton.mpr rfl, choice, hc, rfl⟩, ?_⟩
    rw [follow_code _ _ (by simp)]; rfl

theorem head_paths (groups : List (List Str × Bool)) (h : ∀ g ∈ groups, g.1 ≠ []) (p : Partial) (ps : List Partial) :
    (groups.foldl (fun ps g => (ps.flatMap fun p => g.1.map (p.add g.2)).eraseDups) (p :: ps)).head? =
      some (follow p (groups.map fun g => (g.1.headD [], g.2))) := by
  induction groups generalizing p ps with
  | nil => rfl
  | cons g groups ih =>
    obtain ⟨alts, force⟩ := g
    cases alts with
    | nil => exact absurd rfl (h _ List.mem_cons_self)
    | cons a alts =>
      rw [List.foldl_cons]
      simp only [List.flatMap_cons, List.map_cons, List.cons_append, List.eraseDups_cons]
      rw [ih (fun g hg => h g (List.mem_cons_of_mem _ hg))]
      rfl

theorem eraseDups_length {α : Type} [BEq α] [LawfulBEq α] (l : List α) : l.eraseDups.length ≤ l.length :=
  length_le_of_nodup_subset (nodup_eraseDups l) fun _ hx => List.mem_eraseDups.mp hx

theorem paths_length (groups : List (List Str × Bool)) (ps : List Partial) :
    (groups.foldl (fun ps g => (ps.flatMap fun p => g.1.map (p.add g.2)).eraseDups) ps).length ≤
      ps.length * (groups.map fun g => g.1.length).foldr (· * ·) 1 := by
  induction groups generalizing ps with
  | nil => simp
  | cons g groups ih =>
    rw [List.foldl_cons]
    refine Nat.le_trans (ih _) ?_
    have h1 := eraseDups_length (ps.flatMap fun p => g.1.map (p.add g.2))
    have h2 : (ps.flatMap fun p => g.1.map (p.add g.2)).length = ps.length * g.1.length := by
      clear h1 ih
      induction ps with
      | nil => simp
      | cons p ps ih' =>
        rw [List.flatMap_cons, List.length_append, ih', List.length_map, List.length_cons, Nat.succ_mul, Nat.add_comm]
    rw [h2] at h1
    rw [List.map_cons, List.foldr_cons, ← Nat.mul_assoc]
    exact Nat.mul_le_mul_right _ h1

theorem groups_nonempty {rules : List DMSpecRule}
    (ht : ∀ r ∈ rules, r.atStart ≠ [] ∧ r.beforeVowel ≠ [] ∧ r.other ≠ []) (text : Str)
    (skip : Nat) (prev : Option Char) : ∀ g ∈ dmGroups rules prev skip text, g.1 ≠ [] := by
  induction text generalizing skip prev with
  | nil => intro g hg; unfold dmGroups at hg; cases hg
  | cons x text ih =>
    cases skip with
    | succ skip => unfold dmGroups; exact ih skip prev
    | zero =>
      unfold dmGroups
      by_cases hall : (rules.all fun r => r.pattern.head? != some x) = true
      · rw [if_pos hall]; exact ih 0 prev
      · rw [if_neg hall]
        cases hb : bestRule rules (x :: text) with
        | none => exact ih 0 _
        | some r =>
          intro g hg
          rcases List.mem_cons.mp hg with rfl | hg
          · obtain ⟨h1, h2, h3⟩ := ht r (bestRule_mem hb)
            unfold alternativesAt
            dsimp only
            by_cases hp : prev = none ∨ prev = some '\x00'
            · rw [if_pos hp]; exact h1
            · rw [if_neg hp]
              split
              · split
                · exact h2
                · exact h3
              · exact h3
          · exact ih _ _ g hg

theorem alternatives_ne_nil (s : Str) : alternatives s ≠ [] := by
  rw [← alternatives_eq]; exact splitChar_ne_nil _ _

theorem dmRules_nonempty (items : List DMItem) :
    ∀ r ∈ dmRules items, r.atStart ≠ [] ∧ r.beforeVowel ≠ [] ∧ r.other ≠ [] := by
  intro r hr
  obtain ⟨i, -, hi⟩ := List.mem_filterMap.mp hr
  cases i with
  | rule p b1 s b2 v b3 o t =>
    injection hi with hi
    subst hi
    exact ⟨alternatives_ne_nil _, alternatives_ne_nil _, alternatives_ne_nil _⟩
  | fold a b t => cases hi
  | blank t => cases hi
  | block text t => cases hi

theorem head_dmCodes (items : List DMItem) (text : Str) :
    (dmCodes (dmRules items) text).head? =
      some (pad6 ((written none ((dmGroups (dmRules items) none 0 text).map fun g => (g.1.headD [], g.2))).take 6)) := by
  unfold dmCodes dmPaths
  rw [List.head?_map, head_paths _ (groups_nonempty (dmRules_nonempty items) text 0 none)]
  rw [Option.map_some, follow_code _ _ (by simp)]
  rfl

theorem dmCodes_length (rules : List DMSpecRule) (text : Str) :
    (dmCodes rules text).length ≤ ((dmGroups rules none 0 text).map fun g => g.1.length).foldr (· * ·) 1 := by
  unfold dmCodes dmPaths
  rw [List.length_map]
  simpa using paths_length (dmGroups rules none 0 text) [⟨[], none⟩]

end Verif.DMKProofs

namespace Verif.Props
open Parser Spec DaitchMokotoff DMKProofs ParserProofs

/-- C87: the codes are exactly those of the choices of one alternative for each group of the text: the
alternatives that do not repeat the end of the one before (except between m and n), one after the other, cut to six
digits and filled up with zeros.  There are at most as many as choices, and `encode` gives the code of the first
alternatives. -/
theorem dm_codes_choices (b : Builder) (d : DaitchMokotoff) (hb : b.build = .ok (.ok d)) :
    ∃ items, b.rules = dmPrint items ∧ EveryItem (fun r i => i.Legal r) [] items ∧
      (AsciiAlternatives items → ∀ U v, ∃ groups codes,
        groups = dmGroups (dmRules items) none 0 (dmNormalise U b.asciiFolding (dmFold items) v) ∧
        d.innerSoundex U v true = .ok codes ∧
        (∀ c, c ∈ codes ↔ ∃ choice, DMChoice groups choice ∧ c = pad6 ((written none choice).take 6)) ∧
        codes.length ≤ (groups.map fun g => g.1.length).foldr (· * ·) 1 ∧
        d.encode U v = .ok (pad6 ((written none (groups.map fun g => (g.1.headD [], g.2))).take 6))) := by
  obtain ⟨items, h1, h2, h3⟩ := dm_built_meaning b d hb
  refine ⟨items, h1, h2, fun ha U v => ⟨_, _, rfl, h3 ha U v, mem_dmCodes _ _, dmCodes_length _ _, ?_⟩⟩
  have hs : ∃ s, d.soundex U v = .ok s := by
    unfold soundex
    rw [h3 ha U v]
    exact ⟨_, rfl⟩
  obtain ⟨s, hs⟩ := hs
  obtain ⟨code, others, -, h4, h5, -⟩ := dm_encode_first U b d hb v s hs
  rw [h4]
  rw [h3 ha U v] at h5
  injection h5 with h5
  have := head_dmCodes items (dmNormalise U b.asciiFolding (dmFold items) v)
  rw [h5] at this
  simpa using this

/-- C87: the embedded rules, for every text; their rules have at most two alternatives. -/
theorem dm_default_choices : ∃ items, defaultRules = dmPrint items ∧ EveryItem (fun r i => i.Legal r) [] items ∧
    ∀ U v, ∃ groups codes,
      groups = dmGroups (dmRules items) none 0 (dmNormalise U true (dmFold items) v) ∧
      defaultEncoder.innerSoundex U v true = .ok codes ∧
      (∀ c, c ∈ codes ↔ ∃ choice, DMChoice groups choice ∧ c = pad6 ((written none choice).take 6)) ∧
      (∀ g ∈ groups, g.1.length = 1 ∨ g.1.length = 2) ∧
      codes.length ≤ 2 ^ (groups.filter fun g => g.1.length == 2).length := by
  obtain ⟨items, h1, h2, hp, he⟩ := build_ok dm_default_builds
  have hd : EveryAlternative AsciiStr defaultEncoder := everyAlternative_mem (by decide +kernel)
  have ha : ItemAlternatives AsciiStr items := by
    refine itemAlternatives_of_encoder (f := true) hp ?_
    rw [show encoderOf true items = defaultEncoder from he.symm]
    exact hd
  have ht : ∀ r ∈ dmRules items, r.Tame 2 := by
    refine dmRules_of_encoder (f := true) hp ?_
    rw [show encoderOf true items = defaultEncoder from he.symm]
    have hb : ∀ e ∈ defaultEncoder.rules, ∀ r ∈ e.2,
        tameB 2 ⟨r.pattern, r.atStart, r.beforeVowel, r.default⟩ = true := by decide +kernel
    exact fun e he r hr => tame_of_tameB (hb e he r hr)
  refine ⟨items, h1, h2, fun U v => ?_⟩
  have hs := innerSoundex_spec hp ha U true v
  rw [show encoderOf true items = defaultEncoder from he.symm] at hs
  have hlen : ∀ g ∈ dmGroups (dmRules items) none 0 (dmNormalise U true (dmFold items) v),
      g.1.length = 1 ∨ g.1.length = 2 := by
    intro g hg
    have a1 := groups_nonempty (dmRules_nonempty items) _ 0 none g hg
    have a2 : g.1.length ≤ 2 := by
      rcases groups_outer ht (dmNormalise U true (dmFold items) v) 0 with h | ⟨x, xs, h3, h4, -, h5⟩
      · exact (h g hg).1
      · rw [h3] at hg
        rcases List.mem_cons.mp hg with rfl | hg
        · exact h4
        · exact (h5 g hg).1
    have := List.length_pos_iff.mpr a1
    omega
  refine ⟨_, _, rfl, hs, mem_dmCodes _ _, hlen, Nat.le_trans (dmCodes_length _ _) ?_⟩
  generalize dmGroups (dmRules items) none 0 (dmNormalise U true (dmFold items) v) = gs at hlen ⊢
  induction gs with
  | nil => simp
  | cons g gs ih =>
    have ih := ih fun x hx => hlen x (List.mem_cons_of_mem _ hx)
    rcases hlen g List.mem_cons_self with h | h
    · rw [List.map_cons, List.foldr_cons, h, List.filter_cons_of_neg (by simp [h]), Nat.one_mul]; exact ih
    · rw [List.map_cons, List.foldr_cons, h, List.filter_cons_of_pos (by simp [h]), List.length_cons, Nat.pow_succ,
        Nat.mul_comm]
      exact Nat.mul_le_mul_right 2 ih

/-- Three groups with two alternatives each: eight choices.  And a choice that repeats the code before. -/
theorem dm_codes_choices_example :
    defaultEncoder.soundex .latin1 c!"Rosochowaciec" =
      .ok c!"944744|944745|944754|944755|945744|945745|945754|945755" ∧
    dmGroups (dmRules sampleItems) none 0 c!"ssosh" = [([c!"4"], false), ([c!"4"], false), ([c!"0", c!"1"], false)] ∧
    dmCodes (dmRules sampleItems) c!"ssosh" = [c!"400000", c!"410000"] := by decide +kernel

end Verif.Props
