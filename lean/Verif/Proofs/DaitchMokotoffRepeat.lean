import Verif.Proofs.DaitchMokotoffEncode
/-!
# How often a Daitch-Mokotoff code is repeated
-/

set_option linter.unusedSimpArgs false

namespace Verif
namespace DMKProofs
open Parser Spec DaitchMokotoff ParserProofs

theorem length_le_of_nodup_subset {α : Type} [BEq α] [LawfulBEq α] {l m : List α} (hn : l.Nodup)
    (hs : ∀ x ∈ l, x ∈ m) : l.length ≤ m.length := by
  induction l generalizing m with
  | nil => simp
  | cons a l ih =>
    rw [List.nodup_cons] at hn
    have ha := hs a (by simp)
    have h := ih (m := m.erase a) hn.2 (fun x hx => by
      have hne : x ≠ a := fun h => hn.1 (h ▸ hx)
      exact (List.mem_erase_of_ne hne).mpr (hs x (by simp [hx])))
    rw [List.length_erase_of_mem ha] at h
    have := List.length_pos_of_mem ha
    simp only [List.length_cons]
    omega

theorem nodup_eraseDups {α : Type} [BEq α] [LawfulBEq α] (l : List α) : l.eraseDups.Nodup := by
  generalize hn : l.length = n
  induction n using Nat.strongRecOn generalizing l with
  | _ n ih =>
    cases l with
    | nil => simp
    | cons a l =>
      rw [List.eraseDups_cons, List.nodup_cons]
      refine ⟨?_, ih _ ?_ _ rfl⟩
      · rw [List.mem_eraseDups, List.mem_filter]
        simp
      · have := List.length_filter_le (fun b => !b == a) l
        simp only [List.length_cons] at hn
        omega

/-- What the partial codes satisfy after some groups. -/
structure Tidy (k : Nat) (ps : List Partial) : Prop where
  nodup : ps.Nodup
  lasts : ∃ lasts : List (Option Str), lasts.length ≤ k ∧ ∀ p ∈ ps, p.last ∈ lasts
  zeros : (∀ p ∈ ps, '0' ∉ p.code) ∨ (∀ p ∈ ps, ∃ t, p.code = '0' :: t ∧ '0' ∉ t)

theorem step_lasts {k : Nat} {ps : List Partial} {g : List Str × Bool} (hk : g.1.length ≤ k) :
    ∃ lasts : List (Option Str), lasts.length ≤ k ∧
      ∀ p ∈ (ps.flatMap fun p => g.1.map (p.add g.2)).eraseDups, p.last ∈ lasts := by
  refine ⟨g.1.map some, by simpa using hk, ?_⟩
  intro p hp
  rw [List.mem_eraseDups] at hp
  obtain ⟨q, -, h⟩ := List.mem_flatMap.mp hp
  obtain ⟨a, ha, rfl⟩ := List.mem_map.mp h
  exact List.mem_map_of_mem ha

theorem notMem_take {c : Char} {s : Str} {n : Nat} (h : c ∉ s) : c ∉ s.take n :=
  fun h' => h (List.mem_of_mem_take h')

theorem add_code (force : Bool) (p : Partial) (a : Str) :
    (p.add force a).code = p.code ∨ (p.add force a).code = (p.code ++ a).take 6 := by
  unfold Partial.add
  dsimp only
  exact ite_ind (fun x => x = p.code ∨ x = (p.code ++ a).take 6) (fun _ => .inl rfl) (fun _ => .inr rfl)

theorem tidy_step {k : Nat} {ps : List Partial} {g : List Str × Bool} (h : Tidy k ps)
    (hk : g.1.length ≤ k) (hz : ∀ a ∈ g.1, '0' ∉ a) :
    Tidy k (ps.flatMap fun p => g.1.map (p.add g.2)).eraseDups := by
  refine ⟨nodup_eraseDups _, step_lasts hk, ?_⟩
  rcases h.zeros with h0 | h0
  · refine .inl fun p hp => ?_
    rw [List.mem_eraseDups] at hp
    obtain ⟨q, hq, h⟩ := List.mem_flatMap.mp hp
    obtain ⟨a, ha, rfl⟩ := List.mem_map.mp h
    rcases add_code g.2 q a with he | he <;> rw [he]
    · exact h0 q hq
    · exact notMem_take (by simp [h0 q hq, hz a ha])
  · refine .inr fun p hp => ?_
    rw [List.mem_eraseDups] at hp
    obtain ⟨q, hq, h⟩ := List.mem_flatMap.mp hp
    obtain ⟨a, ha, rfl⟩ := List.mem_map.mp h
    rcases add_code g.2 q a with he | he <;> rw [he]
    · exact h0 q hq
    · obtain ⟨t, ht, hn⟩ := h0 q hq
      exact ⟨(t ++ a).take 5, by rw [ht]; rfl, notMem_take (by simp [hn, hz a ha])⟩

theorem tidy_first {k : Nat} {g : List Str × Bool} (hk : g.1.length ≤ k) (hz : ZeroFirst g.1) :
    Tidy k (([⟨[], none⟩] : List Partial).flatMap fun p => g.1.map (p.add g.2)).eraseDups := by
  refine ⟨nodup_eraseDups _, step_lasts hk, ?_⟩
  rcases hz with h0 | h0
  · refine .inl fun p hp => ?_
    rw [List.mem_eraseDups] at hp
    simp only [List.flatMap_cons, List.flatMap_nil, List.append_nil] at hp
    obtain ⟨a, ha, rfl⟩ := List.mem_map.mp hp
    simpa [Partial.add] using notMem_take (h0 a ha)
  · refine .inr fun p hp => ?_
    rw [List.mem_eraseDups] at hp
    simp only [List.flatMap_cons, List.flatMap_nil, List.append_nil] at hp
    obtain ⟨a, ha, rfl⟩ := List.mem_map.mp hp
    obtain ⟨t, ht, hn⟩ := h0 a ha
    exact ⟨t.take 5, by rw [ht]; rfl, notMem_take hn⟩

theorem tidy_rest {k : Nat} (gs : List (List Str × Bool)) {ps : List Partial} (h : Tidy k ps)
    (hg : ∀ g ∈ gs, g.1.length ≤ k ∧ ∀ a ∈ g.1, '0' ∉ a) :
    Tidy k (gs.foldl (fun ps g => (ps.flatMap fun p => g.1.map (p.add g.2)).eraseDups) ps) := by
  induction gs generalizing ps with
  | nil => exact h
  | cons g gs ih =>
    rw [List.foldl_cons]
    exact ih (tidy_step h (hg g (by simp)).1 (hg g (by simp)).2) (fun x hx => hg x (by simp [hx]))

theorem bestRule_mem {rules : List DMSpecRule} {text : Str} {r : DMSpecRule}
    (h : bestRule rules text = some r) : r ∈ rules := by
  unfold bestRule at h
  exact (List.mem_filter.mp (List.mem_of_find?_eq_some h)).1

theorem alternativesAt_inner {rules : List DMSpecRule} {k : Nat} (ht : ∀ r ∈ rules, r.Tame k)
    {r : DMSpecRule} (hr : r ∈ rules) {c : Char} (hc : c ≠ '\x00') (text : Str) :
    (alternativesAt r (some c) text).length ≤ k ∧ ∀ a ∈ alternativesAt r (some c) text, '0' ∉ a := by
  obtain ⟨⟨h1, h2, h3⟩, -, h4, -⟩ := ht r hr
  unfold alternativesAt
  rw [if_neg (by simp [hc])]
  split
  · split
    · exact ⟨h2, fun a ha => h4 a (by simp [ha])⟩
    · exact ⟨h3, fun a ha => h4 a (by simp [ha])⟩
  · exact ⟨h3, fun a ha => h4 a (by simp [ha])⟩

theorem groups_inner {rules : List DMSpecRule} {k : Nat} (ht : ∀ r ∈ rules, r.Tame k) (text : Str)
    (skip : Nat) (c : Char) (hc : c ≠ '\x00') :
    ∀ g ∈ dmGroups rules (some c) skip text, g.1.length ≤ k ∧ ∀ a ∈ g.1, '0' ∉ a := by
  induction text generalizing skip c with
  | nil => intro g hg; unfold dmGroups at hg; cases hg
  | cons x text ih =>
    cases skip with
    | succ skip => unfold dmGroups; exact ih skip c hc
    | zero =>
      unfold dmGroups
      by_cases hall : (rules.all fun r => r.pattern.head? != some x) = true
      · rw [if_pos hall]; exact ih 0 c hc
      · rw [if_neg hall]
        have hx : x ≠ '\x00' := by
          rintro rfl
          exact hall (List.all_eq_true.mpr fun r hr => by simpa using (ht r hr).2.2.2)
        cases hb : bestRule rules (x :: text) with
        | none => exact ih 0 x hx
        | some r =>
          intro g hg
          rcases List.mem_cons.mp hg with rfl | hg
          · exact alternativesAt_inner ht (bestRule_mem hb) hc _
          · exact ih _ x hx g hg

theorem groups_outer {rules : List DMSpecRule} {k : Nat} (ht : ∀ r ∈ rules, r.Tame k) (text : Str)
    (skip : Nat) :
    (∀ g ∈ dmGroups rules none skip text, g.1.length ≤ k ∧ ∀ a ∈ g.1, '0' ∉ a) ∨
      ∃ g gs, dmGroups rules none skip text = g :: gs ∧ g.1.length ≤ k ∧ ZeroFirst g.1 ∧
        ∀ g ∈ gs, g.1.length ≤ k ∧ ∀ a ∈ g.1, '0' ∉ a := by
  induction text generalizing skip with
  | nil => left; intro g hg; unfold dmGroups at hg; cases hg
  | cons x text ih =>
    cases skip with
    | succ skip => unfold dmGroups; exact ih skip
    | zero =>
      unfold dmGroups
      by_cases hall : (rules.all fun r => r.pattern.head? != some x) = true
      · rw [if_pos hall]; exact ih 0
      · rw [if_neg hall]
        have hx : x ≠ '\x00' := by
          rintro rfl
          exact hall (List.all_eq_true.mpr fun r hr => by simpa using (ht r hr).2.2.2)
        cases hb : bestRule rules (x :: text) with
        | none => exact .inl (groups_inner ht text 0 x hx)
        | some r =>
          obtain ⟨⟨h1, -, -⟩, h2, -, -⟩ := ht r (bestRule_mem hb)
          exact .inr ⟨_, _, rfl, by simpa [alternativesAt] using h1, by simpa [alternativesAt] using h2,
            groups_inner ht text _ x hx⟩

theorem paths_tidy {rules : List DMSpecRule} {k : Nat} (hk : 1 ≤ k) (ht : ∀ r ∈ rules, r.Tame k)
    (text : Str) : Tidy k (dmPaths (dmGroups rules none 0 text)) := by
  have h0 : Tidy k [⟨[], none⟩] :=
    ⟨by simp, ⟨[none], by simpa using hk, by simp⟩, .inl (by simp)⟩
  unfold dmPaths
  rcases groups_outer ht text 0 with h | ⟨g, gs, he, h1, h2, h3⟩
  · exact tidy_rest _ h0 h
  · rw [he, List.foldl_cons]
    exact tidy_rest _ (tidy_first h1 h2) h3

theorem takeWhile_pad {s : Str} (h : '0' ∉ s) (n : Nat) :
    (s ++ List.replicate n '0').takeWhile (· != '0') = s := by
  induction s with
  | nil => cases n <;> simp [List.replicate_succ]
  | cons c s ih =>
    have hc : c ≠ '0' := fun h' => h (by simp [h'])
    have hs : '0' ∉ s := fun h' => h (by simp [h'])
    rw [List.cons_append, List.takeWhile_cons, if_pos (by simpa using hc), ih hs]

theorem pad_inj {ps : List Partial}
    (h : (∀ p ∈ ps, '0' ∉ p.code) ∨ (∀ p ∈ ps, ∃ t, p.code = '0' :: t ∧ '0' ∉ t)) {p q : Partial}
    (hp : p ∈ ps) (hq : q ∈ ps) (he : pad6 p.code = pad6 q.code) : p.code = q.code := by
  unfold pad6 at he
  rcases h with h | h
  · have h1 := takeWhile_pad (h p hp) (6 - p.code.length)
    rw [he, takeWhile_pad (h q hq)] at h1
    exact h1.symm
  · obtain ⟨t, ht, hn⟩ := h p hp
    obtain ⟨u, hu, hm⟩ := h q hq
    rw [ht, hu] at he
    rw [List.cons_append, List.cons_append] at he
    injection he with _ he
    have h1 := takeWhile_pad hn (6 - ('0' :: t).length)
    rw [he, takeWhile_pad hm] at h1
    rw [ht, hu, h1]

theorem tidy_count {k : Nat} {ps : List Partial} (h : Tidy k ps) (c : Str) :
    (ps.map fun p => pad6 p.code).count c ≤ k := by
  obtain ⟨lasts, hk, hl⟩ := h.lasts
  have h1 : (ps.map fun p => pad6 p.code).count c =
      ((ps.filter fun p => pad6 p.code == c).map Partial.last).length := by
    rw [List.count, List.countP_map, List.countP_eq_length_filter, List.length_map]
    rfl
  rw [h1]
  refine Nat.le_trans (length_le_of_nodup_subset ?_ ?_) hk
  · rw [List.nodup_iff_pairwise_ne, List.pairwise_map]
    have hf : (ps.filter fun p => pad6 p.code == c).Nodup := h.nodup.filter _
    refine List.Pairwise.imp_of_mem ?_ hf
    intro p q hp hq hne hlast
    obtain ⟨hp, hp'⟩ := List.mem_filter.mp hp
    obtain ⟨hq, hq'⟩ := List.mem_filter.mp hq
    have hc := pad_inj h.zeros hp hq ((beq_iff_eq.mp hp').trans (beq_iff_eq.mp hq').symm)
    apply hne
    cases p; cases q
    simp_all
  · intro x hx
    obtain ⟨p, hp, rfl⟩ := List.mem_map.mp hx
    exact hl p (List.mem_filter.mp hp).1

theorem codes_count {rules : List DMSpecRule} {k : Nat} (hk : 1 ≤ k) (ht : ∀ r ∈ rules, r.Tame k)
    (text : Str) (c : Str) : (dmCodes rules text).count c ≤ k := tidy_count (paths_tidy hk ht text) c

/-- The rules of an encoder, as rules of the specification. -/
theorem dmRules_of_encoder {Q : DMSpecRule → Prop} {f : Bool} {items : List DMItem}
    (hp : ∀ i ∈ items, ∀ r, itemRule i = some r → r.pattern ≠ [])
    (h : ∀ e ∈ (encoderOf f items).rules, ∀ r ∈ e.2, Q ⟨r.pattern, r.atStart, r.beforeVowel, r.default⟩) :
    ∀ r ∈ dmRules items, Q r := by
  intro r hr
  unfold dmRules at hr
  obtain ⟨i, hi, he⟩ := List.mem_filterMap.mp hr
  cases i with
  | rule p b1 s b2 v b3 o tl =>
    simp only [Option.some.injEq] at he
    have hne := hp _ hi _ rfl
    cases p with
    | nil => exact absurd rfl hne
    | cons c p =>
      have hm : DMRule.ofParts (c :: p, s, v, o) ∈ rulesFor c items := by
        unfold rulesFor
        rw [List.mem_filter]
        exact ⟨List.mem_filterMap.mpr ⟨_, hi, rfl⟩, by simp [DMRule.ofParts]⟩
      have hg := encoder_rules f items c
      unfold someNonempty at hg
      rw [if_neg (fun h0 => by rw [h0] at hm; cases hm)] at hg
      have hmem : ∀ m : Assoc Char (List DMRule), ∀ rs, m.get? c = some rs → (c, rs) ∈ m := by
        intro m rs hm
        unfold Assoc.get? at hm
        induction m with
        | nil => cases hm
        | cons e m ih =>
          obtain ⟨k, w⟩ := e
          rw [List.lookup_cons] at hm
          by_cases hk : c = k
          · subst hk; simp at hm; subst hm; simp
          · rw [show (c == k) = false by simpa using hk] at hm
            exact List.mem_cons_of_mem _ (ih hm)
      have := h _ (hmem _ _ hg) _ ((sortRules_perm _).mem_iff.mpr hm)
      rw [← he]
      simpa only [DMRule.ofParts, alternatives_eq] using this
  | fold a b tl => cases he
  | blank tl => cases he
  | block text tl => cases he

/-- `Tame` as a check. -/
def tameB (k : Nat) (r : DMSpecRule) : Bool :=
  decide (r.atStart.length ≤ k ∧ r.beforeVowel.length ≤ k ∧ r.other.length ≤ k) &&
    ((r.atStart.all fun a => !a.contains '0') ||
      (r.atStart.all fun a => a.head? == some '0' && !a.tail.contains '0')) &&
    ((r.beforeVowel ++ r.other).all fun a => !a.contains '0') && (r.pattern.head? != some '\x00')

theorem tame_of_tameB {k : Nat} {r : DMSpecRule} (h : tameB k r = true) : r.Tame k := by
  unfold tameB at h
  simp only [Bool.and_eq_true, decide_eq_true_eq, Bool.or_eq_true, List.all_eq_true, Bool.not_eq_true',
    bne_iff_ne] at h
  obtain ⟨⟨⟨h1, h2⟩, h3⟩, h4⟩ := h
  refine ⟨h1, ?_, ?_, h4⟩
  · rcases h2 with h2 | h2
    · exact .inl fun a ha => by simpa using h2 a ha
    · refine .inr fun a ha => ?_
      obtain ⟨h5, h6⟩ := h2 a ha
      cases a with
      | nil => simp at h5
      | cons x a => exact ⟨a, by simpa using h5, by simpa using h6⟩
  · intro a ha
    simpa using h3 a ha

/-- Exactly one partial code, whatever the groups, if each has one alternative. -/
theorem fold_single (gs : List (List Str × Bool)) (p : Partial) (h : ∀ g ∈ gs, g.1.length = 1) :
    ∃ q, gs.foldl (fun ps g => (ps.flatMap fun p => g.1.map (p.add g.2)).eraseDups) [p] = [q] := by
  induction gs generalizing p with
  | nil => exact ⟨p, rfl⟩
  | cons g gs ih =>
    obtain ⟨a, ha⟩ := List.length_eq_one_iff.mp (h g (by simp))
    rw [List.foldl_cons, ha]
    simp only [List.flatMap_cons, List.flatMap_nil, List.append_nil, List.map_cons, List.map_nil,
      List.eraseDups_cons, List.filter_nil, List.eraseDups_nil]
    exact ih _ (fun x hx => h x (by simp [hx]))

theorem groups_single {rules : List DMSpecRule}
    (ht : ∀ r ∈ rules, r.atStart.length = 1 ∧ r.beforeVowel.length = 1 ∧ r.other.length = 1) (text : Str)
    (skip : Nat) (prev : Option Char) : ∀ g ∈ dmGroups rules prev skip text, g.1.length = 1 := by
  induction text generalizing skip prev with
  | nil => intro g hg; unfold dmGroups at hg; cases hg
  | cons x text ih =>
    cases skip with
    | succ skip => unfold dmGroups; exact ih skip prev
    | zero =>
      unfold dmGroups
      by_cases hall : (rules.all fun r => r.pattern.head? != some x) = true
      · rw [if_pos hall]; exact ih 0 prev
      · rw [if_neg hall]
        cases hb : bestRule rules (x :: text) with
        | none => exact ih 0 _
        | some r =>
          intro g hg
          rcases List.mem_cons.mp hg with rfl | hg
          · obtain ⟨h1, h2, h3⟩ := ht r (bestRule_mem hb)
            unfold alternativesAt
            dsimp only
            by_cases hp : prev = none ∨ prev = some '\x00'
            · rw [if_pos hp]; exact h1
            · rw [if_neg hp]
              split
              · split
                · exact h2
                · exact h3
              · exact h3
          · exact ih _ _ g hg

theorem codes_single {rules : List DMSpecRule}
    (ht : ∀ r ∈ rules, r.atStart.length = 1 ∧ r.beforeVowel.length = 1 ∧ r.other.length = 1) (text : Str) :
    ∃ c, dmCodes rules text = [c] := by
  obtain ⟨q, hq⟩ := fold_single _ ⟨[], none⟩ (groups_single ht text 0 none)
  exact ⟨pad6 q.code, by unfold dmCodes dmPaths; rw [hq]; rfl⟩

end DMKProofs
end Verif
