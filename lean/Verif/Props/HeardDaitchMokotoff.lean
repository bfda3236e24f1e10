import Verif.Props.OneCode
/-!
# C105: letters that are always heard (Daitch-Mokotoff Soundex)
-/
namespace Verif.Props
open Spec DaitchMokotoff DMKProofs InterchangeProofs
set_option linter.unusedSimpArgs false

namespace HeardProofs

/-- An alternative with a digit other than zero and without zeros. -/
def loudAlt (a : Str) : Bool := !a.isEmpty && !a.contains '0'

/-- Letters that always have a digit. -/
def dmkHeard : Str := c!"bcdfgklmnpqrstvwxz"

theorem best_some {rules : List DMSpecRule} {text : Str} {r : DMSpecRule} (hr : r ∈ rules)
    (hp : r.pattern.isPrefixOf text = true) : ∃ x, bestRule rules text = some x := by
  unfold bestRule
  have hne : rules.filter (fun r => r.pattern.isPrefixOf text) ≠ [] := by
    intro h
    have : r ∈ rules.filter (fun r => r.pattern.isPrefixOf text) := List.mem_filter.mpr ⟨hr, hp⟩
    rw [h] at this; cases this
  simp only
  generalize rules.filter (fun r => r.pattern.isPrefixOf text) = l at hne
  have key : ∀ (l : List Nat) (m : Nat), l.foldl max m = m ∨ l.foldl max m ∈ l := by
    intro l
    induction l with
    | nil => intro m; exact .inl rfl
    | cons a l ih =>
      intro m
      rw [List.foldl_cons]
      rcases ih (max m a) with h | h
      · rw [h]
        by_cases hm : a ≤ m
        · left; omega
        · right; rw [show max m a = a by omega]; simp
      · right; simp [h]
  have : ∃ x ∈ l, byteLen x.pattern = longest l := by
    rcases key (l.map fun r => byteLen r.pattern) 0 with h | h
    · cases l with
      | nil => exact absurd rfl hne
      | cons x l =>
        refine ⟨x, by simp, ?_⟩
        have h' : longest (x :: l) = 0 := h
        have : byteLen x.pattern ≤ longest (x :: l) := by
          unfold longest
          have mono : ∀ (l : List Nat) (m : Nat), m ≤ l.foldl max m := by
            intro l
            induction l with
            | nil => intro m; exact Nat.le_refl m
            | cons a l ih => intro m; exact Nat.le_trans (Nat.le_max_left m a) (ih _)
          rw [List.map_cons, List.foldl_cons]
          exact Nat.le_trans (Nat.le_max_right 0 _) (mono _ _)
        omega
    · obtain ⟨x, hx, e⟩ := List.mem_map.mp h
      exact ⟨x, hx, e⟩
  obtain ⟨x, hx, e⟩ := this
  cases hf : l.find? (fun r => byteLen r.pattern == longest l) with
  | some y => exact ⟨y, rfl⟩
  | none =>
    have := List.find?_eq_none.mp hf x hx
    rw [e] at this; simp at this

/-- What is used about the rules. -/
structure Sounding (rules : List DMSpecRule) : Prop where
  filled : ∀ r ∈ rules, r.pattern ≠ []
  single : ∀ c, isAsciiLower c = true → ∃ r ∈ rules, r.pattern = [c]
  letters : ∀ r ∈ rules, ∀ c, r.pattern.head? = some c → isAscii c = true → isAsciiLower c = true
  loud : ∀ r ∈ rules, (∃ c ∈ r.pattern, c ∈ dmkHeard) → ∀ a ∈ r.atStart ++ r.beforeVowel ++ r.other, loudAlt a = true
  first : ∀ r ∈ rules, ∀ c, r.pattern.head? = some c → isAscii c = true → c ∉ c!"aeiou" → ∀ a ∈ r.atStart, loudAlt a = true
  start : ∀ r ∈ rules, ∀ a ∈ r.atStart, a = c!"0" ∨ '0' ∉ a
  later : ∀ r ∈ rules, ∀ a ∈ r.beforeVowel ++ r.other, '0' ∉ a

theorem sounding {rules : List DMSpecRule} (hd : Default rules) : Sounding rules := by
  constructor
  · intro r hr h
    have := default_all hd (fun r => !r.pattern.isEmpty) (by decide +kernel) r hr
    rw [h] at this; cases this
  · intro c hc
    have facts : ∀ c, isAscii c = true → isAsciiLower c = true → (ruleFor [c]).pattern = [c] := by
      apply forall_ascii; decide +kernel
    have ha : isAscii c = true := by
      unfold isAsciiLower at hc; unfold isAscii; simp at hc ⊢
      exact Nat.lt_of_le_of_lt hc.2 (by decide)
    have := facts c ha hc
    exact ⟨_, ruleFor_mem hd [c] (by rw [this]; simp), this⟩
  · intro r hr c hc ha
    have := default_all hd (fun r => !isAscii (r.pattern.headD 'a') || isAsciiLower (r.pattern.headD 'a')) (by decide +kernel) r hr
    cases hp : r.pattern with
    | nil => rw [hp] at hc; cases hc
    | cons x p =>
      rw [hp] at hc this
      injection hc with hc; subst hc
      simpa [ha] using this
  · intro r hr ⟨c, hc, hH⟩ a ha
    have := default_all hd (fun r => r.pattern.all (fun c => !dmkHeard.contains c) ||
      (r.atStart ++ r.beforeVowel ++ r.other).all loudAlt) (by decide +kernel) r hr
    rw [Bool.or_eq_true] at this
    rcases this with h | h
    · have := List.all_eq_true.mp h c hc
      simp [List.contains_iff_mem, hH] at this
    · exact List.all_eq_true.mp h a ha
  · intro r hr c hc hca hv a ha
    have := default_all hd (fun r => !isAscii (r.pattern.headD 'a') || c!"aeiou".contains (r.pattern.headD 'a') ||
      r.atStart.all loudAlt) (by decide +kernel) r hr
    cases hp : r.pattern with
    | nil => rw [hp] at hc; cases hc
    | cons x p =>
      rw [hp] at hc this
      injection hc with hc; subst hc
      have hv' : c!"aeiou".contains x = false := by
        rw [← Bool.not_eq_true, List.contains_iff_mem]; exact hv
      simp only [List.headD_cons, hca, hv', Bool.not_true, Bool.false_or] at this
      exact List.all_eq_true.mp this a ha
  · intro r hr a ha
    have := default_all hd (fun r => r.atStart.all fun a => a == c!"0" || !a.contains '0') (by decide +kernel) r hr
    have := List.all_eq_true.mp this a ha
    rw [Bool.or_eq_true] at this
    rcases this with h | h
    · exact .inl (by simpa using h)
    · exact .inr (by simpa using h)
  · intro r hr a ha
    have := default_all hd (fun r => (r.beforeVowel ++ r.other).all fun a => !a.contains '0') (by decide +kernel) r hr
    have := List.all_eq_true.mp this a ha
    simpa using this

theorem at_all (r : DMSpecRule) (prev : Option Char) (t : Str) :
    ∀ a ∈ alternativesAt r prev t, a ∈ r.atStart ++ r.beforeVowel ++ r.other := by
  intro a ha
  unfold alternativesAt at ha
  split at ha
  · simp [ha]
  · split at ha
    · split at ha <;> simp [ha]
    · simp [ha]

theorem at_later (r : DMSpecRule) (c : Char) (hc : c ≠ '\x00') (t : Str) :
    ∀ a ∈ alternativesAt r (some c) t, a ∈ r.beforeVowel ++ r.other := by
  intro a ha
  unfold alternativesAt at ha
  rw [if_neg (by simp [hc])] at ha
  split at ha
  · split at ha <;> simp [ha]
  · simp [ha]

/-- After the first group there are no zeros. -/
theorem groups_later {rules : List DMSpecRule} (hs : Sounding rules) (text : Str) (ht : AsciiStr text) :
    ∀ (c : Char) (skip : Nat), c ≠ '\x00' → ∀ g ∈ dmGroups rules (some c) skip text, ∀ a ∈ g.1, '0' ∉ a := by
  induction text with
  | nil => intro c skip _ g hg; cases skip <;> simp [dmGroups] at hg
  | cons x t ih =>
    rw [asciiStr_cons] at ht
    intro c skip hc
    cases skip with
    | succ k => exact ih ht.2 c k hc
    | zero =>
      rw [dmGroups]
      split
      · exact ih ht.2 c 0 hc
      · rename_i hx
        have hx0 : x ≠ '\x00' := by
          simp only [Bool.not_eq_true, List.all_eq_false, bne_iff_ne, ne_eq, Decidable.not_not] at hx
          obtain ⟨r, hr, hh⟩ := hx
          have := hs.letters r hr x hh ht.1
          rintro rfl
          revert this; decide
        split
        · exact ih ht.2 x 0 hx0
        · rename_i r hb
          intro g hg
          rcases List.mem_cons.mp hg with rfl | hg
          · intro a ha
            exact hs.later r (OneCodeProofs.best_mem hb).1 a (at_later r c hc _ a ha)
          · exact ih ht.2 x _ hx0 g hg

/-- The groups of a text: only the first may have zeros, and then a single one. -/
theorem groups_zeros {rules : List DMSpecRule} (hs : Sounding rules) (text : Str) (ht : AsciiStr text) :
    dmGroups rules none 0 text = [] ∨ ∃ g gs, dmGroups rules none 0 text = g :: gs ∧
      (∀ a ∈ g.1, a = c!"0" ∨ '0' ∉ a) ∧ ∀ g ∈ gs, ∀ a ∈ g.1, '0' ∉ a := by
  induction text with
  | nil => exact .inl (by simp [dmGroups])
  | cons x t ih =>
    rw [asciiStr_cons] at ht
    rw [dmGroups]
    split
    · exact ih ht.2
    · rename_i hx
      have hx0 : x ≠ '\x00' := by
        simp only [Bool.not_eq_true, List.all_eq_false, bne_iff_ne, ne_eq, Decidable.not_not] at hx
        obtain ⟨r, hr, hh⟩ := hx
        have := hs.letters r hr x hh ht.1
        rintro rfl
        revert this; decide
      split
      · have := groups_later hs t ht.2 x 0 hx0
        cases hg : dmGroups rules (some x) 0 t with
        | nil => exact .inl rfl
        | cons g gs =>
          rw [hg] at this
          exact .inr ⟨g, gs, rfl, fun a ha => .inr (this g (by simp) a ha), fun g hg => this g (by simp [hg])⟩
      · rename_i r hb
        refine .inr ⟨_, _, rfl, fun a ha => ?_, groups_later hs t ht.2 x _ hx0⟩
        have : a ∈ r.atStart := by simpa [alternativesAt] using ha
        exact hs.start r (OneCodeProofs.best_mem hb).1 a this

/-- A letter that is heard belongs to a group with digits. -/
theorem groups_loud {rules : List DMSpecRule} (hs : Sounding rules) (text : Str) (ht : AsciiStr text) :
    ∀ (prev : Option Char) (skip : Nat), (∃ c ∈ text.drop skip, c ∈ dmkHeard) →
      ∃ g ∈ dmGroups rules prev skip text, ∀ a ∈ g.1, loudAlt a = true := by
  induction text with
  | nil => intro prev skip ⟨c, hc, _⟩; simp at hc
  | cons x t ih =>
    rw [asciiStr_cons] at ht
    intro prev skip hc
    cases skip with
    | succ k => exact ih ht.2 prev k hc
    | zero =>
      rw [List.drop_zero] at hc
      have low : ∀ c ∈ dmkHeard, isAsciiLower c = true := by decide
      rw [dmGroups]
      split
      · rename_i hx
        refine ih ht.2 prev 0 ?_
        obtain ⟨c, hc, hH⟩ := hc
        refine ⟨c, (List.mem_cons.mp hc).resolve_left ?_, hH⟩
        rintro rfl
        obtain ⟨r, hr, hp⟩ := hs.single c (low c hH)
        have := List.all_eq_true.mp hx r hr
        rw [hp] at this; simp at this
      · split
        · rename_i hb
          refine ih ht.2 _ 0 ?_
          obtain ⟨c, hc, hH⟩ := hc
          refine ⟨c, (List.mem_cons.mp hc).resolve_left ?_, hH⟩
          rintro rfl
          obtain ⟨r, hr, hp⟩ := hs.single c (low c hH)
          obtain ⟨y, hy⟩ := best_some (text := c :: t) hr (by rw [hp]; simp [List.isPrefixOf])
          rw [hy] at hb; cases hb
        · rename_i r hb
          obtain ⟨hr, q, hq⟩ := OneCodeProofs.best_mem hb
          by_cases hin : ∃ c ∈ r.pattern, c ∈ dmkHeard
          · exact ⟨_, List.mem_cons_self, fun a ha => hs.loud r hr hin a (at_all r _ _ a ha)⟩
          · obtain ⟨g, hg, h⟩ := ih ht.2 (some x) (byteLen r.pattern - 1) (by
              obtain ⟨c, hc, hH⟩ := hc
              have hb : byteLen r.pattern = r.pattern.length := by
                refine byteLen_ascii fun y hy => ?_
                have : y ∈ x :: t := by rw [← hq]; simp [hy]
                rcases List.mem_cons.mp this with rfl | h
                · exact ht.1
                · exact ht.2 y h
              refine ⟨c, ?_, hH⟩
              rw [← hq] at hc
              have hc := (List.mem_append.mp hc).resolve_left (fun h => hin ⟨c, h, hH⟩)
              rw [hb]
              cases hp : r.pattern with
              | nil => exact absurd hp (hs.filled r hr)
              | cons y p =>
                rw [hp] at hq
                injection hq with _ hq
                rw [← hq]; simpa using hc)
            exact ⟨g, List.mem_cons_of_mem _ hg, h⟩

/-- A first letter other than a vowel belongs to a group with digits. -/
theorem groups_first {rules : List DMSpecRule} (hs : Sounding rules) (text : Str) (ht : AsciiStr text)
    (h : ∃ c r, text.filter isAsciiLower = c :: r ∧ c ∉ c!"aeiou") :
    ∃ g ∈ dmGroups rules none 0 text, ∀ a ∈ g.1, loudAlt a = true := by
  induction text with
  | nil => obtain ⟨c, r, h, _⟩ := h; cases h
  | cons x t ih =>
    rw [asciiStr_cons] at ht
    obtain ⟨c, r, h, hv⟩ := h
    by_cases hx : isAsciiLower x = true
    · rw [List.filter_cons_of_pos hx] at h
      injection h with h _
      subst h
      obtain ⟨r0, hr0, hp⟩ := hs.single x hx
      obtain ⟨y, hy⟩ := best_some (text := x :: t) hr0 (by rw [hp]; simp [List.isPrefixOf])
      obtain ⟨hr, q, hq⟩ := OneCodeProofs.best_mem hy
      rw [dmGroups, if_neg, hy]
      · refine ⟨_, List.mem_cons_self, fun a ha => ?_⟩
        have : a ∈ y.atStart := by simpa [alternativesAt] using ha
        refine hs.first y hr x ?_ ht.1 hv a this
        cases hp : y.pattern with
        | nil => exact absurd hp (hs.filled y hr)
        | cons z p =>
          rw [hp] at hq
          injection hq with hq _
          rw [hq]; rfl
      · intro hall
        have := List.all_eq_true.mp hall r0 hr0
        rw [hp] at this; simp at this
    · rw [List.filter_cons_of_neg hx] at h
      rw [dmGroups, if_pos]
      · exact ih ht.2 ⟨c, r, h, hv⟩
      · refine List.all_eq_true.mpr fun r hr => ?_
        simp only [bne_iff_ne, ne_eq]
        intro hh
        exact hx (hs.letters r hr x hh ht.1)

/-- A code with a digit other than zero. -/
def Voiced (p : Partial) : Prop := p.code.length ≤ 6 ∧ ∃ x ∈ p.code, x ≠ '0'

/-- A code without such a digit, so far. -/
def Mute (p : Partial) : Prop :=
  (p.code = [] ∨ p.code = c!"0") ∧ (p.last = none ∨ p.last = some [] ∨ p.last = some c!"0")

theorem add_eq (p : Partial) (f : Bool) (a : Str) : p.add f a =
    { code := if p.last.any (fun l => a.isSuffixOf l) && !f then p.code else (p.code ++ a).take 6, last := some a } := by
  unfold Partial.add
  cases p.last <;> rfl

theorem voiced_add {p : Partial} (h : Voiced p) (f : Bool) (a : Str) : Voiced (p.add f a) := by
  obtain ⟨h1, x, h2, h3⟩ := h
  rw [add_eq]
  generalize p.last.any (fun l => a.isSuffixOf l) = rep
  by_cases hr : (rep && !f) = true
  · rw [if_pos hr]; exact ⟨h1, x, h2, h3⟩
  · rw [if_neg hr]
    refine ⟨by simp; omega, x, ?_, h3⟩
    rw [List.take_append, List.take_of_length_le h1]
    simp [h2]

theorem mute_add {p : Partial} (h : Mute p) (f : Bool) (a : Str) (ha : '0' ∉ a) :
    (a = [] → Mute (p.add f a)) ∧ (a ≠ [] → Voiced (p.add f a)) := by
  obtain ⟨h1, h2⟩ := h
  constructor
  · rintro rfl
    rw [add_eq]
    refine ⟨?_, .inr (.inl rfl)⟩
    simp only [List.append_nil]
    have : p.code.take 6 = p.code := by rcases h1 with h | h <;> rw [h] <;> rfl
    rw [this, ite_self]
    exact h1
  · intro hne
    have rep : p.last.any (fun l => a.isSuffixOf l) = false := by
      rcases h2 with h | h | h <;> rw [h]
      · rfl
      · simp only [Option.any_some, ← Bool.not_eq_true, List.isSuffixOf_iff_suffix]
        intro h; exact hne (List.suffix_nil.mp h)
      · simp only [Option.any_some, ← Bool.not_eq_true, List.isSuffixOf_iff_suffix]
        intro h
        cases a with
        | nil => exact hne rfl
        | cons y a => exact ha ((by simpa using h.subset (List.mem_cons_self (a := y) (l := a)) : y = '0') ▸ List.mem_cons_self)
    rw [add_eq, rep]
    simp only [Bool.false_and, Bool.false_eq_true, if_false]
    cases a with
    | nil => exact absurd rfl hne
    | cons y a =>
      refine ⟨by simp; omega, y, ?_, fun h => ha (by simp [h])⟩
      rcases h1 with h | h <;> rw [h] <;> simp

def dmkStep (ps : List Partial) (g : List Str × Bool) : List Partial := (ps.flatMap fun p => g.1.map (p.add g.2)).eraseDups

theorem mem_step {ps : List Partial} {g : List Str × Bool} {q : Partial} (h : q ∈ dmkStep ps g) :
    ∃ p ∈ ps, ∃ a ∈ g.1, q = p.add g.2 a := by
  unfold dmkStep at h
  have := List.mem_eraseDups.mp h
  simp only [List.mem_flatMap, List.mem_map] at this
  obtain ⟨p, hp, a, ha, e⟩ := this
  exact ⟨p, hp, a, ha, e.symm⟩

theorem paths_heard (gs : List (List Str × Bool)) (hz : ∀ g ∈ gs, ∀ a ∈ g.1, '0' ∉ a) : ∀ ps : List Partial,
    (∀ p ∈ ps, Voiced p ∨ Mute p) → ((∀ p ∈ ps, Voiced p) ∨ ∃ g ∈ gs, ∀ a ∈ g.1, loudAlt a = true) →
    ∀ p ∈ gs.foldl dmkStep ps, Voiced p := by
  induction gs with
  | nil =>
    intro ps _ h
    rcases h with h | ⟨g, hg, _⟩
    · exact h
    · cases hg
  | cons g gs ih =>
    intro ps hp h
    have hz1 := hz g (by simp)
    refine ih (fun g hg => hz g (by simp [hg])) _ ?_ ?_
    · intro q hq
      obtain ⟨p, h1, a, ha, rfl⟩ := mem_step hq
      rcases hp p h1 with h | h
      · exact .inl (voiced_add h _ _)
      · by_cases he : a = []
        · exact .inr ((mute_add h _ a (hz1 a ha)).1 he)
        · exact .inl ((mute_add h _ a (hz1 a ha)).2 he)
    · rcases h with h | ⟨g', hg, hl⟩
      · left
        intro q hq
        obtain ⟨p, h1, a, ha, rfl⟩ := mem_step hq
        exact voiced_add (h p h1) _ _
      · rcases List.mem_cons.mp hg with rfl | hg
        · left
          intro q hq
          obtain ⟨p, h1, a, ha, rfl⟩ := mem_step hq
          rcases hp p h1 with h | h
          · exact voiced_add h _ _
          · refine (mute_add h _ a (hz1 a ha)).2 ?_
            rintro rfl
            exact absurd (hl [] ha) (by decide)
        · exact .inr ⟨g', hg, hl⟩

theorem codes_voiced {rules : List DMSpecRule} (hs : Sounding rules) (text : Str) (ht : AsciiStr text)
    (h : ∃ g ∈ dmGroups rules none 0 text, ∀ a ∈ g.1, loudAlt a = true) : ∀ code ∈ dmCodes rules text, code ≠ c!"000000" := by
  intro code hc
  unfold dmCodes at hc
  obtain ⟨p, hp, rfl⟩ := List.mem_map.mp hc
  have hv : Voiced p := by
    have e : ∀ gs, dmPaths gs = gs.foldl dmkStep [⟨[], none⟩] := fun _ => rfl
    rw [e] at hp
    rcases groups_zeros hs text ht with h0 | ⟨g, gs, h0, hz, hz'⟩
    · rw [h0] at h; obtain ⟨g, hg, _⟩ := h; cases hg
    · rw [h0] at hp h
      rw [List.foldl_cons] at hp
      have init : Mute ⟨[], none⟩ := ⟨.inl rfl, .inl rfl⟩
      refine paths_heard gs hz' _ ?_ ?_ p hp
      · intro q hq
        obtain ⟨p, h1, a, ha, rfl⟩ := mem_step hq
        have : p = ⟨[], none⟩ := by simpa using h1
        subst this
        rcases hz a ha with rfl | h0
        · exact .inr ⟨.inr (by simp [Partial.add]), .inr (.inr rfl)⟩
        · by_cases he : a = []
          · exact .inr ((mute_add init _ a h0).1 he)
          · exact .inl ((mute_add init _ a h0).2 he)
      · obtain ⟨g', hg, hl⟩ := h
        rcases List.mem_cons.mp hg with rfl | hg
        · left
          intro q hq
          obtain ⟨p, h1, a, ha, rfl⟩ := mem_step hq
          have : p = ⟨[], none⟩ := by simpa using h1
          subst this
          have hl := hl a ha
          unfold loudAlt at hl
          simp only [Bool.and_eq_true, Bool.not_eq_true', List.isEmpty_eq_false_iff] at hl
          refine (mute_add init _ a ?_).2 hl.1
          intro h
          rw [← List.contains_iff_mem, hl.2] at h; cases h
        · exact .inr ⟨g', hg, hl⟩
  obtain ⟨_, x, hx, hne⟩ := hv
  intro h
  have : x ∈ pad6 p.code := by unfold pad6; simp [hx]
  rw [h] at this
  exact hne (by simpa using this)

end HeardProofs

/-- C105. Daitch-Mokotoff Soundex with the embedded rules: none of the codes of an ASCII name is 000000 if the name has a
letter other than A E H I J O U Y, or if its first letter is not one of A E I O U. -/
theorem dm_heard (U : Unicode) (s : Str) (hs : AsciiStr s)
    (h : (∃ c ∈ asciiLetters s, c ∉ c!"AEHIJOUY") ∨ ∃ c r, asciiLetters s = c :: r ∧ c ∉ c!"AEIOU") :
    ∃ codes, defaultEncoder.innerSoundex U s true = .ok codes ∧ codes ≠ [] ∧ ∀ code ∈ codes, code ≠ c!"000000" := by
  obtain ⟨rules, hd, hc⟩ := default_codes
  have hne : dmCodes rules (clean U defaultEncoder s) ≠ [] := by
    obtain ⟨codes, h1, h2, _⟩ := dm_few_codes U s hs
    rw [Except.ok.inj ((hc U s).symm.trans h1)]
    rintro rfl
    simp at h2
  refine ⟨_, hc U s, hne, ?_⟩
  rw [clean_ascii U hs]
  have ha : AsciiStr ((s.filter fun c => !isAsciiWs c).map asciiLower) := by
    have hl : ∀ c, isAscii c = true → isAscii (asciiLower c) = true := by apply forall_ascii; decide +kernel
    intro c hc
    obtain ⟨d, hd', rfl⟩ := List.mem_map.mp hc
    exact hl d (hs d (List.mem_filter.mp hd').1)
  refine HeardProofs.codes_voiced (HeardProofs.sounding hd) _ ha ?_
  rcases h with ⟨c, hc, hv⟩ | ⟨c, r, hc, hv⟩
  · refine HeardProofs.groups_loud (HeardProofs.sounding hd) _ ha none 0 ?_
    obtain ⟨d, hd', rfl⟩ := List.mem_map.mp hc
    obtain ⟨hd', hal⟩ := List.mem_filter.mp hd'
    have : ∀ c, isAscii c = true → isAsciiAlpha c = true → asciiUpper c ∉ c!"AEHIJOUY" →
        asciiLower c ∈ HeardProofs.dmkHeard ∧ isAsciiWs c = false := by apply forall_ascii; decide +kernel
    obtain ⟨h1, h2⟩ := this d (hs d hd') hal hv
    exact ⟨_, List.mem_map_of_mem (List.mem_filter.mpr ⟨hd', by simp [h2]⟩), h1⟩
  · refine HeardProofs.groups_first (HeardProofs.sounding hd) _ ha ?_
    have e : ((s.filter fun c => !isAsciiWs c).map asciiLower).filter isAsciiLower = (asciiLetters s).map asciiLower := by
      unfold asciiLetters
      have f1 : ∀ c, isAscii c = true → isAsciiAlpha c = true → isAsciiWs c = false ∧ isAsciiLower (asciiLower c) = true ∧
          asciiLower (asciiUpper c) = asciiLower c := by apply forall_ascii; decide +kernel
      have f2 : ∀ c, isAscii c = true → isAsciiAlpha c = false → isAsciiLower (asciiLower c) = false := by
        apply forall_ascii; decide +kernel
      clear hc hne ha hd
      induction s with
      | nil => rfl
      | cons x s ih =>
        rw [asciiStr_cons] at hs
        have ih := ih hs.2
        cases hx : isAsciiAlpha x with
        | true =>
          obtain ⟨g1, g2, g3⟩ := f1 x hs.1 hx
          simp [List.filter_cons, hx, g1, g2, g3] at ih ⊢
          exact ih
        | false =>
          have g := f2 x hs.1 hx
          by_cases hw : isAsciiWs x = true
          · simp [List.filter_cons, hx, hw] at ih ⊢
            exact ih
          · simp [List.filter_cons, hx, hw, g] at ih ⊢
            exact ih
    rw [e, hc]
    have up : isAsciiUpper c = true := asciiLetters_upper c (by rw [hc]; simp)
    have f : ∀ c, isAscii c = true → isAsciiUpper c = true → c ∉ c!"AEIOU" → asciiLower c ∉ c!"aeiou" := by
      apply forall_ascii; decide +kernel
    refine ⟨_, _, rfl, f c ?_ up hv⟩
    unfold isAsciiUpper at up; unfold isAscii; simp at up ⊢
    exact Nat.lt_of_le_of_lt up.2 (by decide)

end Verif.Props
