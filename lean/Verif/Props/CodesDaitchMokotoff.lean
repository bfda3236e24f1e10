import Verif.Props.DaitchMokotoffChoices
import Verif.Spec.Codes
/-!
# C93: which strings are codes (Daitch-Mokotoff, embedded rules)
-/

set_option linter.unusedSimpArgs false

namespace Verif.DMKProofs
open Parser Spec DaitchMokotoff ParserProofs

/-- The digits inside a code. -/
def insideDigits : Str := c!"13456789"

/-- A rule that gives 0 and 2 only as the first digit at the start of a word. -/
def shapely (r : DMSpecRule) : Bool :=
  (r.atStart.all fun a => (a.take 1).all (c!"0123456789".contains ·) && (a.drop 1).all (insideDigits.contains ·)) &&
  ((r.beforeVowel ++ r.other).all fun a => a.all (insideDigits.contains ·)) && (r.pattern.head? != some '\x00')

/-- The alternatives inside a word. -/
def InsideGroup (g : List Str × Bool) : Prop := ∀ a ∈ g.1, ∀ x ∈ a, x ∈ insideDigits

/-- The alternatives at the start of a word. -/
def StartGroup (g : List Str × Bool) : Prop :=
  ∀ a ∈ g.1, (∀ x ∈ a.take 1, x ∈ c!"0123456789") ∧ ∀ x ∈ a.drop 1, x ∈ insideDigits

theorem shapely_iff {r : DMSpecRule} (h : shapely r = true) : StartGroup (r.atStart, false) ∧
    InsideGroup (r.beforeVowel, false) ∧ InsideGroup (r.other, false) ∧ r.pattern.head? ≠ some '\x00' := by
  simp only [shapely, Bool.and_eq_true, List.all_eq_true, List.contains_iff_mem, bne_iff_ne, List.mem_append] at h
  obtain ⟨⟨h1, h2⟩, h3⟩ := h
  exact ⟨h1, fun a ha => h2 a (Or.inl ha), fun a ha => h2 a (Or.inr ha), h3⟩

theorem alternatives_inside {r : DMSpecRule} (h : shapely r = true) {c : Char} (hc : c ≠ '\x00') (text : Str) (f : Bool) :
    InsideGroup (alternativesAt r (some c) text, f) := by
  obtain ⟨_, h2, h3, _⟩ := shapely_iff h
  unfold alternativesAt
  rw [if_neg (by simp [hc])]
  split
  · split
    · exact h2
    · exact h3
  · exact h3

theorem head_not_nul {rules : List DMSpecRule} (hr : ∀ r ∈ rules, shapely r = true) {c : Char}
    (h : ¬ (rules.all fun r => r.pattern.head? != some c) = true) : c ≠ '\x00' := by
  simp only [Bool.not_eq_true, List.all_eq_false, bne_iff_ne, ne_eq, Decidable.not_not] at h
  obtain ⟨r, hm, hp⟩ := h
  intro e
  subst e
  exact (shapely_iff (hr r hm)).2.2.2 hp

theorem groups_inside {rules : List DMSpecRule} (hr : ∀ r ∈ rules, shapely r = true) (text : Str) :
    ∀ (skip : Nat) (c : Char), c ≠ '\x00' → ∀ g ∈ dmGroups rules (some c) skip text, InsideGroup g := by
  induction text with
  | nil => intro skip c _ g hg; unfold dmGroups at hg; cases hg
  | cons x text ih =>
    intro skip c hc
    cases skip with
    | succ skip => unfold dmGroups; exact ih skip c hc
    | zero =>
      unfold dmGroups
      by_cases hall : (rules.all fun r => r.pattern.head? != some x) = true
      · rw [if_pos hall]; exact ih 0 c hc
      · rw [if_neg hall]
        have hx := head_not_nul hr hall
        cases hb : bestRule rules (x :: text) with
        | none => exact ih 0 x hx
        | some r =>
          intro g hg
          rcases List.mem_cons.mp hg with rfl | hg
          · exact alternatives_inside (hr r (bestRule_mem hb)) hc _ _
          · exact ih _ x hx g hg

theorem groups_start {rules : List DMSpecRule} (hr : ∀ r ∈ rules, shapely r = true) (text : Str) : ∀ skip : Nat,
    (∀ g ∈ dmGroups rules none skip text, InsideGroup g) ∨
      ∃ g gs, dmGroups rules none skip text = g :: gs ∧ StartGroup g ∧ ∀ g ∈ gs, InsideGroup g := by
  induction text with
  | nil => intro skip; left; intro g hg; unfold dmGroups at hg; cases hg
  | cons x text ih =>
    intro skip
    cases skip with
    | succ skip => unfold dmGroups; exact ih skip
    | zero =>
      unfold dmGroups
      by_cases hall : (rules.all fun r => r.pattern.head? != some x) = true
      · rw [if_pos hall]; exact ih 0
      · rw [if_neg hall]
        have hx := head_not_nul hr hall
        cases hb : bestRule rules (x :: text) with
        | none => exact Or.inl (groups_inside hr text 0 x hx)
        | some r =>
          right
          refine ⟨_, _, rfl, ?_, groups_inside hr text _ x hx⟩
          unfold alternativesAt
          rw [if_pos (Or.inl rfl)]
          exact (shapely_iff (hr r (bestRule_mem hb))).1

theorem written_inside {gs : List (List Str × Bool)} {choice : List (Str × Bool)} (hc : DMChoice gs choice) :
    ∀ last, (∀ g ∈ gs, InsideGroup g) → ∀ x ∈ written last choice, x ∈ insideDigits := by
  induction hc with
  | nil => intro last _ x hx; cases last <;> cases hx
  | @cons alts force a groups choice ha hc ih =>
    intro last hg x hx
    have ih := ih (some a) fun g h => hg g (List.mem_cons_of_mem _ h)
    have h0 : ∀ x ∈ a, x ∈ insideDigits := hg _ List.mem_cons_self a ha
    cases last with
    | none =>
      rcases List.mem_append.mp hx with hx | hx
      · exact h0 x hx
      · exact ih x hx
    | some l =>
      rw [written] at hx
      split at hx
      · rcases List.mem_append.mp hx with hx | hx
        · exact h0 x hx
        · exact ih x hx
      · exact ih x hx

theorem inside_digit {x : Char} (h : x ∈ insideDigits) : x ∈ c!"0123456789" := by
  have : ∀ x ∈ insideDigits, x ∈ c!"0123456789" := by decide
  exact this x h

theorem written_start {rules : List DMSpecRule} (hr : ∀ r ∈ rules, shapely r = true) (text : Str) {choice : List (Str × Bool)}
    (hc : DMChoice (dmGroups rules none 0 text) choice) :
    (∀ x ∈ (written none choice).take 1, x ∈ c!"0123456789") ∧ ∀ x ∈ (written none choice).drop 1, x ∈ insideDigits := by
  rcases groups_start hr text 0 with h | ⟨g, gs, e, h1, h2⟩
  · have := written_inside hc none h
    exact ⟨fun x hx => inside_digit (this x (List.mem_of_mem_take hx)), fun x hx => this x (List.mem_of_mem_drop hx)⟩
  · rw [e] at hc
    cases hc with
    | @cons alts force a _ choice ha hc =>
      have hw := written_inside hc (some a) h2
      obtain ⟨h3, h4⟩ := h1 a ha
      rw [written]
      cases a with
      | nil =>
        rw [List.nil_append]
        exact ⟨fun x hx => inside_digit (hw x (List.mem_of_mem_take hx)), fun x hx => hw x (List.mem_of_mem_drop hx)⟩
      | cons y a =>
        refine ⟨fun x hx => h3 x hx, fun x hx => ?_⟩
        rcases List.mem_append.mp (show x ∈ a ++ written (some (y :: a)) choice from hx) with hx | hx
        · exact h4 x hx
        · exact hw x hx

theorem code_shape {w : Str} (h1 : ∀ x ∈ w.take 1, x ∈ c!"0123456789") (h2 : ∀ x ∈ w.drop 1, x ∈ insideDigits) :
    DaitchMokotoffCode (pad6 (w.take 6)) := by
  refine ⟨?_, ?_⟩
  · simp [pad6]; omega
  · cases w with
    | nil => exact ⟨'0', [], 5, by decide, by simp, rfl⟩
    | cons x t =>
      exact ⟨x, t.take 5, 6 - ((x :: t).take 6).length, h1 x (by simp), fun d hd => h2 d (List.mem_of_mem_take hd), rfl⟩

/-! ## A word for each code -/

theorem mem_dmRules_iff {f : Bool} {items : List DMItem} {r : DMRule} {c : Char} {rs : List DMRule}
    (hg : (encoderOf f items).rules.get? c = some rs) (h : r ∈ rs) : toSpec r ∈ dmRules items := by
  rw [encoder_rules] at hg
  unfold someNonempty at hg
  split at hg
  · cases hg
  · simp only [Option.map_some, Option.some.injEq] at hg
    subst hg
    have := (sortRules_perm _).mem_iff.mp h
    rw [dmRules_eq]
    exact List.mem_map_of_mem (List.mem_filter.mp this).1

theorem longest_le (rules : List DMSpecRule) (n : Nat) (h : ∀ r ∈ rules, byteLen r.pattern ≤ n) : longest rules ≤ n := by
  unfold longest
  have : ∀ (l : List Nat) (m : Nat), m ≤ n → (∀ x ∈ l, x ≤ n) → l.foldl max m ≤ n := by
    intro l
    induction l with
    | nil => intro m hm _; exact hm
    | cons a l ih =>
      intro m hm hl
      exact ih _ (Nat.max_le.mpr ⟨hm, hl a (by simp)⟩) fun x hx => hl x (by simp [hx])
  refine this _ 0 (Nat.zero_le _) ?_
  intro x hx
  obtain ⟨r, hr, rfl⟩ := List.mem_map.mp hx
  exact h r hr

theorem le_longest (rules : List DMSpecRule) (r : DMSpecRule) (hr : r ∈ rules) : byteLen r.pattern ≤ longest rules := by
  unfold longest
  have mono : ∀ (l : List Nat) (m : Nat), m ≤ l.foldl max m := by
    intro l
    induction l with
    | nil => intro m; exact Nat.le_refl _
    | cons a l ih => intro m; exact Nat.le_trans (Nat.le_max_left _ _) (ih _)
  have : ∀ (l : List Nat) (m : Nat), ∀ x ∈ l, x ≤ l.foldl max m := by
    intro l
    induction l with
    | nil => intro m x hx; cases hx
    | cons a l ih =>
      intro m x hx
      rcases List.mem_cons.mp hx with rfl | hx
      · exact Nat.le_trans (Nat.le_max_right _ _) (mono l _)
      · exact ih _ x hx
  exact this _ _ _ (List.mem_map_of_mem hr)

theorem bestRule_unique {rules : List DMSpecRule} {text : Str} {r : DMSpecRule} (hr : r ∈ rules)
    (hp : r.pattern.isPrefixOf text = true)
    (h : ∀ x ∈ rules, x.pattern.isPrefixOf text = true → x = r ∨ byteLen x.pattern < byteLen r.pattern) :
    bestRule rules text = some r := by
  unfold bestRule
  have hc : ∀ x ∈ rules.filter (fun r => r.pattern.isPrefixOf text), x = r ∨ byteLen x.pattern < byteLen r.pattern :=
    fun x hx => h x (List.mem_filter.mp hx).1 (List.mem_filter.mp hx).2
  have hm : r ∈ rules.filter (fun r => r.pattern.isPrefixOf text) := List.mem_filter.mpr ⟨hr, hp⟩
  dsimp only
  generalize rules.filter (fun r => r.pattern.isPrefixOf text) = cs at hc hm
  have hl : longest cs = byteLen r.pattern := by
    apply Nat.le_antisymm
    · apply longest_le
      intro x hx
      rcases hc x hx with rfl | h
      · exact Nat.le_refl _
      · omega
    · exact le_longest cs r hm
  rw [hl]
  cases hf : cs.find? (fun x => byteLen x.pattern == byteLen r.pattern) with
  | none =>
    have := List.find?_eq_none.mp hf r hm
    simp at this
  | some x =>
    have h1 := List.mem_of_find?_eq_some hf
    have h2 := List.find?_some hf
    rcases hc x h1 with rfl | h3
    · rfl
    · simp at h2; omega

/-- No pattern is longer than the text `w` and starts with it; those that start `w` are `r` or shorter than it. -/
def settles (w : Str) (r x : DMSpecRule) : Bool :=
  !(w.isPrefixOf x.pattern && x.pattern != w) &&
  (!x.pattern.isPrefixOf w || decide (x = r) || decide (byteLen x.pattern < byteLen r.pattern))

theorem bestRule_settled {rules : List DMSpecRule} {w rest : Str} {r : DMSpecRule} (hr : r ∈ rules)
    (hp : r.pattern.isPrefixOf w = true) (h : ∀ x ∈ rules, settles w r x = true) :
    bestRule rules (w ++ rest) = some r := by
  rw [List.isPrefixOf_iff_prefix] at hp
  refine bestRule_unique hr ?_ ?_
  · rw [List.isPrefixOf_iff_prefix]
    exact hp.trans (List.prefix_append _ _)
  · intro x hx hxp
    have := h x hx
    simp only [settles, Bool.and_eq_true, Bool.not_eq_true', Bool.and_eq_false_iff, Bool.or_eq_true, decide_eq_true_eq,
      bne_eq_false_iff_eq] at this
    obtain ⟨h1, h2⟩ := this
    rw [List.isPrefixOf_iff_prefix] at hxp
    have hxw : x.pattern <+: w := by
      rcases List.prefix_or_prefix_of_prefix hxp (List.prefix_append w rest) with h | h
      · exact h
      · rcases h1 with h1 | h1
        · rw [List.isPrefixOf_iff_prefix.mpr h] at h1; cases h1
        · rw [h1]; exact List.prefix_refl _
    rcases h2 with (h2 | h2) | h2
    · rw [List.isPrefixOf_iff_prefix.mpr hxw] at h2; cases h2
    · exact Or.inl h2
    · exact Or.inr h2

/-- The rule of the embedded file with a pattern. -/
def ruleFor (p : Str) : DMSpecRule :=
  match (((defaultEncoder.rules.get? (p.headD 'a')).getD []).find? fun r => r.pattern == p) with
  | some r => toSpec r
  | none => ⟨[], [], [], []⟩

/-- The rules are those of the embedded file. -/
structure Default (rules : List DMSpecRule) : Prop where
  shapely : ∀ r ∈ rules, shapely r = true
  mem : ∀ c rs, defaultEncoder.rules.get? c = some rs → ∀ r ∈ rs, toSpec r ∈ rules
  all : ∀ Q : DMSpecRule → Prop, (∀ e ∈ defaultEncoder.rules, ∀ r ∈ e.2, Q (toSpec r)) → ∀ r ∈ rules, Q r

theorem ruleFor_mem {rules : List DMSpecRule} (hd : Default rules) (p : Str) (h : (ruleFor p).pattern ≠ []) :
    ruleFor p ∈ rules := by
  unfold ruleFor at h ⊢
  cases hg : defaultEncoder.rules.get? (p.headD 'a') with
  | none => rw [hg] at h; exact absurd rfl h
  | some rs =>
    rw [hg] at h
    simp only [Option.getD_some] at h ⊢
    cases hf : rs.find? (fun r => r.pattern == p) with
    | none => rw [hf] at h; exact absurd rfl h
    | some r => exact hd.mem _ rs hg r (List.mem_of_find?_eq_some hf)

/-- The groups of a text that starts with the pattern `p`, which `w` settles. -/
def opens (w p : Str) : Bool :=
  (ruleFor p).pattern == p && p != [] && p.isPrefixOf w && defaultEncoder.rules.all fun e => e.2.all fun x => settles w (ruleFor p) (toSpec x)

theorem groups_open {rules : List DMSpecRule} (hd : Default rules) {c : Char} {w p rest : Str} (prev : Option Char)
    (h : opens (c :: w) p = true) :
    dmGroups rules prev 0 (c :: w ++ rest) =
      (alternativesAt (ruleFor p) prev (c :: w ++ rest), mn prev c) :: dmGroups rules (some c) (byteLen p - 1) (w ++ rest) := by
  simp only [opens, Bool.and_eq_true, beq_iff_eq, bne_iff_ne, List.all_eq_true] at h
  obtain ⟨⟨⟨h1, h2⟩, h3⟩, h4⟩ := h
  have hm := ruleFor_mem hd p (by rw [h1]; exact h2)
  have hb := bestRule_settled (rest := rest) hm (by rw [h1]; exact h3) (hd.all _ fun e he r hr => h4 e he r hr)
  rw [List.cons_append] at hb ⊢
  rw [dmGroups, if_neg, hb]
  · dsimp only
    rw [h1]
  · simp only [Bool.not_eq_true, List.all_eq_false, bne_iff_ne, ne_eq, Decidable.not_not]
    refine ⟨_, hm, ?_⟩
    rw [h1]
    cases p with
    | nil => exact absurd rfl h2
    | cons y p =>
      simp only [List.isPrefixOf, Bool.and_eq_true, beq_iff_eq] at h3
      rw [h3.1]; rfl

/-- The consonant for a digit. -/
def dmConsonant (d : Char) : Char :=
  if d = '3' then 't' else if d = '4' then 's' else if d = '5' then 'k' else if d = '6' then 'm'
  else if d = '7' then 'v' else if d = '8' then 'l' else 'r'

/-- The syllable for a digit inside a word. -/
def dmSyllable (d : Char) : Str := if d = '1' then c!"aia" else [dmConsonant d, 'a']

/-- The syllable for the first digit. -/
def dmOpening (d : Char) : Str :=
  if d = '0' then c!"aa" else if d = '1' then c!"iaa" else if d = '2' then c!"sta" else [dmConsonant d, 'a']

/-- The rest of a word: nothing, or it starts with one of these letters. -/
def Joins (rest : Str) : Prop := rest = [] ∨ ∃ c r, rest = c :: r ∧ c ∈ c!"atskmvlr"

theorem groups_a {rules : List DMSpecRule} (hd : Default rules) (prev : Char) (hp : prev ≠ '\x00') (rest : Str) (hr : Joins rest) :
    dmGroups rules (some prev) 0 ('a' :: rest) = ([[]], false) :: dmGroups rules (some 'a') 0 rest := by
  have hmn : mn (some prev) 'a' = false := by simp [mn]
  have ha : ∀ text, alternativesAt (ruleFor c!"a") (some prev) text = [[]] := by
    intro text
    have e1 : (ruleFor c!"a").beforeVowel = [[]] := by decide +kernel
    have e2 : (ruleFor c!"a").other = [[]] := by decide +kernel
    unfold alternativesAt
    rw [if_neg (by simp [hp]), e1, e2]
    split
    · split <;> rfl
    · rfl
  rcases hr with rfl | ⟨c, r, rfl, hc⟩
  · have hb : bestRule rules c!"a" = some (ruleFor c!"a") := by
      have h1 : (ruleFor c!"a").pattern = c!"a" := by decide +kernel
      refine bestRule_unique (ruleFor_mem hd _ (by rw [h1]; decide)) (by rw [h1]; decide) ?_
      exact hd.all (fun x => x.pattern.isPrefixOf c!"a" = true → x = ruleFor c!"a" ∨ byteLen x.pattern < byteLen (ruleFor c!"a").pattern)
        (by decide +kernel)
    have e0 : ∀ (p : Option Char) (n : Nat), dmGroups rules p n [] = [] := by
      intro p n
      unfold dmGroups
      rfl
    rw [e0]
    unfold dmGroups
    rw [if_neg, hb]
    · dsimp only
      rw [ha, hmn, e0]
    · have h1 : (ruleFor c!"a").pattern = c!"a" := by decide +kernel
      simp only [Bool.not_eq_true, List.all_eq_false, bne_iff_ne, ne_eq, Decidable.not_not]
      exact ⟨_, ruleFor_mem hd c!"a" (by rw [h1]; decide), by rw [h1]; rfl⟩
  · have ho : ∀ c ∈ c!"atskmvlr", opens ['a', c] c!"a" = true := by decide +kernel
    have := groups_open (rest := r) hd (some prev) (ho c hc)
    simp only [List.cons_append, List.nil_append] at this
    rw [this, ha, hmn]
    rfl

theorem groups_consonant {rules : List DMSpecRule} (hd : Default rules) (prev : Option Char) (hp : prev = none ∨ prev = some 'a')
    (d : Char) (hdg : d ∈ c!"3456789") (rest : Str) (hr : Joins rest) :
    dmGroups rules prev 0 (dmConsonant d :: 'a' :: rest) =
      ([[d]], false) :: ([[]], false) :: dmGroups rules (some 'a') 0 rest := by
  have ho : ∀ d ∈ c!"3456789", opens [dmConsonant d, 'a'] [dmConsonant d] = true := by decide +kernel
  have := groups_open (rest := rest) hd prev (ho d hdg)
  simp only [List.cons_append, List.nil_append] at this
  have hf : ∀ d ∈ c!"3456789", (ruleFor [dmConsonant d]).atStart = [[d]] ∧ (ruleFor [dmConsonant d]).beforeVowel = [[d]] ∧
      byteLen (ruleFor [dmConsonant d]).pattern = 1 ∧ byteLen [dmConsonant d] = 1 ∧ mn none (dmConsonant d) = false ∧
      mn (some 'a') (dmConsonant d) = false ∧ dmConsonant d ≠ '\x00' := by decide +kernel
  obtain ⟨h1, h2, h3, h4, h5, h6, h7⟩ := hf d hdg
  rw [this, h4, groups_a hd _ h7 rest hr]
  congr 2
  · unfold alternativesAt
    rcases hp with rfl | rfl
    · rw [if_pos (Or.inl rfl)]; exact h1
    · rw [if_neg (by decide), h3]
      exact h2
  · rcases hp with rfl | rfl
    · exact h5
    · exact h6

theorem groups_syllable {rules : List DMSpecRule} (hd : Default rules) (d : Char) (hdg : d ∈ insideDigits) (rest : Str)
    (hr : Joins rest) : dmGroups rules (some 'a') 0 (dmSyllable d ++ rest) =
      ([[d]], false) :: ([[]], false) :: dmGroups rules (some 'a') 0 rest := by
  by_cases h1 : d = '1'
  · subst h1
    have ho : opens c!"aia" c!"ai" = true := by decide +kernel
    have := groups_open (rest := rest) hd (some 'a') ho
    have e : alternativesAt (ruleFor c!"ai") (some 'a') (c!"aia" ++ rest) = [c!"1"] := by
      have e1 : (ruleFor c!"ai").beforeVowel = [c!"1"] := by decide +kernel
      have e2 : byteLen (ruleFor c!"ai").pattern = 2 := by decide +kernel
      unfold alternativesAt
      rw [if_neg (by decide), e2]
      exact e1
    rw [e] at this
    rw [show dmSyllable '1' = c!"aia" from rfl, this, show byteLen c!"ai" - 1 = 1 by decide]
    show _ = _ :: _
    congr 1
    show dmGroups rules (some 'a') 1 ('i' :: 'a' :: rest) = _
    rw [dmGroups]
    exact groups_a hd 'a' (by decide) rest hr
  · have : d ∈ c!"3456789" := by
      have : ∀ d ∈ insideDigits, d ≠ '1' → d ∈ c!"3456789" := by decide
      exact this d hdg h1
    rw [dmSyllable, if_neg h1]
    exact groups_consonant hd _ (Or.inr rfl) d this rest hr

theorem joins_syllables (ds : Str) (h : ∀ d ∈ ds, d ∈ insideDigits) : Joins (ds.flatMap dmSyllable) := by
  cases ds with
  | nil => exact Or.inl rfl
  | cons d ds =>
    right
    have : ∀ d ∈ insideDigits, ∃ c r, dmSyllable d = c :: r ∧ c ∈ c!"atskmvlr" := by
      intro d hd
      have h2 : ∀ d ∈ insideDigits, dmSyllable d = (dmSyllable d).headD 'a' :: (dmSyllable d).tail ∧
          (dmSyllable d).headD 'a' ∈ c!"atskmvlr" := by decide +kernel
      exact ⟨_, _, (h2 d hd).1, (h2 d hd).2⟩
    obtain ⟨c, r, e, hc⟩ := this d (h d (by simp))
    exact ⟨c, r ++ ds.flatMap dmSyllable, by rw [List.flatMap_cons, e]; rfl, hc⟩

/-- The groups of syllables. -/
def syllableGroups (ds : Str) : List (List Str × Bool) := ds.flatMap fun d => [([[d]], false), ([[]], false)]

theorem groups_syllables {rules : List DMSpecRule} (hd : Default rules) (ds : Str) (h : ∀ d ∈ ds, d ∈ insideDigits) :
    dmGroups rules (some 'a') 0 (ds.flatMap dmSyllable) = syllableGroups ds := by
  induction ds with
  | nil => simp [dmGroups, syllableGroups]
  | cons d ds ih =>
    have ht : ∀ d ∈ ds, d ∈ insideDigits := fun x hx => h x (by simp [hx])
    rw [List.flatMap_cons, groups_syllable hd d (h d (by simp)) _ (joins_syllables ds ht), ih ht]
    rfl

theorem groups_opening {rules : List DMSpecRule} (hd : Default rules) (d : Char) (hdg : d ∈ c!"0123456789") (rest : Str)
    (hr : Joins rest) : dmGroups rules none 0 (dmOpening d ++ rest) =
      ([[d]], false) :: ([[]], false) :: dmGroups rules (some 'a') 0 rest := by
  have start : ∀ (r : DMSpecRule) (t : Str), alternativesAt r none t = r.atStart := by
    intro r t; unfold alternativesAt; rw [if_pos (Or.inl rfl)]
  by_cases h0 : d = '0'
  · subst h0
    have ho : opens c!"aa" c!"a" = true := by decide +kernel
    have := groups_open (rest := rest) hd none ho
    have e1 : (ruleFor c!"a").atStart = [c!"0"] := by decide +kernel
    rw [start, e1] at this
    rw [show dmOpening '0' = c!"aa" from rfl, this, show byteLen c!"a" - 1 = 0 by decide]
    show _ = _ :: _
    congr 1
    exact groups_a hd 'a' (by decide) rest hr
  by_cases h1 : d = '1'
  · subst h1
    have ho : opens c!"iaa" c!"ia" = true := by decide +kernel
    have := groups_open (rest := rest) hd none ho
    have e1 : (ruleFor c!"ia").atStart = [c!"1"] := by decide +kernel
    rw [start, e1] at this
    rw [show dmOpening '1' = c!"iaa" from rfl, this, show byteLen c!"ia" - 1 = 1 by decide]
    show _ = _ :: _
    congr 1
    show dmGroups rules (some 'i') 1 ('a' :: 'a' :: rest) = _
    rw [dmGroups]
    exact groups_a hd 'i' (by decide) rest hr
  by_cases h2 : d = '2'
  · subst h2
    have ho : opens c!"sta" c!"st" = true := by decide +kernel
    have := groups_open (rest := rest) hd none ho
    have e1 : (ruleFor c!"st").atStart = [c!"2"] := by decide +kernel
    rw [start, e1] at this
    rw [show dmOpening '2' = c!"sta" from rfl, this, show byteLen c!"st" - 1 = 1 by decide]
    show _ = _ :: _
    congr 1
    show dmGroups rules (some 's') 1 ('t' :: 'a' :: rest) = _
    rw [dmGroups]
    exact groups_a hd 's' (by decide) rest hr
  have : d ∈ c!"3456789" := by
    have : ∀ d ∈ c!"0123456789", d ≠ '0' → d ≠ '1' → d ≠ '2' → d ∈ c!"3456789" := by decide
    exact this d hdg h0 h1 h2
  rw [dmOpening, if_neg h0, if_neg h1, if_neg h2]
  exact groups_consonant hd _ (Or.inl rfl) d this rest hr

/-- The only choice. -/
def syllableChoice (ds : Str) : List (Str × Bool) := ds.flatMap fun d => [([d], false), ([], false)]

theorem choice_syllables (ds : Str) : DMChoice (syllableGroups ds) (syllableChoice ds) := by
  induction ds with
  | nil => exact .nil
  | cons d ds ih => exact .cons (by simp) (.cons (by simp) ih)

theorem written_syllables (ds : Str) : written (some []) (syllableChoice ds) = ds := by
  induction ds with
  | nil => rfl
  | cons d ds ih =>
    show written (some []) (([d], false) :: ([], false) :: syllableChoice ds) = d :: ds
    rw [written, if_pos (by simp), written, if_neg (by simp), ih]
    rfl

theorem written_syllables_none (d : Char) (ds : Str) : written none (syllableChoice (d :: ds)) = d :: ds := by
  show written none (([d], false) :: ([], false) :: syllableChoice ds) = d :: ds
  rw [written, written, if_neg (by simp), written_syllables]
  rfl

theorem heads_syllables (ds : Str) :
    ((syllableGroups ds).map fun g => (g.1.headD [], g.2)) = syllableChoice ds := by
  induction ds with
  | nil => rfl
  | cons d ds ih =>
    show ([d], false) :: ([], false) :: _ = ([d], false) :: ([], false) :: syllableChoice ds
    rw [← ih]
    rfl

theorem syllableGroups_length (ds : Str) : ((syllableGroups ds).map fun g => g.1.length).foldr (· * ·) 1 = 1 := by
  induction ds with
  | nil => rfl
  | cons d ds ih =>
    show 1 * (1 * _) = 1
    rw [Nat.one_mul, Nat.one_mul]
    exact ih

theorem groups_word {rules : List DMSpecRule} (hd : Default rules) (d : Char) (hdg : d ∈ c!"0123456789") (ds : Str)
    (h : ∀ d ∈ ds, d ∈ insideDigits) :
    dmGroups rules none 0 (dmOpening d ++ ds.flatMap dmSyllable) = syllableGroups (d :: ds) := by
  rw [groups_opening hd d hdg _ (joins_syllables ds h), groups_syllables hd ds h]
  rfl

theorem word_letters (d : Char) (hdg : d ∈ c!"0123456789") (ds : Str) (h : ∀ d ∈ ds, d ∈ insideDigits) :
    ∀ c ∈ dmOpening d ++ ds.flatMap dmSyllable, c ∈ c!"aistkmvlr" := by
  intro c hc
  rcases List.mem_append.mp hc with hc | hc
  · have : ∀ d ∈ c!"0123456789", ∀ c ∈ dmOpening d, c ∈ c!"aistkmvlr" := by decide +kernel
    exact this d hdg c hc
  · obtain ⟨x, hx, hc⟩ := List.mem_flatMap.mp hc
    have : ∀ d ∈ insideDigits, ∀ c ∈ dmSyllable d, c ∈ c!"aistkmvlr" := by decide +kernel
    exact this x (h x hx) c hc

theorem clean_word (U : Unicode) (w : Str) (h : ∀ c ∈ w, c ∈ c!"aistkmvlr") : clean U defaultEncoder w = w := by
  have hc : ∀ c ∈ c!"aistkmvlr", isAscii c = true ∧ isAsciiWs c = false ∧ asciiLower c = c ∧
      defaultEncoder.foldingRules.get? c = none := by decide +kernel
  unfold clean
  have h1 : w.filter (fun c => !U.isWhitespace c) = w := by
    rw [List.filter_eq_self]
    intro c hm
    obtain ⟨ha, hw, _, _⟩ := hc c (h c hm)
    rw [U.isWhitespace_ascii c ha, hw]; rfl
  rw [h1]
  have h2 : w.map (fold U defaultEncoder) = w.map id := by
    refine List.map_congr_left fun c hm => ?_
    obtain ⟨ha, hw, hl, hf⟩ := hc c (h c hm)
    unfold fold
    simp [U.toLower_ascii c ha, hl, hf]
  rw [h2, List.map_id]

end Verif.DMKProofs

namespace Verif.Props
open Parser Spec DaitchMokotoff DMKProofs ParserProofs

/-- C93. The codes of the default Daitch-Mokotoff encoder: those that `encode` gives, and those among the codes with
branching. -/
theorem dm_codes (U : Unicode) (code : Str) :
    ((∃ s, defaultEncoder.encode U s = .ok code) ↔ DaitchMokotoffCode code) ∧
    ((∃ s codes, defaultEncoder.innerSoundex U s true = .ok codes ∧ code ∈ codes) ↔ DaitchMokotoffCode code) ∧
    ((∃ s, AsciiStr s ∧ defaultEncoder.encode U s = .ok code ∧ defaultEncoder.innerSoundex U s true = .ok [code]) ↔
      DaitchMokotoffCode code) := by
  obtain ⟨items, h1, h2, hp, he⟩ := build_ok dm_default_builds
  have he' : encoderOf true items = defaultEncoder := he.symm
  have hdA : EveryAlternative AsciiStr defaultEncoder := everyAlternative_mem (by decide +kernel)
  have ha : ItemAlternatives AsciiStr items := by
    refine itemAlternatives_of_encoder (f := true) hp ?_
    rw [he']
    exact hdA
  have hd : Default (dmRules items) := by
    have all : ∀ Q : DMSpecRule → Prop, (∀ e ∈ defaultEncoder.rules, ∀ r ∈ e.2, Q (toSpec r)) → ∀ r ∈ dmRules items, Q r := by
      intro Q h
      refine dmRules_of_encoder (f := true) hp ?_
      rw [he']
      exact h
    refine ⟨all (fun r => shapely r = true) (by decide +kernel), ?_, all⟩
    intro c rs hg r hr
    rw [← he'] at hg
    exact mem_dmRules_iff hg hr
  have hs : ∀ v, defaultEncoder.innerSoundex U v true = .ok (dmCodes (dmRules items) (clean U defaultEncoder v)) := by
    intro v
    have := innerSoundex_spec hp ha U true v
    rw [← clean_spec, he'] at this
    exact this
  have hfirst : ∀ v, ∃ code others, defaultEncoder.encode U v = .ok code ∧ dmCodes (dmRules items) (clean U defaultEncoder v) = code :: others := by
    intro v
    have h3 : ∃ s, defaultEncoder.soundex U v = .ok s := by
      unfold soundex
      rw [hs v]
      exact ⟨_, rfl⟩
    obtain ⟨s, h3⟩ := h3
    obtain ⟨code, others, -, h4, h5, -⟩ := dm_encode_first U _ _ dm_default_builds v s h3
    rw [hs v] at h5
    exact ⟨code, others, h4, Except.ok.inj h5⟩
  have fwd : ∀ v, ∀ c ∈ dmCodes (dmRules items) (clean U defaultEncoder v), DaitchMokotoffCode c := by
    intro v c hc
    obtain ⟨choice, h3, rfl⟩ := (mem_dmCodes _ _ _).mp hc
    obtain ⟨h4, h5⟩ := written_start hd.shapely _ h3
    exact code_shape h4 h5
  have bwd : DaitchMokotoffCode code → ∃ s, AsciiStr s ∧ defaultEncoder.encode U s = .ok code ∧
      defaultEncoder.innerSoundex U s true = .ok [code] := by
    rintro ⟨hl, first, rest, k, hf, hr, rfl⟩
    have hw := word_letters first hf rest hr
    refine ⟨dmOpening first ++ rest.flatMap dmSyllable, ?_, ?_⟩
    · have : ∀ c ∈ c!"aistkmvlr", isAscii c = true := by decide
      exact fun c hc => this c (hw c hc)
    · obtain ⟨code, others, h3, h4⟩ := hfirst (dmOpening first ++ rest.flatMap dmSyllable)
      have hg := groups_word hd first hf rest hr
      rw [clean_word U _ hw] at h4
      have h5 := head_dmCodes items (dmOpening first ++ rest.flatMap dmSyllable)
      have h6 := dmCodes_length (dmRules items) (dmOpening first ++ rest.flatMap dmSyllable)
      rw [hg] at h5 h6
      have hlen : ((syllableGroups (first :: rest)).map fun g => g.1.length).foldr (· * ·) 1 = 1 := by
        exact syllableGroups_length _
      rw [hlen, h4] at h6
      have ho : others = [] := by
        cases others with
        | nil => rfl
        | cons a l => simp at h6
      subst ho
      rw [heads_syllables, written_syllables_none, h4] at h5
      have hlen : (first :: rest).length ≤ 6 := by simp at hl ⊢; omega
      have h7 : code = first :: rest ++ List.replicate k '0' := by
        simp only [List.head?_cons, Option.some.injEq] at h5
        rw [h5, List.take_of_length_le hlen, pad6]
        simp at hl ⊢
        omega
      refine ⟨by rw [h3, h7], ?_⟩
      rw [hs, clean_word U _ hw, h4, h7]
  refine ⟨⟨?_, ?_⟩, ⟨?_, ?_⟩, ⟨?_, bwd⟩⟩
  · rintro ⟨s, h⟩
    obtain ⟨c, others, h3, h4⟩ := hfirst s
    have := Except.ok.inj (h.symm.trans h3)
    subst this
    exact fwd s _ (by rw [h4]; simp)
  · intro h
    obtain ⟨s, _, h, _⟩ := bwd h
    exact ⟨s, h⟩
  · rintro ⟨s, codes, h, hm⟩
    have := Except.ok.inj ((hs s).symm.trans h)
    subst this
    exact fwd s _ hm
  · intro h
    obtain ⟨s, _, _, h⟩ := bwd h
    exact ⟨s, _, h, by simp⟩
  · rintro ⟨s, _, _, h⟩
    have := Except.ok.inj ((hs s).symm.trans h)
    exact fwd s _ (by rw [this]; simp)

example : DaitchMokotoffCode c!"294100" := ⟨rfl, '2', c!"941", 2, by decide, by decide, rfl⟩

end Verif.Props
