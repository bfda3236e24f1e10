import Verif.Proofs.DaitchMokotoff
/-!
# Lemmas about the Daitch-Mokotoff encoder
-/

set_option linter.unusedSimpArgs false

namespace Verif
namespace DMKProofs
open Parser Spec DaitchMokotoff ParserProofs

/-! ## Codes of six bytes, for every encoder -/

/-- What every branch satisfies: at most six bytes. -/
def Short (b : Branch) : Prop := byteLen b.builder ≤ 6

theorem returns_pure {α : Type} {P : α → Prop} {a : α} (h : P a) : Returns P (pure a) := returns_ok h

theorem push_short (b r : Str) : Returns (fun s => byteLen s ≤ 6) (Branch.push b r) := by
  unfold Branch.push Branch.maxLength
  by_cases h : byteLen (b ++ r) > 6
  · simp only [if_pos h]
    intro a ha
    obtain ⟨c, -, h2⟩ := sliceTo_ok ha
    omega
  · simp only [if_neg h]
    exact returns_ok (by omega)

theorem process_short {b : Branch} (hb : Short b) (r : Str) (force : Bool) :
    Returns Short (b.processNextReplacement r force) := by
  unfold Branch.processNextReplacement
  simp only
  refine ite_ind (Returns Short) (fun _ => ?_) (fun _ => returns_ok hb)
  exact returns_bind' (push_short _ _) (fun a ha => returns_pure ha)

theorem extendBranch_short {b : Branch} (hb : Short b) (branching force : Bool) (rs : List Str)
    (acc : List Branch) (hacc : ∀ x ∈ acc, Short x) :
    Returns (fun l => ∀ x ∈ l, Short x) (extendBranch branching force b rs acc) := by
  induction rs generalizing acc with
  | nil => exact returns_ok hacc
  | cons r rs ih =>
    unfold extendBranch
    refine returns_bind' (process_short hb r force) (fun next hn => ?_)
    have h : ∀ x ∈ (if acc.contains next then acc else acc ++ [next]), Short x := by
      intro x hx
      by_cases hc : acc.contains next = true
      · rw [if_pos hc] at hx; exact hacc x hx
      · rw [if_neg hc] at hx
        rcases List.mem_append.mp hx with hx | hx
        · exact hacc x hx
        · simp at hx; subst hx; exact hn
    exact ite_ind (Returns _) (fun _ => ih _ h) (fun _ => returns_pure h)

theorem extendBranches_short (branching force : Bool) (rs : List Str) (bs acc : List Branch)
    (hb : ∀ x ∈ bs, Short x) (hacc : ∀ x ∈ acc, Short x) :
    Returns (fun l => ∀ x ∈ l, Short x) (extendBranches branching force rs bs acc) := by
  induction bs generalizing acc with
  | nil => exact returns_ok hacc
  | cons b bs ih =>
    unfold extendBranches
    refine returns_bind' (extendBranch_short (hb b (by simp)) branching force rs acc hacc) (fun l hl => ?_)
    exact ih l (fun x hx => hb x (by simp [hx])) hl

theorem loop_short (d : DaitchMokotoff) (branching : Bool) (rest : Str) (skip : Nat) (last : Char)
    (bs : List Branch) (hb : ∀ x ∈ bs, Short x) :
    Returns (fun l => ∀ x ∈ l, Short x) (loop d branching rest skip last bs) := by
  induction rest generalizing skip last bs with
  | nil => unfold loop; exact returns_ok hb
  | cons ch rest ih =>
    cases skip with
    | succ skip => unfold loop; exact ih _ _ _ hb
    | zero =>
      unfold loop
      cases d.rules.get? ch with
      | none => exact ih _ _ _ hb
      | some rules =>
        simp only
        cases rules.find? fun r => r.matches (ch :: rest) with
        | none => exact ih _ _ _ hb
        | some rule =>
          simp only
          exact returns_bind' (extendBranches_short _ _ _ _ _ hb (by simp)) (fun l hl => ih _ _ _ hl)

theorem byteLen_replicate (n : Nat) : byteLen (List.replicate n '0') = n := by
  rw [byteLen_ascii, List.length_replicate]
  intro c hc
  rw [(List.mem_replicate.mp hc).2]
  rfl

theorem finish_six {b : Branch} (h : Short b) : byteLen b.finish = 6 := by
  unfold Branch.finish Branch.maxLength
  rw [byteLen_append, byteLen_replicate]
  unfold Short at h
  omega

theorem innerSoundex_six (U : Unicode) (d : DaitchMokotoff) (v : Str) (branching : Bool) :
    Returns (fun l => ∀ c ∈ l, byteLen c = 6) (innerSoundex U d v branching) := by
  unfold innerSoundex
  refine returns_bind' (loop_short d branching _ _ _ _ ?_) (fun l hl => returns_pure ?_)
  · intro x hx
    simp at hx
    subst hx
    show (0 : Nat) ≤ 6
    omega
  · intro c hc
    obtain ⟨b, hb, rfl⟩ := List.mem_map.mp hc
    exact finish_six (hl b hb)

/-! ## What an encoder built from rules looks like -/

/-- `P` holds of every alternative of every rule. -/
def EveryAlternative (P : Str → Prop) (d : DaitchMokotoff) : Prop :=
  ∀ c rules, d.rules.get? c = some rules → ∀ r ∈ rules, ∀ a, a ∈ r.atStart ∨ a ∈ r.beforeVowel ∨ a ∈ r.default → P a

/-- No rule is without alternatives. -/
def Branchable (d : DaitchMokotoff) : Prop :=
  ∀ c rules, d.rules.get? c = some rules → ∀ r ∈ rules, r.atStart ≠ [] ∧ r.beforeVowel ≠ [] ∧ r.default ≠ []

theorem splitChar_ne_nil (c : Char) (s : Str) : splitChar c s ≠ [] := by
  intro h
  have := splitChar_length c s
  rw [h] at this
  simp at this

theorem alternatives_eq (s : Str) : splitChar '|' s = alternatives s := by
  induction s with
  | nil => rfl
  | cons c cs ih =>
    unfold splitChar alternatives
    rw [← ih]
    have hne := splitChar_ne_nil '|' cs
    cases h : splitChar '|' cs with
    | nil => exact absurd h hne
    | cons a as => by_cases hc : c = '|' <;> simp [hc]

theorem mem_alternatives {s a : Str} (h : a ∈ alternatives s) : a ⊆ s ∧ '|' ∉ a := by
  induction s generalizing a with
  | nil => simp [alternatives] at h; subst h; simp
  | cons c cs ih =>
    unfold alternatives at h
    have hne : alternatives cs ≠ [] := by rw [← alternatives_eq]; exact splitChar_ne_nil _ _
    cases hx : alternatives cs with
    | nil => exact absurd hx hne
    | cons b bs =>
      rw [hx] at h
      simp only at h
      by_cases hc : c = '|'
      · rw [if_pos hc] at h
        rcases List.mem_cons.mp h with rfl | h
        · simp
        · obtain ⟨h1, h2⟩ := ih (hx ▸ h)
          exact ⟨fun x hx => List.mem_cons_of_mem _ (h1 hx), h2⟩
      · rw [if_neg hc] at h
        rcases List.mem_cons.mp h with rfl | h
        · obtain ⟨h1, h2⟩ := ih (a := b) (by rw [hx]; simp)
          refine ⟨?_, ?_⟩
          · intro x hx
            rcases List.mem_cons.mp hx with rfl | hx
            · simp
            · exact List.mem_cons_of_mem _ (h1 hx)
          · intro h3
            rcases List.mem_cons.mp h3 with h3 | h3
            · exact hc h3.symm
            · exact h2 h3
        · obtain ⟨h1, h2⟩ := ih (a := a) (by rw [hx]; simp [h])
          exact ⟨fun x hx => List.mem_cons_of_mem _ (h1 hx), h2⟩

/-- `build` succeeds on a file exactly when its text is a list of items (that the rules are not
empty), and then the encoder is the one of the items. -/
theorem build_ok {b : Builder} {d : DaitchMokotoff} (h : b.build = .ok (.ok d)) :
    ∃ items, b.rules = dmPrint items ∧ EveryItem (fun r i => i.Legal r) [] items ∧
      (∀ i ∈ items, ∀ r, itemRule i = some r → r.pattern ≠ []) ∧ d = encoderOf b.asciiFolding items := by
  unfold Builder.build at h
  rw [buildLoop_eq (Nat.lt_succ_self _)] at h
  rcases buildFrom_outcome b.rules.length b.rules (Nat.le_refl _) 0 ([], []) with
    ⟨items, h1, h2, h3, h4⟩ | ⟨items, bad, -, -, -, h4⟩ | ⟨items, b1, x, b2, v, b3, o, tl, rest, -, -, h4⟩
  · rw [h4] at h
    refine ⟨items, h1, h2, h3, ?_⟩
    injection h with h
    injection h with h
    exact h.symm
  · rw [h4] at h; injection h with h; cases h
  · rw [h4] at h; cases h

theorem mem_rulesFor {c : Char} {items : List DMItem} {r : DMRule} (h : r ∈ rulesFor c items) :
    ∃ p b1 s b2 v b3 o tl, DMItem.rule p b1 s b2 v b3 o tl ∈ items ∧ r = DMRule.ofParts (p, s, v, o) ∧
      p.head? = some c := by
  unfold rulesFor at h
  obtain ⟨h1, h2⟩ := List.mem_filter.mp h
  obtain ⟨i, hi, hr⟩ := List.mem_filterMap.mp h1
  cases i with
  | rule p b1 s b2 v b3 o tl =>
    cases hr
    exact ⟨p, b1, s, b2, v, b3, o, tl, hi, rfl, by simpa [DMRule.ofParts] using h2⟩
  | fold a b tl => cases hr
  | blank tl => cases hr
  | block text tl => cases hr

theorem mem_encoder {f : Bool} {items : List DMItem} {c : Char} {rules : List DMRule}
    (h : (encoderOf f items).rules.get? c = some rules) {r : DMRule} (hr : r ∈ rules) :
    r ∈ rulesFor c items := by
  rw [encoder_rules] at h
  unfold someNonempty at h
  by_cases h0 : rulesFor c items = []
  · rw [if_pos h0] at h; cases h
  · rw [if_neg h0] at h
    cases h
    exact (sortRules_perm _).mem_iff.mp hr

theorem encoder_branchable (f : Bool) (items : List DMItem) : Branchable (encoderOf f items) := by
  intro c rules h r hr
  obtain ⟨p, b1, s, b2, v, b3, o, tl, -, rfl, -⟩ := mem_rulesFor (mem_encoder h hr)
  exact ⟨splitChar_ne_nil _ _, splitChar_ne_nil _ _, splitChar_ne_nil _ _⟩

/-- `P` holds of the alternatives of every rule of a file. -/
def ItemAlternatives (P : Str → Prop) (items : List DMItem) : Prop :=
  ∀ p b1 s b2 v b3 o tl, DMItem.rule p b1 s b2 v b3 o tl ∈ items →
    ∀ a, a ∈ alternatives s ∨ a ∈ alternatives v ∨ a ∈ alternatives o → P a

theorem encoder_alternatives {P : Str → Prop} (f : Bool) {items : List DMItem} (h : ItemAlternatives P items) :
    EveryAlternative P (encoderOf f items) := by
  intro c rules hg r hr a ha
  obtain ⟨p, b1, s, b2, v, b3, o, tl, hi, rfl, -⟩ := mem_rulesFor (mem_encoder hg hr)
  refine h p b1 s b2 v b3 o tl hi a ?_
  simpa only [DMRule.ofParts, alternatives_eq] using ha

/-! ## Characters of the codes -/

theorem getReplacements_cases (r : DMRule) (ctx : Str) (b : Bool) :
    r.getReplacements ctx b = r.atStart ∨ r.getReplacements ctx b = r.beforeVowel ∨
      r.getReplacements ctx b = r.default := by
  unfold DMRule.getReplacements
  cases b with
  | true => exact .inl rfl
  | false =>
    simp only [if_neg (by simp : ¬ (false = true))]
    exact ite_ind (fun x => x = r.atStart ∨ x = r.beforeVowel ∨ x = r.default)
      (fun _ => .inr (.inl rfl)) (fun _ => .inr (.inr rfl))

/-- Every character of every branch satisfies `P`. -/
def Over (P : Char → Prop) (b : Branch) : Prop := ∀ c ∈ b.builder, P c

theorem process_over {P : Char → Prop} {b : Branch} (hb : Over P b) {r : Str} (hr : ∀ c ∈ r, P c)
    (force : Bool) : Returns (Over P) (b.processNextReplacement r force) := by
  unfold Branch.processNextReplacement
  simp only
  refine ite_ind (Returns (Over P)) (fun _ => ?_) (fun _ => returns_ok hb)
  refine returns_bind' (Q := fun s => ∀ c ∈ s, P c) ?_ (fun a ha => returns_pure ha)
  have happ : ∀ c ∈ b.builder ++ r, P c := by
    intro c hc
    rcases List.mem_append.mp hc with hc | hc
    · exact hb c hc
    · exact hr c hc
  unfold Branch.push
  simp only
  refine ite_ind (Returns (fun s => ∀ c ∈ s, P c)) (fun _ => ?_) (fun _ => returns_ok happ)
  intro a ha
  obtain ⟨-, x, h1⟩ := sliceTo_ok ha
  intro c hc
  exact happ c (by rw [h1]; simp [hc])

theorem extendBranch_over {P : Char → Prop} {b : Branch} (hb : Over P b) (branching force : Bool)
    {rs : List Str} (hrs : ∀ r ∈ rs, ∀ c ∈ r, P c) (acc : List Branch) (hacc : ∀ x ∈ acc, Over P x) :
    Returns (fun l => ∀ x ∈ l, Over P x) (extendBranch branching force b rs acc) := by
  induction rs generalizing acc with
  | nil => exact returns_ok hacc
  | cons r rs ih =>
    unfold extendBranch
    refine returns_bind' (process_over hb (hrs r (by simp)) force) (fun next hn => ?_)
    have h : ∀ x ∈ (if acc.contains next then acc else acc ++ [next]), Over P x := by
      intro x hx
      by_cases hc : acc.contains next = true
      · rw [if_pos hc] at hx; exact hacc x hx
      · rw [if_neg hc] at hx
        rcases List.mem_append.mp hx with hx | hx
        · exact hacc x hx
        · simp at hx; subst hx; exact hn
    exact ite_ind (Returns _) (fun _ => ih (fun r hr => hrs r (by simp [hr])) _ h) (fun _ => returns_pure h)

theorem extendBranches_over {P : Char → Prop} (branching force : Bool) {rs : List Str}
    (hrs : ∀ r ∈ rs, ∀ c ∈ r, P c) (bs acc : List Branch)
    (hb : ∀ x ∈ bs, Over P x) (hacc : ∀ x ∈ acc, Over P x) :
    Returns (fun l => ∀ x ∈ l, Over P x) (extendBranches branching force rs bs acc) := by
  induction bs generalizing acc with
  | nil => exact returns_ok hacc
  | cons b bs ih =>
    unfold extendBranches
    refine returns_bind' (extendBranch_over (hb b (by simp)) branching force hrs acc hacc) (fun l hl => ?_)
    exact ih l (fun x hx => hb x (by simp [hx])) hl

theorem loop_over {P : Char → Prop} {d : DaitchMokotoff} (hd : EveryAlternative (fun a => ∀ c ∈ a, P c) d)
    (branching : Bool) (rest : Str) (skip : Nat) (last : Char)
    (bs : List Branch) (hb : ∀ x ∈ bs, Over P x) :
    Returns (fun l => ∀ x ∈ l, Over P x) (loop d branching rest skip last bs) := by
  induction rest generalizing skip last bs with
  | nil => unfold loop; exact returns_ok hb
  | cons ch rest ih =>
    cases skip with
    | succ skip => unfold loop; exact ih _ _ _ hb
    | zero =>
      unfold loop
      cases hg : d.rules.get? ch with
      | none => exact ih _ _ _ hb
      | some rules =>
        simp only
        cases hf : rules.find? fun r => r.matches (ch :: rest) with
        | none => exact ih _ _ _ hb
        | some rule =>
          simp only
          have hm := List.mem_of_find?_eq_some hf
          refine returns_bind' (extendBranches_over _ _ ?_ _ _ hb (by simp)) (fun l hl => ih _ _ _ hl)
          intro a ha
          refine hd ch rules hg rule hm a ?_
          rcases getReplacements_cases rule (ch :: rest) (last == '\x00') with h | h | h <;> rw [h] at ha
          · exact .inl ha
          · exact .inr (.inl ha)
          · exact .inr (.inr ha)

theorem innerSoundex_over {P : Char → Prop} (U : Unicode) {d : DaitchMokotoff}
    (hd : EveryAlternative (fun a => ∀ c ∈ a, P c) d) (v : Str) (branching : Bool) :
    Returns (fun l => ∀ s ∈ l, ∀ c ∈ s, P c ∨ c = '0') (innerSoundex U d v branching) := by
  unfold innerSoundex
  refine returns_bind' (loop_over hd branching _ _ _ _ (by simp [Over, Branch.default])) (fun l hl => returns_pure ?_)
  intro s hs c hc
  obtain ⟨b, hb, rfl⟩ := List.mem_map.mp hs
  rcases List.mem_append.mp hc with hc | hc
  · exact .inl (hl b hb c hc)
  · exact .inr (List.mem_replicate.mp hc).2

/-! ## Encoding without branching -/

theorem extendBranch_head {b : Branch} {force : Bool} {rs : List Str} {acc l : List Branch} {x : Branch}
    (hx : acc.head? = some x) (h : extendBranch true force b rs acc = .ok l) : l.head? = some x := by
  induction rs generalizing acc with
  | nil => cases h; exact hx
  | cons r rs ih =>
    unfold extendBranch at h
    cases hn : b.processNextReplacement r force with
    | error e => rw [hn] at h; cases h
    | ok next =>
      rw [hn] at h
      refine ih (acc := if acc.contains next then acc else acc ++ [next]) ?_ h
      refine ite_ind (fun l : List Branch => l.head? = some x) (fun _ => hx) (fun _ => ?_)
      rw [List.head?_append, hx]
      rfl

theorem extendBranches_head {force : Bool} {rs : List Str} {bs acc l : List Branch} {x : Branch}
    (hx : acc.head? = some x) (h : extendBranches true force rs bs acc = .ok l) : l.head? = some x := by
  induction bs generalizing acc with
  | nil => cases h; exact hx
  | cons b bs ih =>
    unfold extendBranches at h
    cases hn : extendBranch true force b rs acc with
    | error e => rw [hn] at h; cases h
    | ok next =>
      rw [hn] at h
      exact ih (extendBranch_head hx hn) h

/-- The non-branching step computes the head of the branching one. -/
theorem extend_first {force : Bool} {rs : List Str} (hrs : rs ≠ []) {b : Branch} {bs l : List Branch}
    (h : extendBranches true force rs (b :: bs) [] = .ok l) :
    ∃ x, l.head? = some x ∧ extendBranches false force rs [b] [] = .ok [x] := by
  cases rs with
  | nil => exact absurd rfl hrs
  | cons r rs =>
    unfold extendBranches extendBranch at h
    unfold extendBranches extendBranch extendBranches
    cases hn : b.processNextReplacement r force with
    | error e => rw [hn] at h; cases h
    | ok next =>
      rw [hn] at h
      refine ⟨next, ?_, rfl⟩
      simp only [bind, Except.bind, List.contains_nil, Bool.false_eq_true, if_false, List.nil_append,
        if_true] at h
      cases hm : extendBranch true force b rs [next] with
      | error e => rw [hm] at h; cases h
      | ok acc =>
        rw [hm] at h
        exact extendBranches_head (extendBranch_head (x := next) rfl hm) h

theorem loop_first {d : DaitchMokotoff} (hd : Branchable d) {rest : Str} {skip : Nat} {last : Char}
    {b : Branch} {bs l : List Branch} (h : loop d true rest skip last (b :: bs) = .ok l) :
    ∃ x, l.head? = some x ∧ loop d false rest skip last [b] = .ok [x] := by
  induction rest generalizing skip last b bs with
  | nil => unfold loop at h ⊢; cases h; exact ⟨b, rfl, rfl⟩
  | cons ch rest ih =>
    cases skip with
    | succ skip => unfold loop at h ⊢; exact ih h
    | zero =>
      unfold loop at h ⊢
      cases hg : d.rules.get? ch with
      | none => rw [hg] at h; exact ih h
      | some rules =>
        rw [hg] at h
        simp only at h ⊢
        cases hf : rules.find? fun r => r.matches (ch :: rest) with
        | none => rw [hf] at h; exact ih h
        | some rule =>
          rw [hf] at h
          simp only at h ⊢
          have hne := hd ch rules hg rule (List.mem_of_find?_eq_some hf)
          have hr : rule.getReplacements (ch :: rest) (last == '\x00') ≠ [] := by
            rcases getReplacements_cases rule (ch :: rest) (last == '\x00') with e | e | e <;> rw [e]
            · exact hne.1
            · exact hne.2.1
            · exact hne.2.2
          generalize ((last == 'm' && ch == 'n') || (last == 'n' && ch == 'm')) = force at h ⊢
          cases hn : extendBranches true force (rule.getReplacements (ch :: rest) (last == '\x00')) (b :: bs) [] with
          | error e => rw [hn] at h; cases h
          | ok next =>
            rw [hn] at h
            obtain ⟨x, hx, hx'⟩ := extend_first hr hn
            rw [hx']
            cases next with
            | nil => cases hx
            | cons y ys => cases hx; exact ih h

theorem innerSoundex_first {U : Unicode} {d : DaitchMokotoff} (hd : Branchable d) {v : Str} {l : List Str}
    (h : innerSoundex U d v true = .ok l) :
    ∃ x, l.head? = some x ∧ innerSoundex U d v false = .ok [x] := by
  unfold innerSoundex at h ⊢
  cases hn : loop d true (clean U d v) 0 '\x00' [Branch.default] with
  | error e => rw [hn] at h; cases h
  | ok bs =>
    rw [hn] at h
    obtain ⟨x, hx, hx'⟩ := loop_first hd hn
    cases h
    rw [hx']
    refine ⟨x.finish, ?_, rfl⟩
    rw [List.head?_map, hx]
    rfl

/-! ## The specification -/

/-- A code under construction as the model represents it. -/
def ofP (p : Partial) : Branch := ⟨p.code, p.last⟩

theorem ofP_inj {p q : Partial} (h : ofP p = ofP q) : p = q := by
  obtain ⟨a, b⟩ := p
  obtain ⟨c, d⟩ := q
  injection h with h1 h2
  simp only at h1 h2
  rw [h1, h2]

/-- At most six ASCII characters. -/
def Ok6 (p : Partial) : Prop := AsciiStr p.code ∧ p.code.length ≤ 6

theorem ok6_add {p : Partial} (hp : Ok6 p) {a : Str} (ha : AsciiStr a) (force : Bool) : Ok6 (p.add force a) := by
  unfold Partial.add
  simp only
  generalize (match p.last with | none => false | some l => a.isSuffixOf l) = rep
  refine ⟨?_, ?_⟩
  · exact ite_ind AsciiStr (fun _ => hp.1)
      (fun _ => (asciiStr_append.mpr ⟨hp.1, ha⟩).sublist (List.take_sublist _ _))
  · exact ite_ind (fun s : Str => s.length ≤ 6) (fun _ => hp.2) (fun _ => by simp; omega)

theorem push_ascii {b r : Str} (hb : AsciiStr b) (hr : AsciiStr r) :
    Branch.push b r = .ok ((b ++ r).take 6) := by
  have h := asciiStr_append.mpr ⟨hb, hr⟩
  unfold Branch.push Branch.maxLength
  simp only
  rw [byteLen_ascii h]
  by_cases hl : (b ++ r).length > 6
  · rw [if_pos hl, sliceTo_ascii h (by omega)]
  · rw [if_neg hl, List.take_of_length_le (by omega)]

theorem process_spec {p : Partial} (hp : Ok6 p) {a : Str} (ha : AsciiStr a) (force : Bool) :
    (ofP p).processNextReplacement a force = .ok (ofP (p.add force a)) := by
  obtain ⟨code, last⟩ := p
  obtain ⟨h1, h2⟩ := hp
  have key : ∀ rep : Bool,
      (if ((!rep || force) && decide (byteLen code < Branch.maxLength)) = true then do
        let builder ← Branch.push code a
        return { builder, lastReplacement := some a }
      else (.ok ⟨code, some a⟩ : Res Branch)) =
      .ok ⟨if rep && !force then code else (code ++ a).take 6, some a⟩ := by
    intro rep
    rw [push_ascii h1 ha, byteLen_ascii h1]
    unfold Branch.maxLength
    simp only at h2
    by_cases hr : (rep && !force) = true
    · have : (!rep || force) = false := by revert hr; cases rep <;> cases force <;> simp
      rw [this, if_pos hr]
      rfl
    · have : (!rep || force) = true := by revert hr; cases rep <;> cases force <;> simp
      rw [this, if_neg hr]
      by_cases hl : code.length < 6
      · rw [if_pos (by simpa using hl)]; rfl
      · rw [if_neg (by simpa using hl)]
        have : code.length = 6 := by omega
        rw [List.take_append_of_le_length (by omega), List.take_of_length_le (by omega)]
  cases last with
  | none => exact key false
  | some l => exact key (a.isSuffixOf l)

/-- `acc.push(x)` unless it is there. -/
def addNew {α : Type} [BEq α] (acc : List α) (x : α) : List α := if acc.contains x then acc else acc ++ [x]

theorem foldl_addNew {α : Type} [BEq α] [LawfulBEq α] (acc l : List α) :
    l.foldl addNew acc = acc ++ (l.filter fun x => !acc.contains x).eraseDups := by
  induction l generalizing acc with
  | nil => simp
  | cons x l ih =>
    rw [List.foldl_cons, ih]
    unfold addNew
    by_cases h : acc.contains x = true
    · rw [if_pos h, List.filter_cons, if_neg (by simpa using h)]
    · rw [if_neg h, List.filter_cons, if_pos (by simpa using h), List.eraseDups_cons, List.append_assoc,
        List.filter_filter]
      congr 3
      simp only [List.cons_append, List.nil_append]
      congr 2
      apply List.filter_congr
      intro y _
      by_cases hy : y = x
      · subst hy; simp
      · simp [hy]

theorem foldl_addNew_nil {α : Type} [BEq α] [LawfulBEq α] (l : List α) : l.foldl addNew [] = l.eraseDups := by
  rw [foldl_addNew, List.nil_append]
  congr 1
  exact List.filter_eq_self.mpr (fun _ _ => rfl)

theorem map_addNew (acc : List Partial) (x : Partial) :
    (if (acc.map ofP).contains (ofP x) then acc.map ofP else acc.map ofP ++ [ofP x]) =
      (addNew acc x).map ofP := by
  have : (acc.map ofP).contains (ofP x) = acc.contains x := by
    rw [Bool.eq_iff_iff, List.contains_iff_mem, List.contains_iff_mem]
    constructor
    · intro h
      obtain ⟨y, hy, he⟩ := List.mem_map.mp h
      rwa [← ofP_inj he]
    · exact fun h => List.mem_map_of_mem h
  rw [this]
  unfold addNew
  by_cases h : acc.contains x = true
  · rw [if_pos h, if_pos h]
  · rw [if_neg h, if_neg h, List.map_append]; rfl

theorem extendBranch_spec {p : Partial} (hp : Ok6 p) {rs : List Str} (hrs : ∀ r ∈ rs, AsciiStr r)
    (force : Bool) (acc : List Partial) :
    extendBranch true force (ofP p) rs (acc.map ofP) =
      .ok (((rs.map (p.add force)).foldl addNew acc).map ofP) := by
  induction rs generalizing acc with
  | nil => rfl
  | cons r rs ih =>
    unfold extendBranch
    rw [process_spec hp (hrs r (by simp)) force]
    show extendBranch true force (ofP p) rs
      (if (acc.map ofP).contains (ofP (p.add force r)) then acc.map ofP else acc.map ofP ++ [ofP (p.add force r)]) = _
    rw [map_addNew, ih (fun r hr => hrs r (by simp [hr]))]
    rfl

theorem extendBranches_spec {rs : List Str} (hrs : ∀ r ∈ rs, AsciiStr r) (force : Bool)
    (ps acc : List Partial) (hps : ∀ p ∈ ps, Ok6 p) :
    extendBranches true force rs (ps.map ofP) (acc.map ofP) =
      .ok (((ps.flatMap fun p => rs.map (p.add force)).foldl addNew acc).map ofP) := by
  induction ps generalizing acc with
  | nil => rfl
  | cons p ps ih =>
    rw [List.map_cons]
    unfold extendBranches
    rw [extendBranch_spec (hps p (by simp)) hrs force acc]
    show extendBranches true force rs (ps.map ofP) _ = _
    rw [ih _ (fun q hq => hps q (by simp [hq])), List.flatMap_cons, List.foldl_append]

/-- One step of `dmPaths`. -/
def pathStep (ps : List Partial) (g : List Str × Bool) : List Partial :=
  (ps.flatMap fun p => g.1.map (p.add g.2)).eraseDups

theorem mem_eraseDups {α : Type} [BEq α] [LawfulBEq α] {l : List α} {x : α} (h : x ∈ l.eraseDups) : x ∈ l := by
  exact List.mem_eraseDups.mp h

theorem pathStep_ok6 {ps : List Partial} (hps : ∀ p ∈ ps, Ok6 p) {g : List Str × Bool}
    (hg : ∀ r ∈ g.1, AsciiStr r) : ∀ p ∈ pathStep ps g, Ok6 p := by
  intro p hp
  obtain ⟨q, hq, h⟩ := List.mem_flatMap.mp (mem_eraseDups hp)
  obtain ⟨a, ha, rfl⟩ := List.mem_map.mp h
  exact ok6_add (hps q hq) (hg a ha) _

/-- A stored rule as a rule of the specification. -/
def toSpec (r : DMRule) : DMSpecRule := ⟨r.pattern, r.atStart, r.beforeVowel, r.default⟩

theorem dmRules_eq (items : List DMItem) : dmRules items = (items.filterMap itemRule).map toSpec := by
  unfold dmRules
  rw [List.map_filterMap]
  congr 1
  funext i
  cases i with
  | rule p b1 s b2 v b3 o tl => simp [itemRule, toSpec, DMRule.ofParts, alternatives_eq]
  | fold a b tl => rfl
  | blank tl => rfl
  | block text tl => rfl

theorem longest_map (l : List DMRule) : longest (l.map toSpec) = (l.map plen).foldl max 0 := by
  unfold longest
  rw [List.map_map]
  rfl

/-- The rule the model finds is the rule of the specification. -/
theorem bestRule_eq {items : List DMItem} (hp : ∀ i ∈ items, ∀ r, itemRule i = some r → r.pattern ≠ [])
    (c : Char) (text : Str) :
    bestRule (dmRules items) (c :: text) =
      (best (fun r => r.matches (c :: text)) (rulesFor c items)).map toSpec := by
  have hcand : (dmRules items).filter (fun r => r.pattern.isPrefixOf (c :: text)) =
      ((rulesFor c items).filter fun r => r.matches (c :: text)).map toSpec := by
    rw [dmRules_eq]
    unfold rulesFor
    rw [List.filter_filter, List.filter_map]
    congr 1
    apply List.filter_congr
    intro r hr
    obtain ⟨i, hi, hir⟩ := List.mem_filterMap.mp hr
    have hne := hp i hi r hir
    simp only [Function.comp, toSpec, DMRule.matches]
    cases hpat : r.pattern with
    | nil => exact absurd hpat hne
    | cons x xs =>
      rw [List.isPrefixOf_cons_cons]
      by_cases hx : x = c
      · subst hx; simp
      · simp [hx]
  unfold bestRule best
  simp only [hcand, longest_map]
  rw [List.find?_map]
  rfl

theorem rulesFor_nil_iff (items : List DMItem) (c : Char) :
    (dmRules items).all (fun r => r.pattern.head? != some c) = true ↔ rulesFor c items = [] := by
  rw [dmRules_eq]
  unfold rulesFor
  rw [List.all_map, List.all_eq_true, List.filter_eq_nil_iff]
  constructor
  · intro h r hr
    have := h r hr
    simpa [toSpec] using this
  · intro h r hr
    have := h r hr
    simpa [toSpec] using this

theorem alternativesAt_eq (r : DMRule) (prev : Option Char) (c : Char) (text : Str) :
    alternativesAt (toSpec r) prev (c :: text) =
      r.getReplacements (c :: text) (prev.getD '\x00' == '\x00') := by
  unfold alternativesAt DMRule.getReplacements
  have hprev : (prev.getD '\x00' == '\x00') = true ↔ (prev = none ∨ prev = some '\x00') := by
    cases prev <;> simp
  by_cases hp : prev = none ∨ prev = some '\x00'
  · rw [if_pos hp, if_pos (hprev.mpr hp)]; rfl
  · rw [if_neg hp, if_neg (fun h => hp (hprev.mp h))]
    simp only [toSpec]
    cases hx : (c :: text)[byteLen r.pattern]? with
    | none => simp [isVowel]
    | some x =>
      have hlt : byteLen r.pattern < (c :: text).length := by
        rcases Nat.lt_or_ge (byteLen r.pattern) (c :: text).length with h | h
        · exact h
        · rw [List.getElem?_eq_none h] at hx; cases hx
      have hlt' : byteLen r.pattern < byteLen (c :: text) :=
        Nat.lt_of_lt_of_le hlt (length_le_byteLen _)
      simp only
      have hv : isVowel (some x) false = c!"aeiou".contains x := by
        simp only [isVowel, Bool.false_and, Bool.or_false, List.contains_cons, List.contains_nil, Bool.or_assoc]
      rw [hv]
      by_cases hin : c!"aeiou".contains x = true
      · rw [if_pos hin, if_pos ⟨hlt', hin⟩]
      · rw [if_neg hin, if_neg (fun h => hin h.2)]

theorem mn_eq (prev : Option Char) (c : Char) :
    mn prev c = ((prev.getD '\x00' == 'm' && c == 'n') || (prev.getD '\x00' == 'n' && c == 'm')) := by
  unfold mn
  cases prev with
  | none => simp
  | some p => simp

/-- The main loop follows the specification. -/
theorem loop_spec {items : List DMItem} (hp : ∀ i ∈ items, ∀ r, itemRule i = some r → r.pattern ≠ [])
    (ha : ItemAlternatives AsciiStr items) (f : Bool) (rest : Str) (skip : Nat) (prev : Option Char)
    (ps : List Partial) (hps : ∀ p ∈ ps, Ok6 p) :
    loop (encoderOf f items) true rest skip (prev.getD '\x00') (ps.map ofP) =
        .ok (((dmGroups (dmRules items) prev skip rest).foldl pathStep ps).map ofP) ∧
      ∀ p ∈ (dmGroups (dmRules items) prev skip rest).foldl pathStep ps, Ok6 p := by
  induction rest generalizing skip prev ps with
  | nil => unfold loop dmGroups; exact ⟨rfl, hps⟩
  | cons ch rest ih =>
    cases skip with
    | succ skip => unfold loop dmGroups; exact ih skip prev ps hps
    | zero =>
      unfold loop dmGroups
      rw [encoder_rules]
      unfold someNonempty
      by_cases h0 : rulesFor ch items = []
      · rw [if_pos h0, if_pos ((rulesFor_nil_iff items ch).mpr h0)]
        exact ih 0 prev ps hps
      · rw [if_neg h0, if_neg (fun h => h0 ((rulesFor_nil_iff items ch).mp h))]
        simp only [Option.map_some]
        rw [find_sort, bestRule_eq hp]
        cases hb : best (fun r => r.matches (ch :: rest)) (rulesFor ch items) with
        | none => exact ih 0 (some ch) ps hps
        | some rule =>
          simp only [Option.map_some, List.foldl_cons]
          rw [← mn_eq, ← alternativesAt_eq]
          have hmem : rule ∈ rulesFor ch items := by
            unfold best at hb
            exact (List.mem_filter.mp (List.mem_of_find?_eq_some hb)).1
          have hasc : ∀ a ∈ alternativesAt (toSpec rule) prev (ch :: rest), AsciiStr a := by
            intro a haa
            obtain ⟨p, b1, s, b2, v, b3, o, tl, hi, rfl, -⟩ := mem_rulesFor hmem
            refine ha p b1 s b2 v b3 o tl hi a ?_
            rw [alternativesAt_eq] at haa
            rcases getReplacements_cases (DMRule.ofParts (p, s, v, o)) (ch :: rest)
              (prev.getD '\x00' == '\x00') with e | e | e <;> rw [e] at haa <;>
              simp only [DMRule.ofParts, alternatives_eq] at haa
            · exact .inl haa
            · exact .inr (.inl haa)
            · exact .inr (.inr haa)
          have he := extendBranches_spec hasc (mn prev ch) ps [] hps
          rw [List.map_nil, foldl_addNew_nil] at he
          rw [he]
          have hstep := pathStep_ok6 hps (g := (alternativesAt (toSpec rule) prev (ch :: rest), mn prev ch)) hasc
          exact ih (byteLen rule.pattern - 1) (some ch) _ hstep

theorem finish_spec {p : Partial} (hp : Ok6 p) : (ofP p).finish = pad6 p.code := by
  unfold Branch.finish pad6 ofP Branch.maxLength
  simp only
  rw [byteLen_ascii hp.1]

theorem clean_spec (U : Unicode) (f : Bool) (items : List DMItem) (v : Str) :
    clean U (encoderOf f items) v = dmNormalise U f (dmFold items) v := by
  unfold clean dmNormalise
  rw [← List.filterMap_eq_map]
  congr 1
  funext c
  unfold fold
  cases h : (U.toLower c).head? with
  | none => exact absurd (List.head?_eq_none_iff.mp h) (U.toLower_ne_nil c)
  | some l =>
    simp only [Function.comp, Option.map_some, h]
    show some (if f then ((tables items ([], [])).2.get? l).getD l else l) = _
    rw [tables_folds]

theorem innerSoundex_spec {items : List DMItem}
    (hp : ∀ i ∈ items, ∀ r, itemRule i = some r → r.pattern ≠ []) (ha : ItemAlternatives AsciiStr items)
    (U : Unicode) (f : Bool) (v : Str) :
    innerSoundex U (encoderOf f items) v true =
      .ok (dmCodes (dmRules items) (dmNormalise U f (dmFold items) v)) := by
  unfold innerSoundex dmCodes
  rw [clean_spec]
  obtain ⟨h1, h2⟩ := loop_spec hp ha f (dmNormalise U f (dmFold items) v) 0 none [⟨[], none⟩]
    (by simp [Ok6, AsciiStr])
  rw [show loop (encoderOf f items) true (dmNormalise U f (dmFold items) v) 0 '\x00' [Branch.default] = _ from h1]
  show Except.ok _ = _
  rw [List.map_map]
  congr 1
  apply List.map_congr_left
  intro p hpm
  exact finish_spec (h2 p hpm)

theorem encoderOf_build (items : List DMItem) (f : Bool)
    (h : EveryItem (fun r i => i.Legal r ∧ i.Clear r) [] items) :
    Builder.build ⟨dmPrint items, f⟩ = .ok (.ok (encoderOf f items)) := by
  unfold Builder.build
  rw [buildLoop_eq (Nat.lt_succ_self _)]
  have := buildFrom_items items [] 0 ([], []) h
  rw [List.append_nil] at this
  rw [this, buildFrom_nil]
  rfl

end DMKProofs
end Verif

namespace Verif
namespace DMKProofs
open Parser Spec DaitchMokotoff ParserProofs

/-! ## Joining codes -/

theorem alternatives_plain {x : Str} (h : '|' ∉ x) : alternatives x = [x] := by
  induction x with
  | nil => rfl
  | cons c x ih =>
    simp only [List.mem_cons, not_or] at h
    rw [alternatives, ih h.2]
    simp [Ne.symm h.1]

theorem alternatives_append {x : Str} (h : '|' ∉ x) (r : Str) :
    alternatives (x ++ '|' :: r) = x :: alternatives r := by
  induction x with
  | nil =>
    have hne : alternatives r ≠ [] := by rw [← alternatives_eq]; exact splitChar_ne_nil _ _
    rw [List.nil_append, alternatives]
    cases hr : alternatives r with
    | nil => exact absurd hr hne
    | cons a as => rfl
  | cons c x ih =>
    simp only [List.mem_cons, not_or] at h
    rw [List.cons_append, alternatives, ih h.2]
    simp [Ne.symm h.1]

theorem alternatives_join {l : List Str} (hne : l ≠ []) (h : ∀ x ∈ l, '|' ∉ x) :
    alternatives ((l.intersperse c!"|").flatten) = l := by
  induction l with
  | nil => exact absurd rfl hne
  | cons x l ih =>
    cases l with
    | nil => simpa using alternatives_plain (h x (by simp))
    | cons y l =>
      rw [List.intersperse_cons_cons, List.flatten_cons, List.flatten_cons]
      show alternatives (x ++ '|' :: _) = _
      rw [alternatives_append (h x (by simp))]
      exact congrArg _ (ih (by simp) (fun z hz => h z (by simp [hz])))

/-! ## From the encoder back to the file -/

theorem itemAlternatives_of_encoder {P : Str → Prop} {f : Bool} {items : List DMItem}
    (hp : ∀ i ∈ items, ∀ r, itemRule i = some r → r.pattern ≠ [])
    (h : EveryAlternative P (encoderOf f items)) : ItemAlternatives P items := by
  intro p b1 s b2 v b3 o tl hi a ha
  have hne := hp _ hi _ rfl
  cases p with
  | nil => exact absurd rfl hne
  | cons c p =>
    have hm : DMRule.ofParts (c :: p, s, v, o) ∈ rulesFor c items := by
      unfold rulesFor
      rw [List.mem_filter]
      exact ⟨List.mem_filterMap.mpr ⟨_, hi, rfl⟩, by simp [DMRule.ofParts]⟩
    have hg := encoder_rules f items c
    unfold someNonempty at hg
    rw [if_neg (fun h0 => by rw [h0] at hm; cases hm)] at hg
    refine h c _ hg _ ((sortRules_perm _).mem_iff.mpr hm) a ?_
    simpa only [DMRule.ofParts, alternatives_eq] using ha

theorem itemAlternatives_ascii {items : List DMItem} (h : AsciiAlternatives items) :
    ItemAlternatives AsciiStr items := by
  intro p b1 s b2 v b3 o tl hi a ha
  obtain ⟨h1, h2, h3⟩ := h p b1 s b2 v b3 o tl hi
  rcases ha with ha | ha | ha
  · exact h1.subset (mem_alternatives ha).1
  · exact h2.subset (mem_alternatives ha).1
  · exact h3.subset (mem_alternatives ha).1

theorem itemAlternatives_bar (items : List DMItem) : ItemAlternatives (fun a => ∀ c ∈ a, c ≠ '|') items := by
  intro p b1 s b2 v b3 o tl _ a ha c hc hcb
  subst hcb
  rcases ha with ha | ha | ha <;> exact (mem_alternatives ha).2 hc

theorem everyAlternative_mem {P : Str → Prop} {d : DaitchMokotoff}
    (h : ∀ e ∈ d.rules, ∀ r ∈ e.2, ∀ a ∈ r.atStart ++ r.beforeVowel ++ r.default, P a) :
    EveryAlternative P d := by
  intro c rules hg r hr a ha
  have hm : (c, rules) ∈ d.rules := by
    unfold Assoc.get? at hg
    have : ∀ m : Assoc Char (List DMRule), m.lookup c = some rules → (c, rules) ∈ m := by
      intro m
      induction m with
      | nil => intro h; cases h
      | cons e m ih =>
        obtain ⟨k, w⟩ := e
        intro h
        rw [List.lookup_cons] at h
        by_cases hk : c = k
        · subst hk
          rw [show (c == c) = true by simp] at h
          cases h
          simp
        · rw [show (c == k) = false by simpa using hk] at h
          exact List.mem_cons_of_mem _ (ih h)
    exact this _ hg
  refine h _ hm r hr a ?_
  simp only [List.mem_append]
  rcases ha with ha | ha | ha
  · exact .inl (.inl ha)
  · exact .inl (.inr ha)
  · exact .inr ha

/-! ## Line numbers -/

theorem newlines_append (a b : Str) : newlines (a ++ b) = newlines a + newlines b := by
  unfold newlines; exact List.count_append

theorem newlines_zero {a : Str} (h : '\n' ∉ a) : newlines a = 0 := List.count_eq_zero.mpr h

theorem newlines_blanks {b : Str} (h : ∀ c ∈ b, isSpaceTab c = true) : newlines b = 0 :=
  newlines_zero (fun hm => by have := h _ hm; simp [isSpaceTab] at this)

theorem newlines_tail {t : Tail} {r : Str} (h : t.WF r) (hr : r ≠ []) : newlines t.print = 1 := by
  obtain ⟨blanks, comment, ending⟩ := t
  unfold Tail.print
  rw [newlines_append, newlines_append, newlines_blanks h.blanks]
  have he : newlines ending = 1 := by
    rcases h.ending with e | e | ⟨-, e⟩
    · simp only at e; subst e; rfl
    · simp only at e; subst e; rfl
    · exact absurd e hr
  simp only [he]
  cases comment with
  | none => rfl
  | some c =>
    have := newlines_zero (h.comment c rfl).1
    show 0 + newlines (c!"//" ++ c) + 1 = 1
    rw [newlines_append, this]
    rfl

theorem newlines_quoted {p : Str} (h : '\n' ∉ p) : newlines (quoted p) = 0 := by
  apply newlines_zero
  simp [quoted, h]

theorem itemLines_eq {i : DMItem} {r : Str} (hl : i.Legal r) (h1 : i.OneLine) (hr : r ≠ []) :
    itemLines i = newlines i.print + blockComments [i] := by
  cases i with
  | rule p b1 s b2 v b3 o t =>
    obtain ⟨-, v1, -, v2, -, v3, -, ht⟩ := hl
    obtain ⟨n1, n2, n3, n4⟩ := h1
    simp only [DMItem.print, newlines_append, newlines_quoted n1, newlines_quoted n2, newlines_quoted n3,
      newlines_quoted n4, newlines_blanks v1.2, newlines_blanks v2.2, newlines_blanks v3.2,
      newlines_tail ht hr]
    rfl
  | fold a b t =>
    show 1 = newlines ([a, '=', b] ++ t.print) + 0
    rw [newlines_append, newlines_tail hl hr, newlines_zero (by simp [h1.1.symm, h1.2.symm])]
  | blank t =>
    show 1 = newlines t.print + 0
    rw [newlines_tail hl hr]
  | block text t =>
    show 1 + (newlines text + 1) = newlines (c!"/*" ++ text ++ (c!"*/" ++ t.print)) + 1
    rw [newlines_append, newlines_append, newlines_append, newlines_tail hl.2 hr]
    show _ = 0 + newlines text + (0 + 1) + 1
    omega

theorem blockComments_cons (i : DMItem) (items : List DMItem) :
    blockComments (i :: items) = blockComments [i] + blockComments items := by
  unfold blockComments
  rw [← List.singleton_append, List.countP_append]

theorem fileLines_eq {items : List DMItem} {bad : Str} (hl : EveryItem (fun r i => i.Legal r) bad items)
    (h1 : ∀ i ∈ items, i.OneLine) (hb : bad ≠ []) :
    fileLines items = newlines (dmPrint items) + blockComments items := by
  induction items with
  | nil => rfl
  | cons i items ih =>
    have h := itemLines_eq hl.1 (h1 i (by simp)) (by simp [hb])
    have h' := ih hl.2 (fun j hj => h1 j (by simp [hj]))
    have e : dmPrint (i :: items) = i.print ++ dmPrint items := by simp [dmPrint]
    rw [e, newlines_append, blockComments_cons]
    unfold fileLines at h' ⊢
    rw [List.map_cons, List.sum_cons, h', h]
    omega

end DMKProofs
end Verif
