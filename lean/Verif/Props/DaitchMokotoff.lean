import Verif.Proofs.DaitchMokotoffRepeat
import Verif.Proofs.DaitchMokotoffAny
/-!
# Properties of Daitch-Mokotoff Soundex

`U` ranges over all Unicode tables that satisfy the laws of `Unicode`.
-/

set_option linter.unusedSimpArgs false

namespace Verif.Props
open Spec DaitchMokotoff DMKProofs

/-- A small rule file, used to show that the hypotheses below can be met. -/
def sampleItems : List DMItem := [
  .block c!"\n a comment\n" ⟨[], none, c!"\n"⟩,
  .blank ⟨[], some c!" rules", c!"\n"⟩,
  .rule c!"sh" c!" " c!"0" c!" " c!"" c!"\t " c!"0|1" ⟨[], none, c!"\n"⟩,
  .rule c!"s" c!" " c!"4" c!" " c!"4" c!" " c!"4" ⟨c!" ", some c!" end", c!"\n"⟩,
  .fold 'à' 'a' ⟨[], none, c!"\r\n"⟩,
  .blank ⟨c!"  ", none, []⟩]

theorem sample_legal : EveryItem (fun r i => i.Legal r ∧ i.Clear r) [] sampleItems := by
  have W : ∀ (t : Tail) (r : Str), (∀ c ∈ t.blanks, isSpaceTab c = true) →
      (∀ c, t.comment = some c → '\n' ∉ c ∧ t.ending ≠ ['\r', '\n']) →
      (t.ending = ['\n'] ∨ t.ending = ['\r', '\n'] ∨ (t.ending = [] ∧ r = [])) → t.WF r :=
    fun t r a b c => ⟨a, b, c⟩
  refine ⟨⟨⟨by decide, ?_⟩, trivial⟩, ⟨?_, by decide, by decide⟩,
    ⟨⟨by decide, ?_, by decide, ?_, by decide, ?_, by decide, ?_⟩, List.cons_ne_nil _ _⟩,
    ⟨⟨by decide, ?_, by decide, ?_, by decide, ?_, by decide, ?_⟩, List.cons_ne_nil _ _⟩,
    ⟨?_, show 'à' ≠ '"' by decide⟩, ⟨?_, by decide, by decide⟩, trivial⟩
  all_goals first
    | exact ⟨by decide, by decide⟩
    | (apply W
       · decide
       · intro c hc; first | (simp at hc; done) | (simp at hc; subst hc; decide)
       · simp [dmPrint])

theorem sample_ascii : AsciiAlternatives sampleItems := by
  intro p b1 s b2 v b3 o t h
  simp only [sampleItems, List.mem_cons, reduceCtorEq, DMItem.rule.injEq, List.not_mem_nil, or_false, false_or] at h
  rcases h with ⟨-, -, rfl, -, rfl, -, rfl, -⟩ | ⟨-, -, rfl, -, rfl, -, rfl, -⟩ <;> decide

/-! ## C33: codes have six characters -/

/-- Every code of every encoder that can be built has six bytes. -/
theorem dm_codes_six_bytes (U : Unicode) (b : Builder) (d : DaitchMokotoff) (_ : b.build = .ok (.ok d))
    (v : Str) (branching : Bool) (codes : List Str) (h : d.innerSoundex U v branching = .ok codes) :
    ∀ c ∈ codes, byteLen c = 6 := innerSoundex_six U d v branching codes h

/-- If the alternatives in the rules are ASCII, encoding never panics, there is at least one code, and
the codes are made of six ASCII characters. -/
theorem dm_codes_ascii (U : Unicode) (items : List DMItem) (folding : Bool)
    (hl : EveryItem (fun r i => i.Legal r ∧ i.Clear r) [] items) (ha : AsciiAlternatives items) :
    ∃ d, Builder.build ⟨dmPrint items, folding⟩ = .ok (.ok d) ∧
      ∀ v branching, ∃ codes, d.innerSoundex U v branching = .ok codes ∧ codes ≠ [] ∧
        ∀ c ∈ codes, AsciiStr c ∧ c.length = 6 := by
  have hb := encoderOf_build items folding hl
  refine ⟨_, hb, fun v branching => ?_⟩
  obtain ⟨items', -, -, hp, he⟩ := build_ok hb
  have hd : EveryAlternative (fun a => ∀ c ∈ a, isAscii c = true) (encoderOf folding items) :=
    encoder_alternatives folding (itemAlternatives_ascii ha)
  have hd' := hd
  rw [he] at hd'
  have hs := innerSoundex_spec hp (itemAlternatives_of_encoder hp hd') U folding v
  rw [show encoderOf folding items' = encoderOf folding items from he.symm] at hs
  obtain ⟨x, hx, hf⟩ := innerSoundex_first (encoder_branchable folding items) hs
  have six : ∀ br codes, innerSoundex U (encoderOf folding items) v br = .ok codes →
      ∀ c ∈ codes, AsciiStr c ∧ c.length = 6 := by
    intro br codes h c hc
    have h1 : AsciiStr c := by
      intro x hx
      rcases innerSoundex_over U hd v br codes h c hc x hx with h | h
      · exact h
      · rw [h]; rfl
    have h2 := innerSoundex_six U _ v br codes h c hc
    rw [byteLen_ascii h1] at h2
    exact ⟨h1, h2⟩
  cases branching with
  | true =>
    exact ⟨_, hs, (fun h0 => by rw [h0] at hx; cases hx), six true _ hs⟩
  | false => exact ⟨_, hf, by simp, six false _ hf⟩

/-- The embedded rules can be built. -/
theorem dm_default_builds : (Builder.withRules defaultRules).build = .ok (.ok defaultEncoder) := by
  decide +kernel

/-- The default encoder never panics and its codes are made of six digits. -/
theorem dm_default_digits (U : Unicode) (v : Str) (branching : Bool) :
    ∃ codes, defaultEncoder.innerSoundex U v branching = .ok codes ∧ codes ≠ [] ∧
      ∀ c ∈ codes, c.length = 6 ∧ ∀ x ∈ c, isAsciiDigit x = true := by
  have hd : EveryAlternative (fun a => ∀ c ∈ a, isAsciiDigit c = true) defaultEncoder :=
    everyAlternative_mem (by decide +kernel)
  have asc : ∀ c, isAsciiDigit c = true → isAscii c = true := by
    intro c hc
    simp only [isAsciiDigit, isAscii, Bool.and_eq_true, decide_eq_true_eq] at hc ⊢
    omega
  obtain ⟨items, -, -, hp, he⟩ := build_ok dm_default_builds
  have ha : ItemAlternatives AsciiStr items := by
    refine itemAlternatives_of_encoder (f := true) hp ?_
    intro c rules hg r hr a haa x hx
    have hg' : defaultEncoder.rules.get? c = some rules := by rw [he]; exact hg
    exact asc _ (hd c rules hg' r hr a haa x hx)
  have hs := innerSoundex_spec hp ha U true v
  rw [show encoderOf true items = defaultEncoder from he.symm] at hs
  have hbr : Branchable defaultEncoder := by rw [he]; exact encoder_branchable _ _
  obtain ⟨x, hx, hf⟩ := innerSoundex_first hbr hs
  have six : ∀ br codes, innerSoundex U defaultEncoder v br = .ok codes →
      ∀ c ∈ codes, c.length = 6 ∧ ∀ x ∈ c, isAsciiDigit x = true := by
    intro br codes h c hc
    have h1 : ∀ x ∈ c, isAsciiDigit x = true := by
      intro x hx
      rcases innerSoundex_over U hd v br codes h c hc x hx with h | h
      · exact h
      · rw [h]; rfl
    have h2 := innerSoundex_six U _ v br codes h c hc
    rw [byteLen_ascii (fun x hx => asc x (h1 x hx))] at h2
    exact ⟨h2, h1⟩
  cases branching with
  | true => exact ⟨_, hs, (fun h0 => by rw [h0] at hx; cases hx), six true _ hs⟩
  | false => exact ⟨_, hf, by simp, six false _ hf⟩

/-- Defect: an alternative that is not ASCII can be cut inside a character, which panics. -/
theorem dm_non_ascii_alternative_panics : ∃ d,
    (Builder.withRules c!"\"a\" \"12345é\" \"\" \"\"").build = .ok (.ok d) ∧
      d.innerSoundex .latin1 c!"a" true = .error .slice :=
  ⟨⟨true, [('a', [⟨c!"a", [c!"12345é"], [c!""], [c!""]⟩])], []⟩, by decide +kernel, by decide +kernel⟩

/-! ## C34: encode is the first code of soundex -/

/-- `soundex` returns at least one code, and `encode` and the non-branching `inner_soundex` return
exactly the first one. -/
theorem dm_encode_first (U : Unicode) (b : Builder) (d : DaitchMokotoff) (hb : b.build = .ok (.ok d))
    (v s : Str) (h : d.soundex U v = .ok s) :
    ∃ code others, alternatives s = code :: others ∧ d.encode U v = .ok code ∧
      d.innerSoundex U v true = .ok (code :: others) ∧ d.innerSoundex U v false = .ok [code] := by
  obtain ⟨items, -, -, -, rfl⟩ := build_ok hb
  unfold soundex at h
  cases hc : innerSoundex U (encoderOf b.asciiFolding items) v true with
  | error e => rw [hc] at h; cases h
  | ok codes =>
    rw [hc] at h
    injection h with h
    subst h
    obtain ⟨x, hx, hf⟩ := innerSoundex_first (encoder_branchable _ _) hc
    have hbar : ∀ y ∈ codes, '|' ∉ y := by
      intro y hy hm
      rcases innerSoundex_over U (encoder_alternatives _ (itemAlternatives_bar items)) v true codes hc y hy _ hm
        with h | h
      · exact h rfl
      · exact absurd h (by decide)
    cases codes with
    | nil => cases hx
    | cons y ys =>
      obtain rfl : y = x := by simpa using hx
      refine ⟨y, ys, alternatives_join (by simp) hbar, ?_, rfl, hf⟩
      unfold encode
      rw [hf]
      rfl

/-! ## C35, C37: what a rule file means -/

/-- The encoder built from a rule file gives the codes of the specification: at each position the
longest pattern (in bytes), and the first in the file among these. -/
theorem dm_build_meaning (items : List DMItem) (folding : Bool)
    (hl : EveryItem (fun r i => i.Legal r ∧ i.Clear r) [] items) (ha : AsciiAlternatives items) :
    ∃ d, Builder.build ⟨dmPrint items, folding⟩ = .ok (.ok d) ∧
      ∀ U v, d.innerSoundex U v true =
        .ok (dmCodes (dmRules items) (dmNormalise U folding (dmFold items) v)) := by
  refine ⟨_, encoderOf_build items folding hl, fun U v => ?_⟩
  refine innerSoundex_spec ?_ (itemAlternatives_ascii ha) U folding v
  have : ∀ rest, EveryItem (fun r i => i.Legal r ∧ i.Clear r) rest items →
      ∀ i ∈ items, ∀ r, itemRule i = some r → r.pattern ≠ [] := by
    intro rest h
    clear ha hl
    induction items with
    | nil => simp
    | cons j items ih =>
      intro i hi r hr
      rcases List.mem_cons.mp hi with rfl | hi
      · cases i with
        | rule p b1 s b2 v b3 o tl => cases hr; exact h.1.2
        | fold a b tl => cases hr
        | blank tl => cases hr
        | block text tl => cases hr
      · exact ih h.2 i hi r hr
  exact this [] hl

example : dmCodes (dmRules sampleItems) (dmNormalise .latin1 true (dmFold sampleItems) c!"Shà sh s") =
    [c!"040000", c!"014000"] := by decide +kernel

/-- Every text that can be built is a rule file, and its encoder gives the codes of its rules. -/
theorem dm_built_meaning (b : Builder) (d : DaitchMokotoff) (hb : b.build = .ok (.ok d)) :
    ∃ items, b.rules = dmPrint items ∧ EveryItem (fun r i => i.Legal r) [] items ∧
      (AsciiAlternatives items → ∀ U v, d.innerSoundex U v true =
        .ok (dmCodes (dmRules items) (dmNormalise U b.asciiFolding (dmFold items) v))) := by
  obtain ⟨items, h1, h2, h3, rfl⟩ := build_ok hb
  exact ⟨items, h1, h2, fun ha U v => innerSoundex_spec h3 (itemAlternatives_ascii ha) U _ v⟩

/-- Every text that can be built is a rule file, and its encoder gives the codes of its rules on every
text, whatever the alternatives: it panics exactly when a code would be cut inside a character. The
single code is the one of the first alternatives. -/
theorem dm_built_meaning_any (b : Builder) (d : DaitchMokotoff) (hb : b.build = .ok (.ok d)) :
    ∃ items, b.rules = dmPrint items ∧ EveryItem (fun r i => i.Legal r) [] items ∧
      ∀ U v, ∃ groups,
        groups = dmGroups (dmRules items) none 0 (dmNormalise U b.asciiFolding (dmFold items) v) ∧
        (∀ codes, dmCodesAny groups = some codes → d.innerSoundex U v true = .ok codes) ∧
        (dmCodesAny groups = none → d.innerSoundex U v true = .error .slice) ∧
        (∀ codes, dmCodesAny (firstAlternatives groups) = some codes →
          d.encode U v = .ok (codes.head?.getD [])) ∧
        (dmCodesAny (firstAlternatives groups) = none → d.encode U v = .error .slice) := by
  obtain ⟨items, h1, h2, h3, rfl⟩ := build_ok hb
  refine ⟨items, h1, h2, fun U v => ⟨_, rfl, ?_⟩⟩
  have ht := innerSoundex_any h3 U b.asciiFolding true v
  have hf := innerSoundex_any h3 U b.asciiFolding false v
  have e1 : ∀ gs, usedGroups true gs = gs := fun gs => by simp [usedGroups, used]
  have e2 : ∀ gs, usedGroups false gs = firstAlternatives gs := fun gs => by
    simp [usedGroups, used, firstAlternatives]
  rw [e1] at ht
  rw [e2] at hf
  refine ⟨fun codes h => ?_, fun h => ?_, fun codes h => ?_, fun h => ?_⟩
  · rw [ht, h]; rfl
  · rw [ht, h]; rfl
  · unfold encode; rw [hf, h]; rfl
  · unfold encode; rw [hf, h]; rfl

/-- A file with alternatives that are not ASCII: six bytes are three letters, seven are an error. -/
def accentRules : List DMItem :=
  [.rule c!"a" c!" " c!"é" c!" " c!"è|x" c!" " c!"1" ⟨[], none, c!"\n"⟩]

example : (Builder.withRules (dmPrint accentRules)).build =
      .ok (.ok (encoderOf true accentRules)) ∧
    dmCodesAny (dmGroups (dmRules accentRules) none 0 c!"aaaa") =
      some [c!"éè10", c!"éèx1", c!"éxè1", c!"éx100"] ∧
    dmCodesAny [([c!"123é5"], false)] = some [c!"123é5"] ∧
    dmCodesAny [([c!"1234é5", c!"1"], false)] = some [c!"1234é", c!"100000"] ∧
    dmCodesAny [([c!"1", c!"12345é6"], false)] = none ∧
    dmCodesAny (firstAlternatives [([c!"1", c!"12345é6"], false)]) = some [c!"100000"] := by
  decide +kernel

/-- For ASCII alternatives the two specifications agree. -/
theorem dm_codes_agree (b : Builder) (d : DaitchMokotoff) (hb : b.build = .ok (.ok d)) :
    ∃ items, b.rules = dmPrint items ∧
      (AsciiAlternatives items → ∀ U v,
        dmCodesAny (dmGroups (dmRules items) none 0 (dmNormalise U b.asciiFolding (dmFold items) v)) =
          some (dmCodes (dmRules items) (dmNormalise U b.asciiFolding (dmFold items) v))) := by
  obtain ⟨items, h1, h2, h3, rfl⟩ := build_ok hb
  refine ⟨items, h1, fun ha U v => ?_⟩
  have ht := innerSoundex_any h3 U b.asciiFolding true v
  rw [innerSoundex_spec h3 (itemAlternatives_ascii ha) U _ v,
    show ∀ gs, usedGroups true gs = gs from fun gs => by simp [usedGroups, used]] at ht
  cases h : dmCodesAny (dmGroups (dmRules items) none 0 (dmNormalise U b.asciiFolding (dmFold items) v)) with
  | none => rw [h] at ht; cases ht
  | some l => rw [h] at ht; injection ht with e; rw [e]

/-- The rule that is applied starts the text, is one of the rules, no rule that starts the text has a
longer pattern, and those before it in the file have shorter patterns. -/
theorem dm_best_rule (rules : List DMSpecRule) (text : Str) (r : DMSpecRule)
    (h : bestRule rules text = some r) :
    r.pattern <+: text ∧ ∃ before after, rules = before ++ r :: after ∧
      (∀ x ∈ before, x.pattern <+: text → byteLen x.pattern < byteLen r.pattern) ∧
      (∀ x ∈ after, x.pattern <+: text → byteLen x.pattern ≤ byteLen r.pattern) := by
  unfold bestRule at h
  simp only at h
  have hmax : ∀ x ∈ rules, x.pattern <+: text →
      byteLen x.pattern ≤ longest (rules.filter fun r => r.pattern.isPrefixOf text) := by
    intro x hx hp
    apply le_foldl_max
    apply List.mem_map_of_mem (f := fun r : DMSpecRule => byteLen r.pattern)
    rw [List.mem_filter]
    exact ⟨hx, by simpa [List.isPrefixOf_iff_prefix] using hp⟩
  rw [List.find?_filter] at h
  rw [List.find?_eq_some_iff_append] at h
  obtain ⟨hr, before, after, e, hb⟩ := h
  simp only [Bool.and_eq_true, List.isPrefixOf_iff_prefix, beq_iff_eq, Bool.decide_and,
    Bool.decide_eq_true, decide_eq_true_eq] at hr
  refine ⟨hr.1, before, after, e, ?_, ?_⟩
  · intro x hx hp
    have h1 := hmax x (by rw [e]; simp [hx]) hp
    have h2 := hb x hx
    simp only [Bool.not_eq_true', Bool.and_eq_false_iff, Bool.decide_and, Bool.decide_eq_true,
      beq_eq_false_iff_ne] at h2
    rcases h2 with h2 | h2
    · rw [List.isPrefixOf_iff_prefix.mpr hp] at h2; cases h2
    · omega
  · intro x hx hp
    have h1 := hmax x (by rw [e]; simp [hx]) hp
    omega

/-! ## C74: repeated codes -/

/-- With rules that have at most `k` alternatives, a code is listed at most `k` times. -/
theorem dm_repeat_bound (items : List DMItem) (folding : Bool) (k : Nat)
    (hl : EveryItem (fun r i => i.Legal r ∧ i.Clear r) [] items) (ha : AsciiAlternatives items)
    (hk : 1 ≤ k) (ht : ∀ r ∈ dmRules items, r.Tame k) :
    ∃ d, Builder.build ⟨dmPrint items, folding⟩ = .ok (.ok d) ∧
      ∀ U v, ∃ codes, d.innerSoundex U v true = .ok codes ∧ ∀ c, codes.count c ≤ k := by
  obtain ⟨d, h1, h2⟩ := dm_build_meaning items folding hl ha
  exact ⟨d, h1, fun U v => ⟨_, h2 U v, fun c => codes_count hk ht _ c⟩⟩

/-- Without alternatives there is exactly one code. -/
theorem dm_single (items : List DMItem) (folding : Bool)
    (hl : EveryItem (fun r i => i.Legal r ∧ i.Clear r) [] items) (ha : AsciiAlternatives items)
    (ht : ∀ r ∈ dmRules items, r.atStart.length = 1 ∧ r.beforeVowel.length = 1 ∧ r.other.length = 1) :
    ∃ d, Builder.build ⟨dmPrint items, folding⟩ = .ok (.ok d) ∧
      ∀ U v, ∃ c, d.innerSoundex U v true = .ok [c] := by
  obtain ⟨d, h1, h2⟩ := dm_build_meaning items folding hl ha
  refine ⟨d, h1, fun U v => ?_⟩
  obtain ⟨c, hc⟩ := codes_single ht (dmNormalise U folding (dmFold items) v)
  exact ⟨c, by rw [h2, hc]⟩

/-- Files that meet the hypotheses of the two theorems above. -/
def oneRule (start vowel other : Str) : List DMItem :=
  [.rule c!"sh" c!" " start c!" " vowel c!" " other ⟨[], none, c!"\n"⟩]

example : EveryItem (fun r i => i.Legal r ∧ i.Clear r) [] (oneRule c!"0|01" c!"" c!"1|2") ∧
    AsciiAlternatives (oneRule c!"0|01" c!"" c!"1|2") ∧
    (∀ r ∈ dmRules (oneRule c!"0|01" c!"" c!"1|2"), r.Tame 2) ∧
    dmCodes (dmRules (oneRule c!"0|01" c!"" c!"1|2")) c!"shsh" =
      [c!"010000", c!"020000", c!"012000"] := by
  refine ⟨⟨⟨⟨by decide, ⟨by decide, by decide⟩, by decide, ⟨by decide, by decide⟩, by decide,
    ⟨by decide, by decide⟩, by decide, ⟨by decide, (by intro c hc; simp at hc), by simp⟩⟩,
    List.cons_ne_nil _ _⟩, trivial⟩, ?_, ?_, by decide +kernel⟩
  · intro p b1 s b2 v b3 o t h
    simp only [oneRule, List.mem_cons, reduceCtorEq, DMItem.rule.injEq, List.not_mem_nil, or_false, false_or] at h
    obtain ⟨-, -, rfl, -, rfl, -, rfl, -⟩ := h
    decide
  · have : ∀ r ∈ dmRules (oneRule c!"0|01" c!"" c!"1|2"), tameB 2 r = true := by decide +kernel
    exact fun r hr => tame_of_tameB (this r hr)

example : ∀ r ∈ dmRules (oneRule c!"4" c!"" c!"45"),
    r.atStart.length = 1 ∧ r.beforeVowel.length = 1 ∧ r.other.length = 1 := by decide +kernel

/-- With the embedded rules a code is listed at most twice. -/
theorem dm_default_at_most_twice (U : Unicode) (v : Str) :
    ∃ codes, defaultEncoder.innerSoundex U v true = .ok codes ∧ ∀ c, codes.count c ≤ 2 := by
  obtain ⟨items, -, -, hp, he⟩ := build_ok dm_default_builds
  have hd : EveryAlternative AsciiStr defaultEncoder := everyAlternative_mem (by decide +kernel)
  have ha : ItemAlternatives AsciiStr items := by
    refine itemAlternatives_of_encoder (f := true) hp ?_
    rw [show encoderOf true items = defaultEncoder from he.symm]
    exact hd
  have hs := innerSoundex_spec hp ha U true v
  rw [show encoderOf true items = defaultEncoder from he.symm] at hs
  have ht : ∀ r ∈ dmRules items, r.Tame 2 := by
    refine dmRules_of_encoder (f := true) hp ?_
    rw [show encoderOf true items = defaultEncoder from he.symm]
    have hb : ∀ e ∈ defaultEncoder.rules, ∀ r ∈ e.2,
        tameB 2 ⟨r.pattern, r.atStart, r.beforeVowel, r.default⟩ = true := by decide +kernel
    exact fun e he r hr => tame_of_tameB (hb e he r hr)
  exact ⟨_, hs, fun c => codes_count (by decide) ht _ c⟩

/-- Defect: a code can be listed twice, when two ways to code the last group give the same digits. (The
alternatives that were chosen last are compared as well.) -/
theorem dm_default_repeats :
    defaultEncoder.innerSoundex .latin1 c!"Oberndorfbach" true = .ok [c!"079639", c!"079639"] ∧
      defaultEncoder.soundex .latin1 c!"Oberndorfbach" = .ok c!"079639|079639" := by
  decide +kernel

/-- Defect: the length of a pattern is counted in bytes, so the letter after 'ț' is lost. -/
theorem dm_letter_lost :
    defaultEncoder.encode .latin1 c!"tmas" = .ok c!"364000" ∧
    defaultEncoder.encode .latin1 c!"țmas" = .ok c!"340000" := by decide +kernel

/-! ## C36: whitespace, case and folding -/

/-- Whitespace is ignored everywhere. -/
theorem dm_whitespace (U : Unicode) (b : Builder) (d : DaitchMokotoff) (_ : b.build = .ok (.ok d))
    (v : Str) (branching : Bool) :
    d.innerSoundex U (v.filter fun c => !U.isWhitespace c) branching = d.innerSoundex U v branching := by
  unfold innerSoundex clean
  rw [List.filter_filter]
  simp only [Bool.and_self]

/-- So is the case of characters, if changing it does not change the lower case of the character. -/
theorem dm_case (U : Unicode) (b : Builder) (d : DaitchMokotoff) (_ : b.build = .ok (.ok d))
    (f : Char → Char) (hf : ∀ c, (U.toLower (f c)).head? = (U.toLower c).head?)
    (hw : ∀ c, U.isWhitespace (f c) = U.isWhitespace c) (v : Str) (branching : Bool) :
    d.innerSoundex U (v.map f) branching = d.innerSoundex U v branching := by
  have : clean U d (v.map f) = clean U d v := by
    unfold clean
    induction v with
    | nil => rfl
    | cons c v ih =>
      rw [List.map_cons, List.filter_cons, List.filter_cons, hw]
      by_cases h : (!U.isWhitespace c) = true
      · rw [if_pos h, if_pos h, List.map_cons, List.map_cons, ih]
        congr 1
        unfold fold
        rw [hf]
        cases hc : (U.toLower c).head? with
        | none => exact absurd (List.head?_eq_none_iff.mp hc) (U.toLower_ne_nil c)
        | some l => rfl
      · rw [if_neg h, if_neg h, ih]
  unfold innerSoundex
  rw [this]

/-- In particular the case of ASCII letters. -/
theorem dm_ascii_case (U : Unicode) (b : Builder) (d : DaitchMokotoff) (hb : b.build = .ok (.ok d))
    (v : Str) (branching : Bool) :
    d.innerSoundex U (v.map asciiLower) branching = d.innerSoundex U v branching ∧
    d.innerSoundex U (v.map asciiUpper) branching = d.innerSoundex U v branching := by
  have low : ∀ c, isAscii c = true → isAscii (asciiLower c) = true ∧ isAscii (asciiUpper c) = true ∧
      asciiLower (asciiLower c) = asciiLower c ∧ asciiLower (asciiUpper c) = asciiLower c ∧
      isAsciiWs (asciiLower c) = isAsciiWs c ∧ isAsciiWs (asciiUpper c) = isAsciiWs c := by
    apply forall_ascii; decide +kernel
  have same : ∀ c, isAscii c = false → asciiLower c = c ∧ asciiUpper c = c := by
    intro c hc
    simp only [isAscii, decide_eq_false_iff_not] at hc
    constructor
    · unfold asciiLower
      rw [if_neg]
      simp only [isAsciiUpper, Bool.and_eq_true, decide_eq_true_eq]
      omega
    · unfold asciiUpper
      rw [if_neg]
      simp only [isAsciiLower, Bool.and_eq_true, decide_eq_true_eq]
      omega
  constructor
  · apply dm_case U b d hb
    · intro c
      cases hc : isAscii c with
      | true => rw [U.toLower_ascii _ (low c hc).1, U.toLower_ascii _ hc, (low c hc).2.2.1]
      | false => rw [(same c hc).1]
    · intro c
      cases hc : isAscii c with
      | true => rw [U.isWhitespace_ascii _ (low c hc).1, U.isWhitespace_ascii _ hc, (low c hc).2.2.2.2.1]
      | false => rw [(same c hc).1]
  · apply dm_case U b d hb
    · intro c
      cases hc : isAscii c with
      | true => rw [U.toLower_ascii _ (low c hc).2.1, U.toLower_ascii _ hc, (low c hc).2.2.2.1]
      | false => rw [(same c hc).2]
    · intro c
      cases hc : isAscii c with
      | true => rw [U.isWhitespace_ascii _ (low c hc).2.1, U.isWhitespace_ascii _ hc, (low c hc).2.2.2.2.2]
      | false => rw [(same c hc).2]

/-- With folding, a character can be replaced by the folding of its lower case, the last one in the
file, if that is a lower case letter that is not folded itself. -/
theorem dm_folding (U : Unicode) (items : List DMItem)
    (hl : EveryItem (fun r i => i.Legal r ∧ i.Clear r) [] items) :
    ∃ d, Builder.build ⟨dmPrint items, true⟩ = .ok (.ok d) ∧
      ∀ (c l x : Char) (a b : Str) (branching : Bool), (U.toLower c).head? = some l →
        dmFold items l = some x → U.toLower x = [x] → dmFold items x = none →
        U.isWhitespace c = false → U.isWhitespace x = false →
        d.innerSoundex U (a ++ c :: b) branching = d.innerSoundex U (a ++ x :: b) branching := by
  refine ⟨_, encoderOf_build items true hl, ?_⟩
  intro c l x a b branching h1 h2 h3 h4 h5 h6
  unfold innerSoundex
  rw [clean_spec, clean_spec]
  unfold dmNormalise
  rw [List.filter_append, List.filter_append, List.filter_cons, List.filter_cons, h5, h6]
  simp [h1, h2, h3, h4]

/-! ## C38: the builder always returns -/

/-- `build` ends on every text: it returns an encoder, an error, or panics because of a rule with an
empty pattern; in the last case the text has such a rule. -/
theorem dm_build_terminates (b : Builder) :
    (∃ d, b.build = .ok (.ok d)) ∨ (∃ e, b.build = .ok (.error e)) ∨
    (b.build = .error .unwrap ∧ ∃ items b1 s b2 v b3 o tl rest,
      b.rules = dmPrint items ++ (DMItem.print (.rule [] b1 s b2 v b3 o tl) ++ rest)) := by
  unfold Builder.build
  rw [buildLoop_eq (Nat.lt_succ_self _)]
  rcases buildFrom_outcome b.rules.length b.rules (Nat.le_refl _) 0 ([], []) with
    ⟨items, -, -, -, h4⟩ | ⟨items, bad, -, -, -, h4⟩ | ⟨items, b1, x, b2, v, b3, o, tl, rest, h1, -, h4⟩
  · rw [h4]; exact .inl ⟨_, rfl⟩
  · rw [h4]; exact .inr (.inl ⟨_, rfl⟩)
  · rw [h4]; exact .inr (.inr ⟨rfl, items, b1, x, b2, v, b3, o, tl, rest, h1⟩)

/-- Defect: a rule with an empty pattern makes `build` panic. -/
theorem dm_empty_pattern_panics (items : List DMItem) (b1 s b2 v b3 o : Str) (tl : Tail) (rest : Str)
    (folding : Bool)
    (hl : EveryItem (fun r i => i.Legal r ∧ i.Clear r) (DMItem.print (.rule [] b1 s b2 v b3 o tl) ++ rest) items)
    (he : DMItem.Legal rest (.rule [] b1 s b2 v b3 o tl)) :
    Builder.build ⟨dmPrint items ++ (DMItem.print (.rule [] b1 s b2 v b3 o tl) ++ rest), folding⟩ =
      .error .unwrap := by
  unfold Builder.build
  rw [buildLoop_eq (Nat.lt_succ_self _), buildFrom_items items _ 0 ([], []) hl]
  obtain ⟨w1, v1, w2, v2, w3, v3, w4, ht⟩ := he
  have hq := ParserProofs.quadruplet_print w1 v1 w2 v2 w3 v3 w4 ht
  have := buildFrom_rule (0 + fileLines items) (tables items ([], [])).1 (tables items ([], [])).2
    (List.cons_ne_nil _ _) hq
  rw [show buildFrom (DMItem.print (.rule [] b1 s b2 v b3 o tl) ++ rest) (0 + fileLines items)
    (tables items ([], [])).1 (tables items ([], [])).2 = _ from this]
  rfl

/-! ## C39: errors name the offending line -/

/-- The error for a text that is a rule file up to `bad`: the content is the first line of `bad`; the
number is the number of that line (if no newline is quoted or folded), *plus one* for each `/* */`
comment before (a defect). -/
theorem dm_error_line (items : List DMItem) (bad : Str) (folding : Bool)
    (hl : EveryItem (fun r i => i.Legal r ∧ i.Clear r) bad items) (hbad : Unrecognised bad) :
    ∃ e, Builder.build ⟨dmPrint items ++ bad, folding⟩ = .ok (.error e) ∧ e.lineContent = firstLine bad ∧
      ((∀ i ∈ items, i.OneLine) →
        e.lineNumber = newlines (dmPrint items) + 1 + blockComments items) := by
  have hlegal : EveryItem (fun r i => i.Legal r) bad items := by
    clear hbad
    induction items with
    | nil => trivial
    | cons i items ih => exact ⟨hl.1.1, ih hl.2⟩
  have hb : Builder.build ⟨dmPrint items ++ bad, folding⟩ =
      .ok (.error (buildError (0 + fileLines items + 1) none bad c!"Can't recognize line")) := by
    unfold Builder.build
    rw [buildLoop_eq (Nat.lt_succ_self _), buildFrom_items items _ 0 ([], []) hl]
    have q : Parser.quadruplet bad = none := by
      cases h : Parser.quadruplet bad with
      | none => rfl
      | some x =>
        obtain ⟨⟨a, b, c, d⟩, r⟩ := x
        obtain ⟨b1, b2, b3, t, w1, v1, w2, v2, w3, v3, w4, ht, e⟩ := ParserProofs.quadruplet_some h
        exact absurd e (hbad.2 (.rule a b1 b b2 c b3 d t) r ⟨w1, v1, w2, v2, w3, v3, w4, ht⟩)
    have f : Parser.folding bad = none := by
      cases h : Parser.folding bad with
      | none => rfl
      | some x =>
        obtain ⟨⟨a, b⟩, r⟩ := x
        obtain ⟨t, ht, e⟩ := ParserProofs.folding_some h
        exact absurd e (hbad.2 (.fold a b t) r ht)
    have l : Parser.endOfLine bad = none := by
      cases h : Parser.endOfLine bad with
      | none => rfl
      | some x =>
        obtain ⟨t, ht, e⟩ := ParserProofs.endOfLine_some h
        exact absurd e (hbad.2 (.blank t) _ ht)
    have m : Parser.multilineComment bad = none := by
      cases h : Parser.multilineComment bad with
      | none => rfl
      | some x =>
        obtain ⟨text, t, hi, ht, -, e⟩ := ParserProofs.multilineComment_some h
        exact absurd e (hbad.2 (.block text t) _ ⟨hi, ht⟩)
    rw [buildFrom_error _ _ _ hbad.1 q f l m]
    rfl
  refine ⟨_, hb, rfl, fun h1 => ?_⟩
  show 0 + fileLines items + 1 = _
  rw [fileLines_eq hlegal h1 hbad.1]
  omega

/-- Every error is of this form. -/
theorem dm_error_shape (b : Builder) (e : ParseError) (h : b.build = .ok (.error e)) :
    ∃ items bad, b.rules = dmPrint items ++ bad ∧ EveryItem (fun r i => i.Legal r) bad items ∧
      Unrecognised bad ∧ e.lineContent = firstLine bad ∧ e.filename = none ∧
      ((∀ i ∈ items, i.OneLine) →
        e.lineNumber = newlines (dmPrint items) + 1 + blockComments items) := by
  unfold Builder.build at h
  rw [buildLoop_eq (Nat.lt_succ_self _)] at h
  rcases buildFrom_outcome b.rules.length b.rules (Nat.le_refl _) 0 ([], []) with
    ⟨items, -, -, -, h4⟩ | ⟨items, bad, h1, h2, h3, h4⟩ | ⟨items, b1, x, b2, v, b3, o, tl, rest, h1, -, h4⟩
  · rw [h4] at h; injection h with h; cases h
  · rw [h4] at h
    injection h with h
    injection h with h
    subst h
    refine ⟨items, bad, h1, h2, h3, rfl, rfl, fun h5 => ?_⟩
    show 0 + fileLines items + 1 = _
    rw [fileLines_eq h2 h5 h3.1]
    omega
  · rw [h4] at h; cases h

/-- Defect: after a `/* */` comment the reported number is one too large. -/
theorem dm_error_line_after_comment :
    (Builder.withRules c!"/* one line */\nwrong").build =
      .ok (.error ⟨3, none, c!"wrong", c!"Can't recognize line"⟩) := by decide +kernel

end Verif.Props
