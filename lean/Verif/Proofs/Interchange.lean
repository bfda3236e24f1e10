import Verif.Spec.Interchange
import Verif.Props.Tables
import Verif.Props.Soundex
import Verif.Props.Cologne
import Verif.Props.CaverphoneSpec
import Verif.Props.Metaphone
import Verif.Props.Nysiis
import Verif.Props.BeginningPhonex
/-!
# Exactly which letters an encoder does not tell apart (C100)
-/

set_option linter.unusedSimpArgs false
set_option linter.unusedVariables false

namespace Verif.Props
open Spec

namespace InterchangeProofs

theorem cap_ascii {c : Char} (h : c ∈ allLetters) : isAscii c = true := by
  have : ∀ c ∈ allLetters, isAscii c = true := by decide
  exact this c h

theorem cap_upper {c : Char} (h : c ∈ allLetters) : isAsciiUpper c = true := by
  have : ∀ c ∈ allLetters, isAsciiUpper c = true := by decide
  exact this c h

/-- The results for a letter in some contexts. -/
def signature {β : Type} (f : Str → β) (contexts : List (Str × Str)) (a : Char) : List β :=
  contexts.map fun x => f (x.1 ++ a :: x.2)

theorem same_signature {β : Type} {f : Str → β} {before after : Str → Prop} {a b : Char}
    (h : Interchangeable f before after a b) (contexts : List (Str × Str))
    (hc : ∀ x ∈ contexts, before x.1 ∧ after x.2) : signature f contexts a = signature f contexts b := by
  unfold signature
  exact List.map_congr_left fun x hx => h x.1 x.2 (hc x hx).1 (hc x hx).2

theorem signature_congr {β : Type} {f g : Str → β} {contexts : List (Str × Str)} {a : Char} (ha : isAscii a = true)
    (hc : ∀ x ∈ contexts, AsciiStr x.1 ∧ AsciiStr x.2) (h : ∀ s, AsciiStr s → f s = g s) :
    signature f contexts a = signature g contexts a := by
  unfold signature
  exact List.map_congr_left fun x hx => h _ (asciiStr_append.mpr ⟨(hc x hx).1, asciiStr_cons.mpr ⟨ha, (hc x hx).2⟩⟩)

instance (s : Str) : Decidable (hasLetter s) := inferInstanceAs (Decidable (∃ c ∈ s, _))
instance (s : Str) : Decidable (anyText s) := inferInstanceAs (Decidable True)
instance (s : Str) : Decidable (withoutSigma s) := inferInstanceAs (Decidable (¬ _))

/-- Letters that are not told apart by `f` cannot be told apart by `g` in ASCII contexts, if `f` and `g` agree there. -/
theorem told_apart {β : Type} [DecidableEq β] {f g : Str → β} {before after : Str → Prop} {a b : Char}
    (ha : a ∈ allLetters) (hb : b ∈ allLetters)
    (h : Interchangeable f before after a b) (contexts : List (Str × Str)) (groups : List Str)
    (hc : ∀ x ∈ contexts, before x.1 ∧ after x.2) (hx : ∀ x ∈ contexts, AsciiStr x.1 ∧ AsciiStr x.2)
    (hfg : ∀ s, AsciiStr s → f s = g s)
    (hd : ∀ a ∈ allLetters, ∀ b ∈ allLetters, signature g contexts a = signature g contexts b → together groups a b = true) :
    together groups a b = true := by
  refine hd a ha b hb ?_
  rw [← signature_congr (cap_ascii ha) hx hfg, ← signature_congr (cap_ascii hb) hx hfg]
  exact same_signature h contexts hc

theorem letters_cap (U : Unicode) (u v : Str) {a : Char} (ha : a ∈ allLetters) :
    letters U (u ++ a :: v) = letters U u ++ a :: letters U v := by
  have h1 : isAsciiAlpha a = true ∧ asciiUpper a = a := by
    have : ∀ c ∈ allLetters, isAsciiAlpha c = true ∧ asciiUpper c = c := by decide
    exact this a ha
  rw [letters_append]
  congr 1
  unfold letters
  rw [List.filter_cons, U.isAlphabetic_ascii a (cap_ascii ha), h1.1, if_pos rfl, List.flatMap_cons,
    U.toUpper_ascii a (cap_ascii ha), h1.2]
  rfl

theorem letters_ne (U : Unicode) {u : Str} (h : hasLetter u) : ∃ c r, letters U u = c :: r := by
  obtain ⟨c, hc, hl⟩ := h
  cases hn : letters U u with
  | cons c r => exact ⟨c, r, rfl⟩
  | nil =>
    rw [letters_eq_nil] at hn
    have := hn c hc
    have ha : isAscii c = true := by
      unfold isAsciiAlpha isAsciiLower isAsciiUpper at hl
      unfold isAscii
      simp only [Bool.or_eq_true, Bool.and_eq_true, decide_eq_true_eq] at hl
      simp only [decide_eq_true_eq]
      omega
    rw [U.isAlphabetic_ascii c ha, hl] at this
    cases this

/-! ## Soundex -/

theorem soundex_loop (sx : Soundex) (a b : Char) (hm : getMappingCode sx.mapping a = getMappingCode sx.mapping b)
    (hw' : (sx.specialCaseHW && (a == 'H' || a == 'W')) = (sx.specialCaseHW && (b == 'H' || b == 'W'))) (x y : Str) :
    ∀ count prev code, Soundex.loop sx (x ++ a :: y) count prev code = Soundex.loop sx (x ++ b :: y) count prev code := by
  induction x with
  | nil =>
    intro count prev code
    simp only [List.nil_append, Soundex.loop, hw', hm]
  | cons c x ih =>
    intro count prev code
    simp only [List.cons_append, Soundex.loop, ih]

theorem refined_loop (m : Mapping) (a b : Char) (hm : getMappingCode m a = getMappingCode m b) (x y : Str) :
    ∀ prev code, RefinedSoundex.loop m (x ++ a :: y) prev code = RefinedSoundex.loop m (x ++ b :: y) prev code := by
  induction x with
  | nil =>
    intro prev code
    simp only [List.nil_append, RefinedSoundex.loop, hm]
  | cons c x ih =>
    intro prev code
    simp only [List.cons_append, RefinedSoundex.loop, ih]

/-! ## Cologne -/

/-- The first letter of the group. -/
def cologneCanon (c : Char) : Char :=
  if c = 'O' ∨ c = 'U' then 'A'
  else if c = 'I' ∨ c = 'J' ∨ c = 'Y' then 'E'
  else if c = 'T' then 'D'
  else if c = 'V' ∨ c = 'W' then 'F'
  else if c = 'Q' then 'K'
  else if c = 'N' then 'M'
  else if c = 'Z' then 'S'
  else c

/-- A property of all characters, if it is clear for those that do not change and checked for those that do. -/
theorem canon_all {P : Char → Prop} (h1 : ∀ c, cologneCanon c = c → P c) (h2 : ∀ c ∈ c!"OUIJYTVWQNZ", P c) (c : Char) :
    P c := by
  by_cases hc : c ∈ c!"OUIJYTVWQNZ"
  · exact h2 c hc
  · refine h1 c ?_
    simp only [List.mem_cons, List.not_mem_nil, or_false, not_or] at hc
    obtain ⟨a1, a2, a3, a4, a5, a6, a7, a8, a9, a10, a11⟩ := hc
    unfold cologneCanon
    simp only [a1, a2, a3, a4, a5, a6, a7, a8, a9, a10, a11, or_self, if_false]

theorem canon_upper (c : Char) : isAsciiUpper (cologneCanon c) = isAsciiUpper c :=
  canon_all (P := fun c => isAsciiUpper (cologneCanon c) = isAsciiUpper c) (fun c h => by rw [h]) (by decide) c

theorem canon_H (c : Char) : (cologneCanon c == 'H') = (c == 'H') :=
  canon_all (P := fun c => (cologneCanon c == 'H') = (c == 'H')) (fun c h => by rw [h]) (by decide) c

theorem canon_oneOf (o : Option Char) : oneOf (o.map cologneCanon) c!"CSZ" = oneOf o c!"CSZ" ∧
    oneOf (o.map cologneCanon) c!"AHKLOQRUX" = oneOf o c!"AHKLOQRUX" ∧
    oneOf (o.map cologneCanon) c!"SZ" = oneOf o c!"SZ" ∧
    oneOf (o.map cologneCanon) c!"AHKOQUX" = oneOf o c!"AHKOQUX" ∧
    oneOf (o.map cologneCanon) c!"CKQ" = oneOf o c!"CKQ" ∧
    ((o.map cologneCanon = some 'H') ↔ (o = some 'H')) := by
  cases o with
  | none => exact ⟨rfl, rfl, rfl, rfl, rfl, by simp⟩
  | some c =>
    simp only [Option.map_some, oneOf, Option.some.injEq]
    refine ⟨?_, ?_, ?_, ?_, ?_, ?_⟩
    · exact canon_all (P := fun c => (c!"CSZ").contains (cologneCanon c) = (c!"CSZ").contains c)
        (fun c h => by rw [h]) (by decide) c
    · exact canon_all (P := fun c => (c!"AHKLOQRUX").contains (cologneCanon c) = (c!"AHKLOQRUX").contains c)
        (fun c h => by rw [h]) (by decide) c
    · exact canon_all (P := fun c => (c!"SZ").contains (cologneCanon c) = (c!"SZ").contains c)
        (fun c h => by rw [h]) (by decide) c
    · exact canon_all (P := fun c => (c!"AHKOQUX").contains (cologneCanon c) = (c!"AHKOQUX").contains c)
        (fun c h => by rw [h]) (by decide) c
    · exact canon_all (P := fun c => (c!"CKQ").contains (cologneCanon c) = (c!"CKQ").contains c)
        (fun c h => by rw [h]) (by decide) c
    · have := canon_H c
      rw [Bool.eq_iff_iff] at this
      simpa using this

theorem canon_code (onset : Bool) (prev next : Option Char) (c : Char) :
    cologneCode onset (prev.map cologneCanon) (next.map cologneCanon) (cologneCanon c) = cologneCode onset prev next c := by
  obtain ⟨p1, p2, p3, p4, p5, p6⟩ := canon_oneOf prev
  obtain ⟨n1, n2, n3, n4, n5, n6⟩ := canon_oneOf next
  have e : cologneCode onset (prev.map cologneCanon) (next.map cologneCanon) (cologneCanon c) =
      cologneCode onset prev next (cologneCanon c) := by
    unfold cologneCode
    simp only [p1, p2, p3, p4, p5, p6, n1, n2, n3, n4, n5, n6]
  rw [e]
  refine canon_all (P := fun c => cologneCode onset prev next (cologneCanon c) = cologneCode onset prev next c)
    (fun c h => by rw [h]) ?_ c
  intro c hc
  simp only [List.mem_cons, List.not_mem_nil, or_false] at hc
  rcases hc with rfl | rfl | rfl | rfl | rfl | rfl | rfl | rfl | rfl | rfl | rfl <;> rfl

theorem canon_codes (w : Str) : ∀ before : Str,
    cologneCodes (before.map cologneCanon) (w.map cologneCanon) = cologneCodes before w := by
  induction w with
  | nil => intro before; rfl
  | cons c w ih =>
    intro before
    simp only [List.map_cons, cologneCodes, canon_upper, List.all_map, List.head?_map]
    have h1 : (before.all ((fun x => x == 'H') ∘ cologneCanon)) = before.all (· == 'H') := by
      congr 1
      funext c
      exact canon_H c
    rw [h1, canon_code, ← List.map_cons, ih, ih]

theorem cologne_swap (U : Unicode) (u v : Str) {a b : Char} (ha : a ∈ allLetters) (hb : b ∈ allLetters)
    (h : cologneCanon a = cologneCanon b) : Cologne.encode U (u ++ a :: v) = Cologne.encode U (u ++ b :: v) := by
  have hw : ∀ {c : Char}, c ∈ allLetters → cologneWord U (u ++ c :: v) = cologneWord U u ++ c :: cologneWord U v := by
    intro c hc
    have h1 : asciiUpper c = c ∧ unUmlaut c = c := by
      have : ∀ c ∈ allLetters, asciiUpper c = c ∧ unUmlaut c = c := by decide
      exact this c hc
    unfold cologneWord Unicode.strUpper
    rw [List.flatMap_append, List.flatMap_cons, U.toUpper_ascii c (cap_ascii hc), h1.1, List.map_append, List.map_append]
    simp only [List.map_cons, List.map_nil, h1.2, List.cons_append, List.nil_append]
  rw [cologne_eq_spec, cologne_eq_spec]
  unfold cologne
  rw [hw ha, hw hb, ← canon_codes _ [], ← canon_codes (_ ++ b :: _) []]
  simp only [List.map_append, List.map_cons, h]

/-! ## Caverphone -/

open Spec.Caverphone in
/-- The letter that stands for the group. -/
def cavCanon (c : Char) : Char :=
  if c = 'v' then 'f' else if c = 'x' then 'k' else if c = 'z' then 's' else c

theorem cav_all {P : Char → Prop} (h1 : ∀ c, cavCanon c = c → P c) (h2 : ∀ c ∈ c!"vxz", P c) (c : Char) : P c := by
  by_cases hc : c ∈ c!"vxz"
  · exact h2 c hc
  · refine h1 c ?_
    simp only [List.mem_cons, List.not_mem_nil, or_false, not_or] at hc
    obtain ⟨a1, a2, a3⟩ := hc
    unfold cavCanon
    simp only [a1, a2, a3, if_false]

theorem cavCanon_eq {k : Char} (hk : k ∉ c!"vxzfks") (c : Char) : cavCanon c = k ↔ c = k := by
  simp only [List.mem_cons, List.not_mem_nil, or_false, not_or] at hk
  obtain ⟨a1, a2, a3, a4, a5, a6⟩ := hk
  refine cav_all (P := fun c => cavCanon c = k ↔ c = k) (fun c h => by rw [h]) ?_ c
  intro c hc
  simp only [List.mem_cons, List.not_mem_nil, or_false] at hc
  rcases hc with rfl | rfl | rfl
  · exact ⟨fun h => absurd h.symm a4, fun h => absurd h.symm a1⟩
  · exact ⟨fun h => absurd h.symm a5, fun h => absurd h.symm a2⟩
  · exact ⟨fun h => absurd h.symm a6, fun h => absurd h.symm a3⟩

/-- A word without the letters of the groups. -/
def Plain (w : Str) : Prop := ∀ c ∈ w, c ∉ c!"vxzfks"

instance (w : Str) : Decidable (Plain w) := inferInstanceAs (Decidable (∀ c ∈ w, _))

theorem map_cavCanon_eq {w : Str} (hw : Plain w) (t : Str) : t.map cavCanon = w ↔ t = w := by
  induction w generalizing t with
  | nil => simp
  | cons c w ih =>
    cases t with
    | nil => simp
    | cons d t =>
      simp only [List.map_cons, List.cons.injEq, cavCanon_eq (hw c (by simp)) d, ih (fun x hx => hw x (by simp [hx])) t]

theorem prefix_cavCanon {w : Str} (hw : Plain w) (t : Str) : w.isPrefixOf (t.map cavCanon) = w.isPrefixOf t := by
  induction w generalizing t with
  | nil => simp [List.isPrefixOf]
  | cons c w ih =>
    cases t with
    | nil => rfl
    | cons d t =>
      simp only [List.map_cons, List.isPrefixOf, ih (fun x hx => hw x (by simp [hx])) t]
      congr 1
      rw [Bool.eq_iff_iff]
      simp only [beq_iff_eq]
      rw [eq_comm, cavCanon_eq (hw c (by simp)) d, eq_comm]

open Spec.Caverphone in
theorem starts_cavCanon {words : List Str} (hw : ∀ w ∈ words, Plain w) (t : Str) :
    starts (t.map cavCanon) words = starts t words := by
  unfold starts
  induction words with
  | nil => rfl
  | cons w words ih =>
    simp only [List.any_cons, prefix_cavCanon (hw w (by simp)), ih fun x hx => hw x (by simp [hx])]

open Spec.Caverphone in
theorem vowelAhead_cavCanon (v : Version) (t : Str) : vowelAhead v (t.map cavCanon) = vowelAhead v t :=
  starts_cavCanon (by cases v <;> decide) t

open Spec.Caverphone in
theorem tough_cavCanon (v : Version) (g t : Str) (hg : Plain g) :
    ((tough v).map (· ++ g)).contains (t.map cavCanon) = ((tough v).map (· ++ g)).contains t := by
  have hw : ∀ w ∈ tough v, Plain (w ++ g) := by
    intro w hw c hc
    rcases List.mem_append.mp hc with h | h
    · have : ∀ w ∈ tough v, Plain w := by cases v <;> decide
      exact this w hw c h
    · exact hg c h
  rw [Bool.eq_iff_iff]
  simp only [List.contains_iff_mem, List.mem_map]
  constructor
  · rintro ⟨w, h1, h2⟩
    exact ⟨w, h1, ((map_cavCanon_eq (hw w h1) t).mp h2.symm).symm⟩
  · rintro ⟨w, h1, h2⟩
    exact ⟨w, h1, ((map_cavCanon_eq (hw w h1) t).mpr h2.symm).symm⟩

open Spec.Caverphone in
theorem tough_cavCanon' (v : Version) (t : Str) : (tough v).contains (t.map cavCanon) = (tough v).contains t := by
  have := tough_cavCanon v [] t (by decide)
  simpa using this

open Spec.Caverphone in
theorem vocal_cavCanon (v : Version) (c : Char) : (vocal v).contains (cavCanon c) = (vocal v).contains c :=
  cav_all (P := fun c => (vocal v).contains (cavCanon c) = (vocal v).contains c) (fun c h => by rw [h])
    (by cases v <;> decide) c

open Spec.Caverphone in
theorem hardAfter_cavCanon (v : Version) (n : Nat) : ∀ t : Str, t.length ≤ n → hardAfter v (t.map cavCanon) = hardAfter v t := by
  induction n with
  | zero =>
    intro t ht
    rw [List.length_eq_zero_iff.mp (by omega : t.length = 0)]
    rfl
  | succ n ih =>
    intro t ht
    have e1 := cavCanon_eq (k := 'h') (by decide)
    have e2 := cavCanon_eq (k := 'g') (by decide)
    match t, ht with
    | [], _ => rfl
    | [c], _ => rfl
    | [c, d], _ =>
      show hardAfter v [cavCanon c, cavCanon d] = hardAfter v [c, d]
      have gen2 : ∀ x y : Char, hardAfter v [x, y] = (vocal v).contains x := by
        intro x y
        rw [hardAfter]
        intro w' h1 h2
        cases h2
      rw [gen2, gen2, vocal_cavCanon]
    | c :: d :: e :: before, ht =>
      by_cases h : d = 'h' ∧ e = 'g'
      · obtain ⟨rfl, rfl⟩ := h
        show hardAfter v (cavCanon c :: 'h' :: 'g' :: before.map cavCanon) = hardAfter v (c :: 'h' :: 'g' :: before)
        simp only [List.length_cons] at ht
        simp only [hardAfter, vocal_cavCanon, ih before (by omega), ← List.map_reverse, tough_cavCanon']
      · have gen : ∀ (x y z : Char) (w : Str), ¬ (y = 'h' ∧ z = 'g') → hardAfter v (x :: y :: z :: w) = (vocal v).contains x := by
          intro x y z w hn
          rw [hardAfter]
          intro w' h1 h2
          simp only [List.cons.injEq] at h2
          exact hn ⟨h1, h2.1⟩
        show hardAfter v (cavCanon c :: cavCanon d :: cavCanon e :: before.map cavCanon) = _
        rw [gen _ _ _ _ h, gen _ _ _ _ (by rw [e1, e2]; exact h), vocal_cavCanon]

open Spec.Caverphone in
theorem sound_cavCanon (v : Version) (before after : Str) (c : Char) :
    sound v (before.map cavCanon) (after.map cavCanon) (cavCanon c) = sound v before after c := by
  have b0 : before.map cavCanon = [] ↔ before = [] := map_cavCanon_eq (by decide) before
  have a0 : after.map cavCanon = [] ↔ after = [] := map_cavCanon_eq (by decide) after
  have aw : after.map cavCanon = c!"w" ↔ after = c!"w" := map_cavCanon_eq (by decide) after
  have ar : after.map cavCanon = c!"r" ↔ after = c!"r" := map_cavCanon_eq (by decide) after
  have va := vowelAhead_cavCanon v after
  have vb : vowelAhead v ((after.map cavCanon).drop 1) = vowelAhead v (after.drop 1) := by
    rw [← List.map_drop, vowelAhead_cavCanon]
  have hh := hardAfter_cavCanon v _ before.reverse (Nat.le_refl _)
  rw [List.map_reverse] at hh
  have t0 := tough_cavCanon' v before
  have tg := tough_cavCanon v c!"g" before (by decide)
  have bm : (before.map cavCanon).getLast? = some 'm' ↔ before.getLast? = some 'm' := by
    rw [List.getLast?_map]
    cases before.getLast? with
    | none => simp
    | some d => simp only [Option.map_some, Option.some.injEq]; exact cavCanon_eq (by decide) d
  have s1 : ∀ words : List Str, (∀ w ∈ words, Plain w) → starts (after.map cavCanon) words = starts after words :=
    fun words h => starts_cavCanon h after
  have e : sound v (before.map cavCanon) (after.map cavCanon) (cavCanon c) = sound v before after (cavCanon c) := by
    unfold sound soundGH soundW soundR soundL soundY
    simp only [b0, a0, aw, ar, va, vb, hh, t0, tg, bm]
    rw [s1 [c!"q"] (by decide), s1 [c!"i", c!"e", c!"y"] (by decide), s1 [c!"g"] (by decide), s1 [c!"n"] (by decide),
      s1 [c!"h"] (by decide), s1 [c!"ch"] (by decide), s1 [c!"io", c!"ia"] (by decide),
      s1 [c!"a", c!"e", c!"i", c!"o", c!"u"] (by decide), s1 [c!"y"] (by decide), s1 [c!"hy"] (by decide)]
  rw [e]
  exact cav_all (P := fun c => sound v before after (cavCanon c) = sound v before after c) (fun c h => by rw [h])
    (by
      intro c hc
      simp only [List.mem_cons, List.not_mem_nil, or_false] at hc
      rcases hc with rfl | rfl | rfl <;> rfl) c

open Spec.Caverphone in
theorem sounds_cavCanon (v : Version) (after : Str) : ∀ before : Str,
    soundsFrom v (before.map cavCanon) (after.map cavCanon) = soundsFrom v before after := by
  induction after with
  | nil => intro before; rfl
  | cons c after ih =>
    intro before
    simp only [List.map_cons, soundsFrom, sound_cavCanon]
    have := ih (before ++ [c])
    rw [List.map_append] at this
    exact congrArg _ this

open Spec.Caverphone in
theorem code_cavCanon (v : Version) (w : Str) : code v (w.map cavCanon) = code v w := by
  cases v with
  | v1 =>
    show (once (soundsFrom .v1 [] (w.map cavCanon))).flatMap _ = (once (soundsFrom .v1 [] w)).flatMap _
    rw [← sounds_cavCanon .v1 w []]
    rfl
  | v2 =>
    unfold code
    have e : (w.map cavCanon).getLast? = some 'e' ↔ w.getLast? = some 'e' := by
      rw [List.getLast?_map]
      cases w.getLast? with
      | none => simp
      | some d => simp only [Option.map_some, Option.some.injEq]; exact cavCanon_eq (by decide) d
    have h : (if (w.map cavCanon).getLast? = some 'e' then (w.map cavCanon).dropLast else w.map cavCanon) =
        (if w.getLast? = some 'e' then w.dropLast else w).map cavCanon := by
      by_cases hl : w.getLast? = some 'e'
      · rw [if_pos (e.mpr hl), if_pos hl, List.map_dropLast]
      · rw [if_neg (fun h => hl (e.mp h)), if_neg hl]
    simp only [h]
    have := sounds_cavCanon .v2 (if w.getLast? = some 'e' then w.dropLast else w) []
    rw [List.map_nil] at this
    rw [this]

theorem lower_noSigma (U : Unicode) (s pre : Str) (h : withoutSigma s) : U.strLowerAux pre s = s.flatMap U.toLower := by
  induction s generalizing pre with
  | nil => rfl
  | cons c s ih =>
    have hc : c ≠ 'Σ' := fun e => h (by rw [e]; exact List.mem_cons_self)
    simp only [Unicode.strLowerAux, if_neg hc, List.flatMap_cons, ih _ fun x => h (List.mem_cons_of_mem _ x)]

theorem cav_word (U : Unicode) (u v : Str) (hu : withoutSigma u) (hv : withoutSigma v) {a : Char} (ha : a ∈ allLetters) :
    (U.strLower (u ++ a :: v)).filter U.isLowercase =
      (u.flatMap U.toLower).filter U.isLowercase ++ asciiLower a :: (v.flatMap U.toLower).filter U.isLowercase := by
  have h1 : isAscii (asciiLower a) = true ∧ isAsciiLower (asciiLower a) = true ∧ a ≠ 'Σ' := by
    have : ∀ a ∈ allLetters, isAscii (asciiLower a) = true ∧ isAsciiLower (asciiLower a) = true ∧ a ≠ 'Σ' := by decide
    exact this a ha
  have hs : withoutSigma (u ++ a :: v) := by
    intro h
    rcases List.mem_append.mp h with h | h
    · exact hu h
    · rcases List.mem_cons.mp h with h | h
      · exact h1.2.2 h.symm
      · exact hv h
  unfold Unicode.strLower
  rw [lower_noSigma U _ [] hs, List.flatMap_append, List.flatMap_cons, U.toLower_ascii a (cap_ascii ha), List.filter_append,
    List.filter_append, List.filter_cons, U.isLowercase_ascii _ h1.1, h1.2.1]
  rfl

theorem caverphone_swap (U : Unicode) (u v : Str) (hu : withoutSigma u) (hv : withoutSigma v) {a b : Char}
    (ha : a ∈ allLetters) (hb : b ∈ allLetters) (h : cavCanon (asciiLower a) = cavCanon (asciiLower b)) :
    Caverphone1.encode U (u ++ a :: v) = Caverphone1.encode U (u ++ b :: v) ∧
    Caverphone2.encode U (u ++ a :: v) = Caverphone2.encode U (u ++ b :: v) := by
  rw [caverphone1_spec, caverphone1_spec, caverphone2_spec, caverphone2_spec, cav_word U u v hu hv ha,
    cav_word U u v hu hv hb]
  have key : ∀ ver (x y : Str), Spec.Caverphone.code ver (x ++ asciiLower a :: y) = Spec.Caverphone.code ver (x ++ asciiLower b :: y) := by
    intro ver x y
    rw [← code_cavCanon, ← code_cavCanon ver (x ++ asciiLower b :: y)]
    simp only [List.map_append, List.map_cons, h]
  rw [key, key]
  exact ⟨rfl, rfl⟩

end InterchangeProofs
end Verif.Props
