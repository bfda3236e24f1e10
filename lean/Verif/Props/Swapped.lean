import Verif.Props.LettersDaitchMokotoff
import Verif.Spec.Swapped
/-!
# Exactly which neighbouring letters may change places (C120)
-/

set_option linter.unusedSimpArgs false
set_option linter.unusedVariables false

namespace Verif.Props
open Spec

namespace SwappedProofs
open InterchangeProofs OmittedProofs

/-- Letters that are confused may change places. -/
theorem of_interchangeable {β : Type} {f : Str → β} {before after : Str → Prop} {a b : Char}
    (hb : ∀ u, before u → before (u ++ [b])) (ha : ∀ v, after v → after (b :: v))
    (h : Interchangeable f before after a b) : Swappable f before after a b := by
  intro u v hu hv
  rw [h u (b :: v) hu (ha v hv)]
  have := h (u ++ [b]) v (hb u hu) hv
  simp only [List.append_assoc, List.singleton_append] at this
  exact this.symm

theorem hasLetter_append {u : Str} (w : Str) (h : hasLetter u) : hasLetter (u ++ w) := by
  obtain ⟨c, hc, hl⟩ := h
  exact ⟨c, List.mem_append_left _ hc, hl⟩

/-- Letters that may change places for `f` are among the good ones, if `f` agrees with `g` on ASCII texts and `g` tells the
others apart in some of the contexts. -/
theorem swapped_apart {β : Type} {f g : Str → β} {before after : Str → Prop} {a b : Char}
    (ha : a ∈ allLetters) (hb : b ∈ allLetters) (h : Swappable f before after a b) (contexts : List (Str × Str))
    (good : Char → Char → Bool) (hr : ∀ a ∈ allLetters, good a a = true)
    (hsy : ∀ a ∈ allLetters, ∀ b ∈ allLetters, good a b = good b a)
    (hc : ∀ x ∈ contexts, before x.1 ∧ after x.2) (hx : ∀ x ∈ contexts, AsciiStr x.1 ∧ AsciiStr x.2)
    (hfg : ∀ s, AsciiStr s → f s = g s)
    (hd : ∀ a ∈ allLetters, ∀ b ∈ allLetters, a.toNat < b.toNat → good a b = true ∨
      ∃ x ∈ contexts, g (x.1 ++ a :: b :: x.2) ≠ g (x.1 ++ b :: a :: x.2)) : good a b = true := by
  have as : ∀ x ∈ contexts, ∀ a ∈ allLetters, ∀ b ∈ allLetters, AsciiStr (x.1 ++ a :: b :: x.2) := fun x hm a ha b hb =>
    asciiStr_append.mpr ⟨(hx x hm).1, asciiStr_cons.mpr ⟨cap_ascii ha, asciiStr_cons.mpr ⟨cap_ascii hb, (hx x hm).2⟩⟩⟩
  have same : ∀ x ∈ contexts, g (x.1 ++ a :: b :: x.2) = g (x.1 ++ b :: a :: x.2) := fun x hm => by
    rw [← hfg _ (as x hm a ha b hb), ← hfg _ (as x hm b hb a ha)]
    exact h _ _ (hc x hm).1 (hc x hm).2
  rcases Nat.lt_trichotomy a.toNat b.toNat with hlt | heq | hlt
  · rcases hd a ha b hb hlt with h1 | ⟨x, hm, hn⟩
    · exact h1
    · exact absurd (same x hm) hn
  · have : a = b := Char.ext (UInt32.toNat_inj.mp heq)
    rw [this]; exact hr b hb
  · rw [hsy a ha b hb]
    rcases hd b hb a ha hlt with h1 | ⟨x, hm, hn⟩
    · exact h1
    · exact absurd (same x hm).symm hn

/-! ## NYSIIS -/

/-- A and O are treated as U, Q as G. -/
def naCanon (c : Char) : Char := if c = 'A' ∨ c = 'O' then 'U' else if c = 'Q' then 'G' else c

theorem na_all {P : Char → Prop} (h1 : ∀ c, naCanon c = c → P c) (h2 : ∀ c ∈ c!"AOQ", P c) (c : Char) : P c := by
  by_cases hc : c ∈ c!"AOQ"
  · exact h2 c hc
  · refine h1 c ?_
    simp only [List.mem_cons, List.not_mem_nil, or_false, not_or] at hc
    unfold naCanon
    simp only [hc.1, hc.2.1, hc.2.2, or_self, if_false]

theorem naCanon_eq {k : Char} (hk : k ∉ c!"AOQUG") (c : Char) : naCanon c = k ↔ c = k := by
  simp only [List.mem_cons, List.not_mem_nil, or_false, not_or] at hk
  obtain ⟨a0, a1, a2, a3, a4⟩ := hk
  refine na_all (P := fun c => naCanon c = k ↔ c = k) (fun c h => by rw [h]) ?_ c
  intro c hc
  simp only [List.mem_cons, List.not_mem_nil, or_false] at hc
  rcases hc with rfl | rfl | rfl
  · exact ⟨fun h => absurd h.symm a3, fun h => absurd h.symm a0⟩
  · exact ⟨fun h => absurd h.symm a3, fun h => absurd h.symm a1⟩
  · exact ⟨fun h => absurd h.symm a4, fun h => absurd h.symm a2⟩

theorem naCanon_vowel (c : Char) : nysiisVowel (naCanon c) = nysiisVowel c :=
  na_all (P := fun c => nysiisVowel (naCanon c) = nysiisVowel c) (fun c h => by rw [h]) (by decide) c

theorem na_prefix {w : Str} (hw : ∀ c ∈ w, c ∉ c!"AOQUG") (t : Str) : (w <+: t.map naCanon) ↔ (w <+: t) := by
  induction w generalizing t with
  | nil => simp
  | cons c w ih =>
    cases t with
    | nil => simp
    | cons d t =>
      simp only [List.map_cons, List.cons_prefix_cons, ih (fun x hx => hw x (by simp [hx])) t]
      have := naCanon_eq (hw c (by simp)) d
      rw [eq_comm, this, eq_comm]

theorem na_suffix {w : Str} (hw : ∀ c ∈ w, c ∉ c!"AOQUG") (t : Str) : (w <:+ t.map naCanon) ↔ (w <:+ t) := by
  rw [← List.reverse_prefix, ← List.reverse_prefix, ← List.map_reverse]
  exact na_prefix (fun c hc => hw c (List.mem_reverse.mp hc)) _

/-- The rest, by group. -/
def naPair (r : Char × Str) : Char × Str := (r.1, r.2.map naCanon)

theorem na_letter (prev c : Char) (rest : Str) :
    nysiisLetter prev (naCanon c) (rest.map naCanon) =
      ((nysiisLetter prev c rest).1, (nysiisLetter prev c rest).2.map naCanon) := by
  have p1 := na_prefix (w := c!"V") (by decide) rest
  have p2 := na_prefix (w := c!"N") (by decide) rest
  have p3 := na_prefix (w := c!"CH") (by decide) rest
  have p4 := na_prefix (w := c!"H") (by decide) rest
  have hv : ((rest.map naCanon).take 1).any nysiisVowel = (rest.take 1).any nysiisVowel := by
    cases rest with
    | nil => rfl
    | cons d r => simp [naCanon_vowel]
  have e : nysiisLetter prev (naCanon c) (rest.map naCanon) =
      ((nysiisLetter prev (naCanon c) rest).1, (nysiisLetter prev (naCanon c) rest).2.map naCanon) := by
    generalize naCanon c = d
    show _ = naPair (nysiisLetter prev d rest)
    unfold nysiisLetter
    repeat rw [apply_ite naPair]
    simp only [p1, p2, p3, p4, hv, ← List.map_drop, List.map_append]
    rfl
  rw [e]
  exact na_all (P := fun c => ((nysiisLetter prev (naCanon c) rest).1, (nysiisLetter prev (naCanon c) rest).2.map naCanon) =
      ((nysiisLetter prev c rest).1, (nysiisLetter prev c rest).2.map naCanon)) (fun c h => by rw [h]) (by
      intro c hc
      simp only [List.mem_cons, List.not_mem_nil, or_false] at hc
      rcases hc with rfl | rfl | rfl <;> rfl) c

theorem na_letters (n : Nat) : ∀ (prev : Char) (t : Str), nysiisLetters n prev (t.map naCanon) = nysiisLetters n prev t := by
  induction n with
  | zero => intro prev t; rfl
  | succ n ih =>
    intro prev t
    cases t with
    | nil => rfl
    | cons c t =>
      simp only [List.map_cons, nysiisLetters, na_letter, ih]


theorem na_tprefix {w : Str} (hw : ∀ c ∈ w, c ∉ c!"AOQUG") (t : Str) : (w <+: tailMap naCanon t) ↔ (w <+: t) := by
  cases t with
  | nil => rfl
  | cons d t =>
    cases w with
    | nil => simp
    | cons c w =>
      simp only [tailMap, List.cons_prefix_cons, na_prefix (fun x hx => hw x (List.mem_cons_of_mem _ hx))]

theorem na_tsuffix {w : Str} (hw : ∀ c ∈ w, c ∉ c!"AOQUG") (t : Str) : (w <:+ tailMap naCanon t) ↔ (w <:+ t) := by
  cases t with
  | nil => rfl
  | cons d t =>
    rw [tailMap, List.suffix_cons_iff, List.suffix_cons_iff, na_suffix hw]
    cases w with
    | nil => simp
    | cons c w =>
      simp only [List.cons.injEq]
      have : w = t.map naCanon ↔ w = t := by
        constructor
        · intro h
          have h1 := (na_prefix (w := w) (fun x hx => hw x (List.mem_cons_of_mem _ hx)) t).mp (h ▸ List.prefix_refl _)
          exact h1.eq_of_length (by rw [h, List.length_map])
        · intro h
          have h1 := (na_prefix (w := w) (fun x hx => hw x (List.mem_cons_of_mem _ hx)) t).mpr (h ▸ List.prefix_refl _)
          exact h1.eq_of_length (by rw [h, List.length_map])
      rw [this]

theorem na_tend (t : Str) : nysiisEnd (tailMap naCanon t) = tailMap naCanon (nysiisEnd t) := by
  have q : ∀ w ∈ [c!"EE", c!"IE", c!"DT", c!"RT", c!"RD", c!"NT", c!"ND"], (w <:+ tailMap naCanon t) ↔ (w <:+ t) :=
    fun w hw => na_tsuffix (by revert w; decide) t
  have hd : ∀ x, naCanon x = x → (tailMap naCanon t).dropLast.dropLast ++ [x] = tailMap naCanon (t.dropLast.dropLast ++ [x]) := by
    intro x hx
    match t with
    | [] => rfl
    | [c] => rfl
    | [c, d] => rfl
    | c :: d :: e :: t =>
      simp only [tailMap, List.map_cons, List.dropLast_cons_cons, List.cons_append, List.map_append, hx, List.map_nil]
      congr 1
      cases t with
      | nil => simp [hx]
      | cons f t => simp [List.map_dropLast, List.dropLast_cons_cons, hx]
  unfold nysiisEnd
  simp only [q c!"EE" (by decide), q c!"IE" (by decide), q c!"DT" (by decide), q c!"RT" (by decide), q c!"RD" (by decide),
    q c!"NT" (by decide), q c!"ND" (by decide)]
  refine NysiisProofs.ite_ind (P := fun x => x = _) (fun h => ?_) fun h => ?_
  · rw [if_pos h]; exact hd _ (by decide)
  · rw [if_neg h]
    refine NysiisProofs.ite_ind (P := fun x => x = _) (fun h => ?_) fun h => ?_
    · rw [if_pos h]; exact hd _ (by decide)
    · rw [if_neg h]

theorem na_mac (t : Str) : ¬ c!"MAC" <+: tailMap naCanon t := by
  intro h
  match t with
  | [] => simp [tailMap] at h
  | [c] => simp [tailMap] at h
  | c :: d :: t =>
    simp only [tailMap, List.map_cons, List.cons_prefix_cons] at h
    have : ∀ d, naCanon d ≠ 'A' := fun d hd => by
      refine na_all (P := fun d => naCanon d ≠ 'A') (fun c hc h => ?_) (by decide) d hd
      rw [hc] at h
      subst h
      exact absurd hc (by decide)
    exact this d h.2.1.symm

theorem na_tstart (t : Str) (h : ¬ c!"MAC" <+: t) : nysiisStart (tailMap naCanon t) = tailMap naCanon (nysiisStart t) := by
  have p2 := na_tprefix (w := c!"KN") (by decide) t
  have p3 := na_tprefix (w := c!"K") (by decide) t
  have p4 := na_tprefix (w := c!"PH") (by decide) t
  have p5 := na_tprefix (w := c!"PF") (by decide) t
  have p6 := na_tprefix (w := c!"SCH") (by decide) t
  have hd : ∀ n, (tailMap naCanon t).drop (n + 1) = (t.drop (n + 1)).map naCanon := by
    intro n
    cases t with
    | nil => simp [tailMap]
    | cons c t => simp [tailMap, List.map_drop]
  unfold nysiisStart
  simp only [na_mac, h, p2, p3, p4, p5, p6, hd 2, hd 1, hd 0, if_false]
  refine NysiisProofs.ite_ind (P := fun x => x = _) (fun h => ?_) fun h => ?_
  · rw [if_pos h]; rfl
  · rw [if_neg h]
    refine NysiisProofs.ite_ind (P := fun x => x = _) (fun h => ?_) fun h => ?_
    · rw [if_pos h]; rfl
    · rw [if_neg h]
      refine NysiisProofs.ite_ind (P := fun x => x = _) (fun h => ?_) fun h => ?_
      · rw [if_pos h]; rfl
      · rw [if_neg h]
        refine NysiisProofs.ite_ind (P := fun x => x = _) (fun h => ?_) fun h => ?_
        · rw [if_pos h]; rfl
        · rw [if_neg h]

/-- The code of a word whose beginning has been rewritten. -/
def naRest (t : Str) : Str :=
  match nysiisEnd t with
  | [] => []
  | c :: rest => nysiisFinish (collapse (c :: nysiisLetters rest.length c rest))

theorem naRest_map (t : Str) : naRest (tailMap naCanon t) = naRest t := by
  unfold naRest
  rw [na_tend]
  cases nysiisEnd t with
  | nil => rfl
  | cons d t => simp only [tailMap, na_letters, List.length_map]

theorem na_swap (c : Char) (r v : Str) {a b : Char} (ha : a ∈ c!"AOU") (hb : b ∈ c!"AOU") :
    naRest (nysiisStart (c :: r ++ a :: b :: v)) = naRest (nysiisStart (c :: r ++ b :: a :: v)) := by
  have notC : ∀ a ∈ c!"AOU", a ≠ 'C' ∧ naCanon a = 'U' := by decide
  have mac : ∀ {a b : Char}, a ∈ c!"AOU" → b ∈ c!"AOU" → c!"MAC" <+: (c :: r ++ a :: b :: v) →
      ∃ r', c = 'M' ∧ r = 'A' :: 'C' :: r' := by
    intro a b ha hb h
    match r with
    | [] =>
      simp only [List.cons_append, List.nil_append, List.cons_prefix_cons] at h
      exact absurd h.2.2.1.symm (notC b hb).1
    | [x] =>
      simp only [List.cons_append, List.nil_append, List.cons_prefix_cons] at h
      exact absurd h.2.2.1.symm (notC a ha).1
    | x :: y :: r' =>
      simp only [List.cons_append, List.nil_append, List.cons_prefix_cons] at h
      exact ⟨r', h.1.symm, by rw [← h.2.1, ← h.2.2.1]⟩
  have back : ∀ {a b : Char} {r' : Str}, c = 'M' → r = 'A' :: 'C' :: r' →
      nysiisStart (c :: r ++ a :: b :: v) = c!"MCC" ++ (r' ++ a :: b :: v) := by
    rintro a b r' rfl rfl
    have : c!"MAC" <+: ('M' :: 'A' :: 'C' :: r' ++ a :: b :: v) := by simp
    unfold nysiisStart
    rw [if_pos this]
    rfl
  by_cases h : c!"MAC" <+: (c :: r ++ a :: b :: v) ∨ c!"MAC" <+: (c :: r ++ b :: a :: v)
  · obtain ⟨r', e1, e2⟩ : ∃ r', c = 'M' ∧ r = 'A' :: 'C' :: r' := h.elim (mac ha hb) (mac hb ha)
    rw [back e1 e2, back e1 e2, ← naRest_map, ← naRest_map (_ ++ (r' ++ b :: a :: v))]
    simp only [List.cons_append, List.nil_append, tailMap, List.map_cons, List.map_append, (notC a ha).2, (notC b hb).2]
  · rw [not_or] at h
    rw [← naRest_map, ← na_tstart _ h.1, ← naRest_map (nysiisStart (c :: r ++ b :: a :: v)), ← na_tstart _ h.2]
    simp only [List.cons_append, tailMap, List.map_cons, List.map_append, (notC a ha).2, (notC b hb).2]

theorem nysiis_vowels (U : Unicode) (strict : Bool) {a b : Char} (ha : a ∈ c!"AOU") (hb : b ∈ c!"AOU") :
    Swappable ((Nysiis.new strict).encode U) hasLetter anyText a b := by
  intro u v hu _
  have cap : ∀ a ∈ c!"AOU", a ∈ allLetters := by decide
  obtain ⟨c, r, hc⟩ := letters_ne U hu
  have e : ∀ {a b : Char}, a ∈ allLetters → b ∈ allLetters → letters U (u ++ a :: b :: v) = c :: r ++ a :: b :: letters U v := by
    intro a b ha hb
    rw [letters_cap U u _ ha, hc]
    have := letters_cap U [] v hb
    rw [List.nil_append, show letters U [] = [] from rfl, List.nil_append] at this
    rw [this]
  have key : nysiis U (u ++ a :: b :: v) = nysiis U (u ++ b :: a :: v) := by
    show naRest (nysiisStart (letters U _)) = naRest (nysiisStart (letters U _))
    rw [e (cap a ha) (cap b hb), e (cap b hb) (cap a ha)]
    exact na_swap c r _ ha hb
  have e1 := nysiis_eq_spec U (u ++ a :: b :: v)
  have e2 := nysiis_eq_spec U (u ++ b :: a :: v)
  cases strict
  · rw [e1.1, e2.1, key]
  · rw [e1.2, e2.2, key]

end SwappedProofs

open InterchangeProofs OmittedProofs SwappedProofs

/-- C120: Soundex. At the beginning no two letters may change places; after a letter H and W may change places with every
letter, and letters with the same digit, and vowels, with each other; no others. In a text in any alphabet. -/
theorem soundex_swappable (U : Unicode) (a b : Char) (ha : a ∈ allLetters) (hb : b ∈ allLetters) :
    (Swappable (Soundex.default.encode U) anyText anyText a b ↔ a = b) ∧
    (Swappable (Soundex.default.encode U) hasLetter anyText a b ↔
      a ∈ c!"HW" ∨ b ∈ c!"HW" ∨ together [c!"AEIOUY", c!"BFPV", c!"CGJKQSXZ", c!"DT", c!"MN"] a b = true) := by
  have tab : ∀ s, AsciiStr s → Soundex.default.encode U s = Soundex.default.encode .latin1 s :=
    fun s hs => (ascii_tables U .latin1 s hs).1 Soundex.default
  refine ⟨⟨fun h => ?_, fun h => by subst h; exact fun u v _ _ => rfl⟩, ⟨fun h => ?_, fun h => ?_⟩⟩
  · have := swapped_apart ha hb h [([], [])] (together []) (by decide) (by decide) (by simp [anyText]) (by decide) tab
      (by decide +kernel)
    simpa [together] using this
  · have := swapped_apart ha hb h [(c!"F", c!"J"), (c!"M", c!"T"), (c!"L", []), (c!"R", [])]
      (fun a b => decide (a ∈ c!"HW" ∨ b ∈ c!"HW" ∨ together [c!"AEIOUY", c!"BFPV", c!"CGJKQSXZ", c!"DT", c!"MN"] a b = true))
      (by decide) (by decide) (by simp [anyText]; decide) (by decide) tab (by decide +kernel)
    exact of_decide_eq_true this
  · have caps : ∀ u v, letters U (u ++ a :: b :: v) = letters U u ++ a :: b :: letters U v ∧
        letters U (u ++ b :: a :: v) = letters U u ++ b :: a :: letters U v := fun u v => by
      rw [letters_cap U u _ ha, letters_cap U u _ hb]
      have h1 := letters_cap U [] v ha
      have h2 := letters_cap U [] v hb
      rw [List.nil_append, show letters U [] = [] from rfl, List.nil_append] at h1 h2
      rw [h1, h2]; exact ⟨rfl, rfl⟩
    have skip : ∀ {a b : Char}, a ∈ c!"HW" → ∀ (r y : Str) count prev code,
        Soundex.loop Soundex.default (r ++ a :: b :: y) count prev code =
          Soundex.loop Soundex.default (r ++ b :: a :: y) count prev code := by
      intro a b h r y count prev code
      have h' : a = 'H' ∨ a = 'W' := by simpa using h
      rw [soundex_skip Soundex.default rfl a h' r (b :: y)]
      have := soundex_skip Soundex.default rfl a h' (r ++ [b]) y count prev code
      simp only [List.append_assoc, List.singleton_append] at this
      exact this.symm
    rcases h with h | h | h
    · intro u v hu _
      obtain ⟨d, r, hd⟩ := letters_ne U hu
      unfold Soundex.encode
      rw [soundexClean_eq_letters, soundexClean_eq_letters, (caps u v).1, (caps u v).2, hd]
      simp only [List.cons_append, skip h r (letters U v)]
    · intro u v hu _
      obtain ⟨d, r, hd⟩ := letters_ne U hu
      unfold Soundex.encode
      rw [soundexClean_eq_letters, soundexClean_eq_letters, (caps u v).1, (caps u v).2, hd]
      simp only [List.cons_append, skip (b := a) h r (letters U v)]
    · have facts : ∀ a ∈ allLetters, ∀ b ∈ allLetters,
          together [c!"AEIOUY", c!"BFPV", c!"CGJKQSXZ", c!"DT", c!"MN"] a b = true →
          together [c!"AEIOUY", c!"BFPV", c!"CGJKQSXZ", c!"DT", c!"HW", c!"MN"] a b = true := by decide
      exact of_interchangeable (fun u h => hasLetter_append _ h) (fun v h => h)
        ((soundex_interchangeable U a b ha hb).2.mpr (facts a ha b hb h))

/-- C120: Refined Soundex. -/
theorem refined_swappable (U : Unicode) (a b : Char) (ha : a ∈ allLetters) (hb : b ∈ allLetters) :
    (Swappable (RefinedSoundex.default.encode U) anyText anyText a b ↔ a = b) ∧
    (Swappable (RefinedSoundex.default.encode U) hasLetter anyText a b ↔
      together [c!"AEHIOUWY", c!"BP", c!"CKS", c!"DT", c!"FV", c!"GJ", c!"MN", c!"QXZ"] a b = true) := by
  have tab : ∀ s, AsciiStr s → RefinedSoundex.default.encode U s = RefinedSoundex.default.encode .latin1 s :=
    fun s hs => (ascii_tables U .latin1 s hs).2.1 RefinedSoundex.default
  refine ⟨⟨fun h => ?_, fun h => by subst h; exact fun u v _ _ => rfl⟩, ⟨fun h => ?_, fun h => ?_⟩⟩
  · have := swapped_apart ha hb h [([], [])] (together []) (by decide) (by decide) (by simp [anyText]) (by decide) tab
      (by decide +kernel)
    simpa [together] using this
  · exact swapped_apart ha hb h [(c!"A", [])] _ (by decide) (by decide) (by simp [anyText]; decide) (by decide) tab
      (by decide +kernel)
  · exact of_interchangeable (fun u h => hasLetter_append _ h) (fun v h => h) ((refined_interchangeable U a b ha hb).2.mpr h)

/-- C120: in Cologne phonetics the letters of a group may change places everywhere, and no others, not even after a letter. -/
theorem cologne_swappable (U : Unicode) (a b : Char) (ha : a ∈ allLetters) (hb : b ∈ allLetters) :
    (Swappable (Cologne.encode U) anyText anyText a b ↔
      together [c!"AOU", c!"EIJY", c!"DT", c!"FVW", c!"KQ", c!"MN", c!"SZ"] a b = true) ∧
    (Swappable (Cologne.encode U) hasLetter anyText a b ↔
      together [c!"AOU", c!"EIJY", c!"DT", c!"FVW", c!"KQ", c!"MN", c!"SZ"] a b = true) := by
  have pos : together [c!"AOU", c!"EIJY", c!"DT", c!"FVW", c!"KQ", c!"MN", c!"SZ"] a b = true →
      Swappable (Cologne.encode U) anyText anyText a b := fun h =>
    of_interchangeable (fun u h => trivial) (fun v h => h) ((cologne_interchangeable U a b ha hb).mpr h)
  have neg : Swappable (Cologne.encode U) hasLetter anyText a b →
      together [c!"AOU", c!"EIJY", c!"DT", c!"FVW", c!"KQ", c!"MN", c!"SZ"] a b = true := fun h =>
    swapped_apart ha hb h [(c!"H", []), (c!"IC", c!"D"), (c!"P", c!"H"), (c!"C", c!"X")] _ (by decide) (by decide)
      (by simp [anyText]; decide) (by decide) (fun s hs => (ascii_tables U .latin1 s hs).2.2.1) (by decide +kernel)
  exact ⟨⟨fun h => neg fun u v _ hv => h u v trivial hv, pos⟩, ⟨neg, fun h u v _ hv => pos h u v trivial hv⟩⟩

set_option maxHeartbeats 4000000 in
/-- C120: for both versions of Caverphone S and Z, F and V, K and X may change places everywhere in a text without capital
sigma, and of the other letters, even after a letter, at most A and O, and E and I. -/
theorem caverphone_swappable (U : Unicode) (a b : Char) (ha : a ∈ allLetters) (hb : b ∈ allLetters) :
    (together [c!"SZ", c!"FV", c!"KX"] a b = true →
      Swappable (Caverphone1.encode U) withoutSigma withoutSigma a b ∧
      Swappable (Caverphone2.encode U) withoutSigma withoutSigma a b) ∧
    (Swappable (Caverphone1.encode U) asciiWithLetter AsciiStr a b →
      together [c!"SZ", c!"FV", c!"KX", c!"AO", c!"EI"] a b = true) ∧
    (Swappable (Caverphone2.encode U) asciiWithLetter AsciiStr a b →
      together [c!"SZ", c!"FV", c!"KX", c!"AO", c!"EI"] a b = true) := by
  have nos : ∀ b ∈ allLetters, b ≠ 'Σ' := by decide
  have h1 : ∀ u, withoutSigma u → withoutSigma (u ++ [b]) := fun u h hm => by
    rcases List.mem_append.mp hm with h' | h'
    · exact h h'
    · exact nos b hb (List.mem_singleton.mp h').symm
  have h2 : ∀ v, withoutSigma v → withoutSigma (b :: v) := fun v h hm => by
    rcases List.mem_cons.mp hm with h' | h'
    · exact nos b hb h'.symm
    · exact h h'
  have i := caverphone_interchangeable U a b ha hb
  refine ⟨fun h => ⟨of_interchangeable h1 h2 (i.1.mpr h), of_interchangeable h1 h2 (i.2.mpr h)⟩, fun h => ?_, fun h => ?_⟩
  · exact swapped_apart ha hb h [(c!"J", c!"E"), (c!"P", c!"H"), (c!"CC", []), (c!"YD", c!"IOI"), (c!"TI", c!"E")] _
      (by decide) (by decide) (by unfold asciiWithLetter; decide) (by decide)
      (fun s hs => (ascii_tables U .latin1 s hs).2.2.2.1) (by decide +kernel)
  · exact swapped_apart ha hb h [(c!"CC", []), (c!"P", c!"H"), (c!"J", c!"QT"), (c!"YD", c!"IOI"), (c!"TI", c!"E")] _
      (by decide) (by decide) (by unfold asciiWithLetter; decide) (by decide)
      (fun s hs => (ascii_tables U .latin1 s hs).2.2.2.2.1) (by decide +kernel)

/-- C120: NYSIIS. After a letter A, O and U may change places (though A is not confused with O or U), and G and Q; no others.
At the beginning none. -/
theorem nysiis_swappable (U : Unicode) (strict : Bool) (a b : Char) (ha : a ∈ allLetters) (hb : b ∈ allLetters) :
    (Swappable ((Nysiis.new strict).encode U) anyText anyText a b ↔ a = b) ∧
    (Swappable ((Nysiis.new strict).encode U) hasLetter anyText a b ↔ together [c!"AOU", c!"GQ"] a b = true) := by
  have tab : ∀ s, AsciiStr s → (Nysiis.new strict).encode U s = (Nysiis.new strict).encode .latin1 s :=
    fun s hs => (ascii_tables U .latin1 s hs).2.2.2.2.2.1 (Nysiis.new strict)
  refine ⟨⟨fun h => ?_, fun h => by subst h; exact fun u v _ _ => rfl⟩, ⟨fun h => ?_, fun h => ?_⟩⟩
  · have := swapped_apart ha hb h [([], []), (c!"MA", [])] (together []) (by decide) (by decide) (by simp [anyText]) (by decide)
      tab (by cases strict <;> decide +kernel)
    simpa [together] using this
  · exact swapped_apart ha hb h [(c!"P", c!"E"), (c!"K", []), (c!"MA", []), (c!"A", c!"CH"), (c!"SC", [])] _
      (by decide) (by decide) (by simp [anyText]; decide) (by decide) tab (by cases strict <;> decide +kernel)
  · have facts : ∀ a ∈ allLetters, ∀ b ∈ allLetters, together [c!"AOU", c!"GQ"] a b = true →
        (a ∈ c!"AOU" ∧ b ∈ c!"AOU") ∨ together [c!"OU", c!"GQ"] a b = true := by decide
    rcases facts a ha b hb h with ⟨h1, h2⟩ | h
    · exact nysiis_vowels U strict h1 h2
    · exact of_interchangeable (fun u h => hasLetter_append _ h) (fun v h => h)
        ((nysiis_interchangeable U strict a b ha hb).2.mpr h)

/-- C120: Match Rating. After a letter a vowel may change places with every letter, and no other letters may. At the beginning
none. -/
theorem mra_swappable (U : Unicode) (a b : Char) (ha : a ∈ allLetters) (hb : b ∈ allLetters) :
    (Swappable (MatchRating.encode U) anyText anyText a b ↔ a = b) ∧
    (Swappable (MatchRating.encode U) hasLetter anyText a b ↔ a = b ∨ a ∈ c!"AEIOU" ∨ b ∈ c!"AEIOU") := by
  have tab : ∀ s, AsciiStr s → MatchRating.encode U s = MatchRating.encode .latin1 s :=
    fun s hs => (ascii_tables U .latin1 s hs).2.2.2.2.2.2.1
  have vowel : ∀ {a b : Char}, a ∈ c!"AEIOU" → Swappable (MatchRating.encode U) hasLetter anyText a b := by
    intro a b h u v hu _
    obtain ⟨l1, e1⟩ := DoubledProofs.mra_ignored U u (b :: v) hu h
    obtain ⟨l2, e2⟩ := DoubledProofs.mra_ignored U (u ++ [b]) v (hasLetter_append _ hu) h
    simp only [List.append_assoc, List.singleton_append] at l2 e2
    rw [MraProofs.encode_long l1, MraProofs.encode_long l2, e1, e2]
  refine ⟨⟨fun h => ?_, fun h => by subst h; exact fun u v _ _ => rfl⟩, ⟨fun h => ?_, fun h => ?_⟩⟩
  · have := swapped_apart ha hb h [([], []), ([], c!"B")] (together []) (by decide) (by decide) (by simp [anyText]) (by decide)
      tab (by decide +kernel)
    simpa [together] using this
  · have := swapped_apart ha hb h [(c!"A", [])] (fun a b => decide (a = b ∨ a ∈ c!"AEIOU" ∨ b ∈ c!"AEIOU"))
      (by decide) (by decide) (by simp [anyText]; decide) (by decide) tab (by decide +kernel)
    exact of_decide_eq_true this
  · rcases h with h | h | h
    · subst h; exact fun u v _ _ => rfl
    · exact vowel h
    · exact fun u v hu hv => (vowel h u v hu hv).symm

/-- C120: Phonex, with a maximum of at least two. -/
theorem phonex_swappable (U : Unicode) (n : Nat) (h2 : 2 ≤ n) (hn : n < 2 ^ 63) (a b : Char) (ha : a ∈ allLetters)
    (hb : b ∈ allLetters) :
    Swappable ((Phonex.new n).encode U) hasLetter anyText a b ↔
      together [c!"AEIOUY", c!"BP", c!"FV", c!"KQ"] a b = true := by
  have two : ∀ s, AsciiStr s → ((Phonex.new n).encode U s).map (fun c => c.take 2) =
      .ok (exactly 2 (phonex (letters .latin1 s))) := by
    intro s hs
    rw [LocalProofs.phonex_exactly U n h2 hn s hs, letters_ascii U hs, letters_ascii .latin1 hs]
    simp only [Except.map, Except.ok.injEq]
    unfold exactly
    rw [List.take_append, List.take_take, List.length_take, List.take_replicate, Nat.min_eq_left h2]
    congr 2
    omega
  refine ⟨fun h => ?_, fun h => ?_⟩
  · have h' : Swappable (fun s => ((Phonex.new n).encode U s).map (fun c => c.take 2)) hasLetter anyText a b :=
      fun u v hu hv => congrArg _ (h u v hu hv)
    exact swapped_apart ha hb h' [(c!"H", []), (c!"WD", c!"A"), (c!"C", []), (c!"M", [])] _ (by decide) (by decide)
      (by simp [anyText]; decide) (by decide) two (by decide +kernel)
  · exact of_interchangeable (fun u h => hasLetter_append _ h) (fun v h => h)
      ((phonex_interchangeable U n h2 hn a b ha hb).2.mpr h)

/-- C120: Metaphone, without a maximum or with one of at least three: no two letters may change places, not even after another
one. -/
theorem metaphone_swappable (U : Unicode) (max : Option Nat) (h3 : ∀ n, max = some n → 3 ≤ n) (a b : Char)
    (ha : a ∈ allLetters) (hb : b ∈ allLetters) :
    Swappable ((Metaphone.new max).encode U) hasLetter anyText a b ↔ a = b := by
  refine ⟨fun h => ?_, fun h => by subst h; exact fun u v _ _ => rfl⟩
  have h' : Swappable (fun s => ((Metaphone.new max).encode U s).map fun c => c.take 3) hasLetter anyText a b :=
    fun u v hu hv => congrArg _ (h u v hu hv)
  have := swapped_apart ha hb h' (g := fun s => .ok ((metaphone (s.map asciiUpper)).take 3))
    [(c!"H", c!"E"), (c!"C", c!"H"), (c!"TI", c!"E"), (c!"A", []), (c!"F", []), (c!"CI", c!"U")] (together [])
    (by decide) (by decide) (by simp [anyText]; decide) (by decide)
    (fun s hs => by
      have e := metaphone_eq_spec U s hs
      cases hm : max with
      | none => simp only [e.1]; rfl
      | some n =>
        have := h3 n hm
        simp only [e.2 n (.inr (by omega)), Except.map, List.take_take, Nat.min_eq_left this]) (by decide +kernel)
  simpa [together] using this

/-- C120: Double Metaphone, without a maximum or with one of at least three: no two letters may change places, not even after
another one, whichever of the two codes is compared. -/
theorem double_metaphone_swappable (U : Unicode) (max : Option Nat) (h3 : ∀ n, max = some n → 3 ≤ n ∧ n < 2 ^ 63)
    (a b : Char) (ha : a ∈ allLetters) (hb : b ∈ allLetters) :
    (Swappable ((DoubleMetaphone.new max).encode U) hasLetter anyText a b ↔ a = b) ∧
    (Swappable ((DoubleMetaphone.new max).encodeAlternate U) hasLetter anyText a b ↔ a = b) := by
  refine ⟨⟨fun h => ?_, fun h => by subst h; exact fun u v _ _ => rfl⟩,
    ⟨fun h => ?_, fun h => by subst h; exact fun u v _ _ => rfl⟩⟩
  · have h' : Swappable (fun s => ((DoubleMetaphone.new max).encode U s).map fun r => r.take 3) hasLetter anyText a b :=
      fun u v hu hv => congrArg _ (h u v hu hv)
    have := swapped_apart ha hb h' (g := (DoubleMetaphone.new (some 3)).encode .latin1)
      [(c!"W", c!"E"), (c!"C", c!"H"), (c!"FJ", []), (c!"F", c!"T"), (c!"UG", c!"R"), (c!"C", c!"X"), (c!"R", []), (c!"V", []),
        (c!"WX", []), (c!"TI", c!"E")] (together []) (by decide) (by decide) (by simp [anyText]; decide) (by decide)
      (fun s hs => by
        obtain ⟨r, hr, h1, _⟩ := double_metaphone_ascii U max s hs (fun n hn => (h3 n hn).2)
        have e := (double_metaphone_truncation U 3 max (fun n hn => (h3 n hn).1) (by decide) s r hr).2.1
        unfold DoubleMetaphone.encode at e ⊢
        rw [← (ascii_tables U .latin1 s hs).2.2.2.2.2.2.2.2.1, e]
        unfold DoubleMetaphone.encode at h1
        simp only [h1, Except.map]) (by decide +kernel)
    simpa [together] using this
  · have h' : Swappable (fun s => ((DoubleMetaphone.new max).encodeAlternate U s).map fun r => r.take 3) hasLetter anyText a b :=
      fun u v hu hv => congrArg _ (h u v hu hv)
    have := swapped_apart ha hb h' (g := (DoubleMetaphone.new (some 3)).encodeAlternate .latin1)
      [(c!"W", []), (c!"C", c!"T"), (c!"FJ", []), (c!"S", []), (c!"CI", c!"U"), (c!"G", []), (c!"F", []), (c!"TI", c!"E")]
      (together []) (by decide) (by decide) (by simp [anyText]; decide) (by decide)
      (fun s hs => by
        obtain ⟨r, hr, _, h1⟩ := double_metaphone_ascii U max s hs (fun n hn => (h3 n hn).2)
        have e := (double_metaphone_truncation U 3 max (fun n hn => (h3 n hn).1) (by decide) s r hr).2.2
        unfold DoubleMetaphone.encodeAlternate at e ⊢
        rw [← (ascii_tables U .latin1 s hs).2.2.2.2.2.2.2.2.1, e]
        unfold DoubleMetaphone.encodeAlternate at h1
        simp only [h1, Except.map]) (by decide +kernel)
    simpa [together] using this

/-- C120: Daitch-Mokotoff Soundex with the embedded rules, all codes. -/
theorem dm_swappable (U : Unicode) (a b : Char) (ha : a ∈ allLetters) (hb : b ∈ allLetters) :
    (Swappable (DaitchMokotoff.defaultEncoder.soundex U) anyText anyText a b ↔ together [c!"BFVW", c!"GQ"] a b = true) ∧
    (Swappable (DaitchMokotoff.defaultEncoder.soundex U) hasLetter anyText a b ↔
      together [c!"BFVW", c!"GQ"] a b = true) := by
  have pos : together [c!"BFVW", c!"GQ"] a b = true →
      Swappable (DaitchMokotoff.defaultEncoder.soundex U) anyText anyText a b := fun h =>
    of_interchangeable (fun u h => trivial) (fun v h => h) ((dm_interchangeable U a b ha hb).1.mpr h)
  have neg : Swappable (DaitchMokotoff.defaultEncoder.soundex U) hasLetter anyText a b →
      together [c!"BFVW", c!"GQ"] a b = true := fun h =>
    swapped_apart ha hb h [(c!"F", c!"J"), (c!"LQ", c!"AJ"), (c!"E", c!"HA"), (c!"N", c!"SKS"), (c!"TU", []), (c!"L", []),
      (c!"M", []), (c!"Z", []), (c!"K", c!"UA")] _ (by decide) (by decide) (by simp [anyText]; decide) (by decide)
      (fun s hs => by
        unfold DaitchMokotoff.soundex
        rw [(ascii_tables U .latin1 s hs).2.2.2.2.2.2.2.2.2.2]) (by decide +kernel)
  exact ⟨⟨fun h => neg fun u v _ hv => h u v trivial hv, pos⟩, ⟨neg, fun h u v _ hv => pos h u v trivial hv⟩⟩

/-! Beside C120: letters that may and letters that may not change places. -/

example : Soundex.default.encode .latin1 c!"Jonh" = Soundex.default.encode .latin1 c!"John" ∧
    MatchRating.encode .latin1 c!"Simth" = MatchRating.encode .latin1 c!"Smith" ∧
    (Nysiis.new true).encode .latin1 c!"Paola" = (Nysiis.new true).encode .latin1 c!"Poala" ∧
    (Nysiis.new true).encode .latin1 c!"Mac" ≠ (Nysiis.new true).encode .latin1 c!"Moc" ∧
    Cologne.encode .latin1 c!"Meier" = Cologne.encode .latin1 c!"Mieer" ∧
    Soundex.default.encode .latin1 c!"Smiht" = Soundex.default.encode .latin1 c!"Smith" ∧
    (Metaphone.new none).encode .latin1 c!"Smiht" ≠ (Metaphone.new none).encode .latin1 c!"Smith" ∧
    hasLetter c!"Jo" ∧ asciiWithLetter c!"Smi" := by
  unfold asciiWithLetter; decide +kernel

end Verif.Props
