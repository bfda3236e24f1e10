import Verif.Proofs.Interchange
import Verif.Props.DoubleMetaphone
/-!
# Exactly which letters an encoder does not tell apart (C100)
-/

set_option linter.unusedSimpArgs false
set_option linter.unusedVariables false

namespace Verif.Props
open Spec

namespace InterchangeProofs

/-! ## NYSIIS -/

/-- O is treated as U, Q as G. -/
def nyCanon (c : Char) : Char := if c = 'O' then 'U' else if c = 'Q' then 'G' else c

theorem ny_all {P : Char → Prop} (h1 : ∀ c, nyCanon c = c → P c) (h2 : ∀ c ∈ c!"OQ", P c) (c : Char) : P c := by
  by_cases hc : c ∈ c!"OQ"
  · exact h2 c hc
  · refine h1 c ?_
    simp only [List.mem_cons, List.not_mem_nil, or_false, not_or] at hc
    unfold nyCanon
    simp only [hc.1, hc.2, if_false]

theorem nyCanon_eq {k : Char} (hk : k ∉ c!"OQUG") (c : Char) : nyCanon c = k ↔ c = k := by
  simp only [List.mem_cons, List.not_mem_nil, or_false, not_or] at hk
  obtain ⟨a1, a2, a3, a4⟩ := hk
  refine ny_all (P := fun c => nyCanon c = k ↔ c = k) (fun c h => by rw [h]) ?_ c
  intro c hc
  simp only [List.mem_cons, List.not_mem_nil, or_false] at hc
  rcases hc with rfl | rfl
  · exact ⟨fun h => absurd h.symm a3, fun h => absurd h.symm a1⟩
  · exact ⟨fun h => absurd h.symm a4, fun h => absurd h.symm a2⟩

theorem nyCanon_vowel (c : Char) : nysiisVowel (nyCanon c) = nysiisVowel c :=
  ny_all (P := fun c => nysiisVowel (nyCanon c) = nysiisVowel c) (fun c h => by rw [h]) (by decide) c

theorem ny_prefix {w : Str} (hw : ∀ c ∈ w, c ∉ c!"OQUG") (t : Str) : (w <+: t.map nyCanon) ↔ (w <+: t) := by
  induction w generalizing t with
  | nil => simp
  | cons c w ih =>
    cases t with
    | nil => simp
    | cons d t =>
      simp only [List.map_cons, List.cons_prefix_cons, ih (fun x hx => hw x (by simp [hx])) t]
      have := nyCanon_eq (hw c (by simp)) d
      rw [eq_comm, this, eq_comm]

theorem ny_suffix {w : Str} (hw : ∀ c ∈ w, c ∉ c!"OQUG") (t : Str) : (w <:+ t.map nyCanon) ↔ (w <:+ t) := by
  rw [← List.reverse_prefix, ← List.reverse_prefix, ← List.map_reverse]
  exact ny_prefix (fun c hc => hw c (List.mem_reverse.mp hc)) _

/-- The rest, by group. -/
def nyPair (r : Char × Str) : Char × Str := (r.1, r.2.map nyCanon)

theorem ny_letter (prev c : Char) (rest : Str) :
    nysiisLetter prev (nyCanon c) (rest.map nyCanon) =
      ((nysiisLetter prev c rest).1, (nysiisLetter prev c rest).2.map nyCanon) := by
  have p1 := ny_prefix (w := c!"V") (by decide) rest
  have p2 := ny_prefix (w := c!"N") (by decide) rest
  have p3 := ny_prefix (w := c!"CH") (by decide) rest
  have p4 := ny_prefix (w := c!"H") (by decide) rest
  have hv : ((rest.map nyCanon).take 1).any nysiisVowel = (rest.take 1).any nysiisVowel := by
    cases rest with
    | nil => rfl
    | cons d r => simp [nyCanon_vowel]
  have e : nysiisLetter prev (nyCanon c) (rest.map nyCanon) =
      ((nysiisLetter prev (nyCanon c) rest).1, (nysiisLetter prev (nyCanon c) rest).2.map nyCanon) := by
    generalize nyCanon c = d
    show _ = nyPair (nysiisLetter prev d rest)
    unfold nysiisLetter
    repeat rw [apply_ite nyPair]
    simp only [p1, p2, p3, p4, hv, ← List.map_drop, List.map_append]
    rfl
  rw [e]
  exact ny_all (P := fun c => ((nysiisLetter prev (nyCanon c) rest).1, (nysiisLetter prev (nyCanon c) rest).2.map nyCanon) =
      ((nysiisLetter prev c rest).1, (nysiisLetter prev c rest).2.map nyCanon)) (fun c h => by rw [h]) (by
      intro c hc
      simp only [List.mem_cons, List.not_mem_nil, or_false] at hc
      rcases hc with rfl | rfl <;> rfl) c

theorem ny_letters (n : Nat) : ∀ (prev : Char) (t : Str), nysiisLetters n prev (t.map nyCanon) = nysiisLetters n prev t := by
  induction n with
  | zero => intro prev t; rfl
  | succ n ih =>
    intro prev t
    cases t with
    | nil => rfl
    | cons c t =>
      simp only [List.map_cons, nysiisLetters, ny_letter, ih]

/-- The letters after the first one, by group. -/
def tailMap (f : Char → Char) : Str → Str
  | [] => []
  | c :: t => c :: t.map f

theorem tail_prefix {w : Str} (hw : ∀ c ∈ w, c ∉ c!"OQUG") (t : Str) : (w <+: tailMap nyCanon t) ↔ (w <+: t) := by
  cases t with
  | nil => rfl
  | cons d t =>
    cases w with
    | nil => simp
    | cons c w =>
      simp only [tailMap, List.cons_prefix_cons, ny_prefix (fun x hx => hw x (List.mem_cons_of_mem _ hx))]

theorem tail_suffix {w : Str} (hw : ∀ c ∈ w, c ∉ c!"OQUG") (t : Str) : (w <:+ tailMap nyCanon t) ↔ (w <:+ t) := by
  cases t with
  | nil => rfl
  | cons d t =>
    rw [tailMap, List.suffix_cons_iff, List.suffix_cons_iff, ny_suffix hw]
    cases w with
    | nil => simp
    | cons c w =>
      simp only [List.cons.injEq]
      have : w = t.map nyCanon ↔ w = t := by
        constructor
        · intro h
          have h1 := (ny_prefix (w := w) (fun x hx => hw x (List.mem_cons_of_mem _ hx)) t).mp (h ▸ List.prefix_refl _)
          exact h1.eq_of_length (by rw [h, List.length_map])
        · intro h
          have h1 := (ny_prefix (w := w) (fun x hx => hw x (List.mem_cons_of_mem _ hx)) t).mpr (h ▸ List.prefix_refl _)
          exact h1.eq_of_length (by rw [h, List.length_map])
      rw [this]

theorem tail_start (t : Str) : nysiisStart (tailMap nyCanon t) = tailMap nyCanon (nysiisStart t) := by
  have p1 := tail_prefix (w := c!"MAC") (by decide) t
  have p2 := tail_prefix (w := c!"KN") (by decide) t
  have p3 := tail_prefix (w := c!"K") (by decide) t
  have p4 := tail_prefix (w := c!"PH") (by decide) t
  have p5 := tail_prefix (w := c!"PF") (by decide) t
  have p6 := tail_prefix (w := c!"SCH") (by decide) t
  have hd : ∀ n, (tailMap nyCanon t).drop (n + 1) = (t.drop (n + 1)).map nyCanon := by
    intro n
    cases t with
    | nil => simp [tailMap]
    | cons c t => simp [tailMap, List.map_drop]
  unfold nysiisStart
  simp only [p1, p2, p3, p4, p5, p6, hd 2, hd 1, hd 0]
  refine NysiisProofs.ite_ind (P := fun x => x = _) (fun h => ?_) fun h => ?_
  · rw [if_pos h]; rfl
  · rw [if_neg h]
    refine NysiisProofs.ite_ind (P := fun x => x = _) (fun h => ?_) fun h => ?_
    · rw [if_pos h]; rfl
    · rw [if_neg h]
      refine NysiisProofs.ite_ind (P := fun x => x = _) (fun h => ?_) fun h => ?_
      · rw [if_pos h]; rfl
      · rw [if_neg h]
        refine NysiisProofs.ite_ind (P := fun x => x = _) (fun h => ?_) fun h => ?_
        · rw [if_pos h]; rfl
        · rw [if_neg h]
          refine NysiisProofs.ite_ind (P := fun x => x = _) (fun h => ?_) fun h => ?_
          · rw [if_pos h]; rfl
          · rw [if_neg h]

theorem tail_end (t : Str) : nysiisEnd (tailMap nyCanon t) = tailMap nyCanon (nysiisEnd t) := by
  have q : ∀ w ∈ [c!"EE", c!"IE", c!"DT", c!"RT", c!"RD", c!"NT", c!"ND"], (w <:+ tailMap nyCanon t) ↔ (w <:+ t) :=
    fun w hw => tail_suffix (by revert w; decide) t
  have hd : ∀ x, nyCanon x = x → (tailMap nyCanon t).dropLast.dropLast ++ [x] = tailMap nyCanon (t.dropLast.dropLast ++ [x]) := by
    intro x hx
    match t with
    | [] => rfl
    | [c] => rfl
    | [c, d] => rfl
    | c :: d :: e :: t =>
      simp only [tailMap, List.map_cons, List.dropLast_cons_cons, List.cons_append, List.map_append, hx, List.map_nil]
      congr 1
      cases t with
      | nil => simp [hx]
      | cons f t => simp [List.map_dropLast, List.dropLast_cons_cons, hx]
  unfold nysiisEnd
  simp only [q c!"EE" (by decide), q c!"IE" (by decide), q c!"DT" (by decide), q c!"RT" (by decide), q c!"RD" (by decide),
    q c!"NT" (by decide), q c!"ND" (by decide)]
  refine NysiisProofs.ite_ind (P := fun x => x = _) (fun h => ?_) fun h => ?_
  · rw [if_pos h]; exact hd _ (by decide)
  · rw [if_neg h]
    refine NysiisProofs.ite_ind (P := fun x => x = _) (fun h => ?_) fun h => ?_
    · rw [if_pos h]; exact hd _ (by decide)
    · rw [if_neg h]

theorem nysiis_swap (U : Unicode) (strict : Bool) (u v : Str) (hu : hasLetter u) {a b : Char} (ha : a ∈ allLetters)
    (hb : b ∈ allLetters) (h : nyCanon a = nyCanon b) :
    (Nysiis.new strict).encode U (u ++ a :: v) = (Nysiis.new strict).encode U (u ++ b :: v) := by
  obtain ⟨c, r, hc⟩ := letters_ne U hu
  have key : nysiis U (u ++ a :: v) = nysiis U (u ++ b :: v) := by
    have hm : ∀ t, (match nysiisEnd (nysiisStart (tailMap nyCanon t)) with
        | [] => []
        | c :: rest => nysiisFinish (collapse (c :: nysiisLetters rest.length c rest))) =
        (match nysiisEnd (nysiisStart t) with
        | [] => []
        | c :: rest => nysiisFinish (collapse (c :: nysiisLetters rest.length c rest))) := by
      intro t
      rw [tail_start, tail_end]
      cases nysiisEnd (nysiisStart t) with
      | nil => rfl
      | cons d t => simp only [tailMap, ny_letters, List.length_map]
    unfold nysiis
    rw [letters_cap U u v ha, letters_cap U u v hb, hc]
    refine (hm (c :: r ++ a :: letters U v)).symm.trans (Eq.trans ?_ (hm (c :: r ++ b :: letters U v)))
    simp only [List.cons_append, tailMap, List.map_append, List.map_cons, h]
  have e1 := nysiis_eq_spec U (u ++ a :: v)
  have e2 := nysiis_eq_spec U (u ++ b :: v)
  cases strict
  · rw [e1.1, e2.1, key]
  · rw [e1.2, e2.2, key]

/-! ## Phonex -/

/-- The first letter of the group. -/
def phCanon (c : Char) : Char :=
  if c = 'E' ∨ c = 'I' ∨ c = 'O' ∨ c = 'U' ∨ c = 'Y' then 'A'
  else if c = 'P' then 'B' else if c = 'V' then 'F' else if c = 'Q' then 'K' else c

theorem ph_all {P : Char → Prop} (h1 : ∀ c, phCanon c = c → P c) (h2 : ∀ c ∈ c!"EIOUYPVQ", P c) (c : Char) : P c := by
  by_cases hc : c ∈ c!"EIOUYPVQ"
  · exact h2 c hc
  · refine h1 c ?_
    simp only [List.mem_cons, List.not_mem_nil, or_false, not_or] at hc
    obtain ⟨a1, a2, a3, a4, a5, a6, a7, a8⟩ := hc
    unfold phCanon
    simp only [a1, a2, a3, a4, a5, a6, a7, a8, or_self, if_false]

theorem phCanon_eq {k : Char} (hk : k ∈ c!"NHRSCDG") (c : Char) : phCanon c = k ↔ c = k := by
  refine ph_all (P := fun c => phCanon c = k ↔ c = k) (fun c h => by rw [h]) ?_ c
  revert k
  decide

theorem ph_vowel (o : Option Char) : Phonex.isVowelP (o.map phCanon) = Phonex.isVowelP o := by
  cases o with
  | none => rfl
  | some c =>
    exact ph_all (P := fun c => Phonex.isVowelP (some (phCanon c)) = Phonex.isVowelP (some c)) (fun c h => by rw [h])
      (by decide) c

theorem ph_some {k : Char} (hk : k ∈ c!"NHRSCDG") (o : Option Char) : o.map phCanon = some k ↔ o = some k := by
  cases o with
  | none => simp
  | some c => simp only [Option.map_some, Option.some.injEq]; exact phCanon_eq hk c

theorem ph_next (c : Char) (next : Option Char) (l : Bool) :
    Phonex.transcode c (next.map phCanon) l = Phonex.transcode c next l := by
  have b : ∀ k, k ∈ c!"NHRSCDG" → (next.map phCanon == some k) = (next == some k) := by
    intro k hk
    rw [Bool.eq_iff_iff]
    simp only [beq_iff_eq]
    exact ph_some hk next
  unfold Phonex.transcode
  simp only [ph_vowel, ph_some (show 'C' ∈ c!"NHRSCDG" by decide), b 'D' (by decide), b 'G' (by decide)]

theorem ph_transcode (c : Char) (next : Option Char) (l : Bool) :
    Phonex.transcode (phCanon c) (next.map phCanon) l = Phonex.transcode c next l := by
  rw [ph_next]
  refine ph_all (P := fun c => Phonex.transcode (phCanon c) next l = Phonex.transcode c next l) (fun c h => by rw [h]) ?_ c
  intro c hc
  simp only [List.mem_cons, List.not_mem_nil, or_false] at hc
  rcases hc with rfl | rfl | rfl | rfl | rfl | rfl | rfl | rfl <;> rfl

theorem ph_loop (max : Nat) (w : Str) : ∀ (i : Nat) (skip : Bool) (st : Phonex.St), i ≠ 0 →
    Phonex.loop max (w.map phCanon) i skip st = Phonex.loop max w i skip st := by
  induction w with
  | nil => intro i skip st _; cases skip <;> rfl
  | cons c w ih =>
    intro i skip st hi
    cases skip with
    | true => exact ih (i + 1) false st (by omega)
    | false =>
      have hs : Phonex.step i (phCanon c) (w.map phCanon).head? st = Phonex.step i c w.head? st := by
        unfold Phonex.step
        have hn : (w.head?.map phCanon).isNone = w.head?.isNone := by cases w.head? <;> rfl
        simp only [if_neg hi, List.head?_map, ph_transcode, hn]
      simp only [List.map_cons, Phonex.loop, hs]
      rw [ih (i + 1) _ _ (by omega)]

theorem ph_loop_tail (max : Nat) (w : Str) (st : Phonex.St) :
    Phonex.loop max (tailMap phCanon w) 0 false st = Phonex.loop max w 0 false st := by
  cases w with
  | nil => rfl
  | cons c w =>
    have hs : Phonex.step 0 c (w.map phCanon).head? st = Phonex.step 0 c w.head? st := by
      unfold Phonex.step
      have hn : (w.head?.map phCanon).isNone = w.head?.isNone := by cases w.head? <;> rfl
      simp only [List.head?_map, ph_next, hn]
    simp only [tailMap, Phonex.loop, hs]
    rw [ph_loop max w 1 _ _ (by omega)]

theorem dropS_map (w : Str) : dropFinalS (w.map phCanon) = (dropFinalS w).map phCanon := by
  unfold dropFinalS
  rw [← List.map_reverse, List.map_reverse (l := w.reverse.dropWhile _)]
  congr 1
  generalize w.reverse = w
  induction w with
  | nil => rfl
  | cons c w ih =>
    have : (phCanon c == 'S') = (c == 'S') := by
      rw [Bool.eq_iff_iff]
      simp only [beq_iff_eq]
      exact phCanon_eq (by decide) c
    rw [List.map_cons, List.dropWhile_cons, List.dropWhile_cons, this, ih]
    split <;> rfl

theorem dropS_cons (c : Char) (w : Str) : dropFinalS (c :: w) =
    if dropFinalS w = [] then (if c = 'S' then [] else [c]) else c :: dropFinalS w := by
  unfold dropFinalS
  rw [List.reverse_cons, List.dropWhile_append]
  by_cases h : w.reverse.dropWhile (· == 'S') = []
  · simp only [h, List.reverse_nil, if_true, List.isEmpty_nil]
    by_cases hc : c = 'S'
    · simp [hc]
    · simp [hc, List.dropWhile_cons]
  · have h1 : (w.reverse.dropWhile (· == 'S')).isEmpty = false := by
      cases hh : w.reverse.dropWhile (· == 'S') with
      | nil => exact absurd hh h
      | cons _ _ => rfl
    rw [h1, if_neg (by simp), if_neg (by simpa using h)]
    simp

theorem dropS_tail (w : Str) : dropFinalS (tailMap phCanon w) = tailMap phCanon (dropFinalS w) := by
  cases w with
  | nil => rfl
  | cons c w =>
    rw [tailMap, dropS_cons, dropS_cons, dropS_map]
    simp only [List.map_eq_nil_iff]
    split
    · split <;> rfl
    · rfl

theorem prepare_tail (w : Str) : phonexPrepare (tailMap phCanon w) = tailMap phCanon (phonexPrepare w) := by
  unfold phonexPrepare
  rw [dropS_tail]
  generalize dropFinalS w = w
  have two : ∀ x k : Char, k ∈ c!"NHRSCDG" → (([x, k] : Str) <+: tailMap phCanon w ↔ ([x, k] : Str) <+: w) := by
    intro x k hk
    match w with
    | [] => rfl
    | [c] => simp [tailMap]
    | c :: d :: w =>
      simp only [tailMap, List.map_cons, List.cons_prefix_cons, List.nil_prefix, and_true]
      have := phCanon_eq hk d
      rw [@eq_comm _ k, this, @eq_comm _ k]
  have hd : (tailMap phCanon w).drop 1 = (w.drop 1).map phCanon := by
    cases w <;> rfl
  have key : (if c!"KN" <+: tailMap phCanon w then 'N' :: (tailMap phCanon w).drop 1
      else if c!"PH" <+: tailMap phCanon w then 'F' :: (tailMap phCanon w).drop 1
      else if c!"WR" <+: tailMap phCanon w then 'R' :: (tailMap phCanon w).drop 1
      else tailMap phCanon w) = tailMap phCanon (if c!"KN" <+: w then 'N' :: w.drop 1
      else if c!"PH" <+: w then 'F' :: w.drop 1
      else if c!"WR" <+: w then 'R' :: w.drop 1
      else w) := by
    simp only [two 'K' 'N' (by decide), two 'P' 'H' (by decide), two 'W' 'R' (by decide), hd]
    repeat' split
    all_goals rfl
  dsimp only
  rw [key]
  generalize (if c!"KN" <+: w then 'N' :: w.drop 1
      else if c!"PH" <+: w then 'F' :: w.drop 1
      else if c!"WR" <+: w then 'R' :: w.drop 1
      else w) = t
  match t with
  | [] => rfl
  | [c] =>
    by_cases h : c = 'H'
    · subst h; rfl
    · have : ¬ c!"H" <+: [c] := by simp [List.cons_prefix_cons, Ne.symm h]
      simp only [tailMap, List.map_nil, if_neg this]
  | c :: d :: t =>
    by_cases h : c = 'H'
    · subst h
      have : ∀ r : Str, c!"H" <+: 'H' :: r := fun r => by simp [List.cons_prefix_cons]
      simp only [tailMap, List.map_cons, if_pos (this _), List.drop_succ_cons, List.drop_zero]
      congr 1
      exact ph_all (P := fun d => phonexFirst (phCanon d) = phonexFirst d) (fun c h => by rw [h]) (by decide) d
    · have : ∀ r : Str, ¬ c!"H" <+: c :: r := fun r => by simp [List.cons_prefix_cons, Ne.symm h]
      simp only [tailMap, List.map_cons, if_neg (this _)]

theorem phonex_model (U : Unicode) (max : Nat) (s : Str) : (Phonex.new max).encode U s =
    (stringWithCapacity max).map fun result =>
      Phonex.pad max (Phonex.loop max (phonexPrepare (letters U s)) 0 false { Phonex.St.init with result }).result := by
  unfold Phonex.encode
  rw [PhonexProofs.preprocess_eq]
  simp only [bind, Except.bind, pure, Except.pure, Phonex.new]
  cases stringWithCapacity max <;> rfl

theorem phonex_swap_later (U : Unicode) (max : Nat) (u v : Str) (hu : letters U u ≠ []) {a b : Char} (ha : a ∈ allLetters)
    (hb : b ∈ allLetters) (h : phCanon a = phCanon b) :
    (Phonex.new max).encode U (u ++ a :: v) = (Phonex.new max).encode U (u ++ b :: v) := by
  rw [phonex_model, phonex_model]
  have key : ∀ (t : Str) st, Phonex.loop max (phonexPrepare (tailMap phCanon t)) 0 false st =
      Phonex.loop max (phonexPrepare t) 0 false st := by
    intro t st
    rw [prepare_tail, ph_loop_tail]
  congr 1
  funext result
  rw [letters_cap U u v ha, letters_cap U u v hb]
  cases hc : letters U u with
  | nil => exact absurd hc hu
  | cons c r =>
    rw [← key, ← key (c :: r ++ b :: letters U v)]
    simp only [List.cons_append, tailMap, List.map_append, List.map_cons, h]

/-- Letters that are interchangeable everywhere in Phonex. -/
def phGroups : List Str := [c!"AEIOUY", c!"FV"]

theorem phonex_swap (U : Unicode) (max : Nat) (u v : Str) {a b : Char} (ha : a ∈ allLetters)
    (hb : b ∈ allLetters) (h : together [c!"AEIOUY", c!"FV"] a b = true) :
    (Phonex.new max).encode U (u ++ a :: v) = (Phonex.new max).encode U (u ++ b :: v) := by
  by_cases hu : letters U u = []
  · rw [phonex_model, phonex_model]
    congr 1
    funext result
    rw [letters_cap U u v ha, letters_cap U u v hb, hu]
    congr 3
    have first : ∀ a ∈ allLetters, together [c!"AEIOUY", c!"FV"] a a = true := by decide
    have gen : ∀ a, a ∈ c!"AEIOUYFV" → ∀ t : Str, phonexPrepare (a :: t) = phonexFirst a :: dropFinalS t := by
      intro a ha t
      have hS : a ≠ 'S' ∧ a ≠ 'K' ∧ a ≠ 'P' ∧ a ≠ 'W' ∧ a ≠ 'H' := by revert a; decide
      unfold phonexPrepare
      have hd : dropFinalS (a :: t) = a :: dropFinalS t := by
        rw [dropS_cons, if_neg hS.1]
        by_cases h0 : dropFinalS t = []
        · rw [if_pos h0, h0]
        · rw [if_neg h0]
      have np : ∀ k (r : Str), k ≠ a → ¬ (k :: r) <+: a :: dropFinalS t := by
        intro k r hk
        simp [List.cons_prefix_cons, hk]
      simp only [hd, if_neg (np _ _ (Ne.symm hS.2.1)), if_neg (np _ _ (Ne.symm hS.2.2.1)),
        if_neg (np _ _ (Ne.symm hS.2.2.2.1)), if_neg (np _ _ (Ne.symm hS.2.2.2.2))]
    have facts : ∀ a ∈ allLetters, ∀ b ∈ allLetters, together [c!"AEIOUY", c!"FV"] a b = true →
        a = b ∨ (a ∈ c!"AEIOUYFV" ∧ b ∈ c!"AEIOUYFV" ∧ phonexFirst a = phonexFirst b) := by decide
    rcases facts a ha b hb h with h | ⟨h1, h2, h3⟩
    · rw [h]
    · rw [List.nil_append, List.nil_append, gen a h1, gen b h2, h3]
  · have : ∀ a ∈ allLetters, ∀ b ∈ allLetters, together [c!"AEIOUY", c!"FV"] a b = true → phCanon a = phCanon b := by decide
    exact phonex_swap_later U max u v hu ha hb (this a ha b hb h)

/-! ## Match Rating -/

theorem trim_long (U : Unicode) (u v : Str) (c a : Char) (hc : c ∈ u) (hw : U.isWhitespace c = false)
    (ha : U.isWhitespace a = false) : MraProofs.Long U (u ++ a :: v) := by
  unfold MraProofs.Long Unicode.trim
  obtain ⟨p, q, rfl⟩ := List.append_of_mem hc
  have h1 : ∀ (x y : Str) (c : Char), U.isWhitespace c = false →
      (x ++ c :: y).dropWhile U.isWhitespace = x.dropWhile U.isWhitespace ++ c :: y := by
    intro x y c hc
    rw [List.dropWhile_append]
    split
    · next h =>
      rw [List.dropWhile_cons, hc]
      have : x.dropWhile U.isWhitespace = [] := by simpa using h
      simp [this]
    · rfl
  rw [List.append_assoc, List.cons_append, h1 _ _ _ hw, List.reverse_append, List.reverse_cons, List.reverse_append,
    List.reverse_cons]
  have e : v.reverse ++ [a] ++ q.reverse ++ [c] ++ (p.dropWhile U.isWhitespace).reverse =
      v.reverse ++ a :: (q.reverse ++ [c] ++ (p.dropWhile U.isWhitespace).reverse) := by simp
  rw [e, h1 _ _ _ ha]
  have hb : ∀ x y : Str, byteLen (x ++ y) = byteLen x + byteLen y := byteLen_append
  simp only [List.reverse_append, List.reverse_cons, List.reverse_nil, List.reverse_reverse, hb, List.nil_append, byteLen]
  have := utf8Size_pos c
  have := utf8Size_pos a
  omega

theorem mra_swap (U : Unicode) (u v : Str) (hu : hasLetter u) {a b : Char} (ha : a ∈ c!"AEIOU") (hb : b ∈ c!"AEIOU") :
    MatchRating.encode U (u ++ a :: v) = MatchRating.encode U (u ++ b :: v) := by
  obtain ⟨c, hc, hl⟩ := hu
  have hca : isAscii c = true := by
    unfold isAsciiAlpha isAsciiLower isAsciiUpper at hl
    unfold isAscii
    simp only [Bool.or_eq_true, Bool.and_eq_true, decide_eq_true_eq] at hl
    simp only [decide_eq_true_eq]
    omega
  have fact : ∀ c, isAscii c = true → isAsciiAlpha c = true → isAsciiWs c = false ∧ isAsciiWs (asciiUpper c) = false ∧
      mraPunct (asciiUpper c) = false ∧ isAscii (asciiUpper c) = true := by
    apply forall_ascii; decide +kernel
  obtain ⟨f1, f2, f3, f4⟩ := fact c hca hl
  have vow : ∀ {a : Char}, a ∈ c!"AEIOU" → isAscii a = true ∧ isAsciiWs a = false ∧ mraPunct a = false ∧ asciiUpper a = a ∧
      mraPlain a = a ∧ (c!"AEIOUaeiou").contains a = true := by
    intro a ha; revert a; decide
  have red : ∀ {a : Char}, a ∈ c!"AEIOU" → mraReduced U (u ++ a :: v) = mraPairs (U.strUpper (mraSkeleton (mraClean U u ++ mraClean U v))) := by
    intro a ha
    obtain ⟨v1, v2, v3, v4, v5, v6⟩ := vow ha
    have hcl : mraClean U (u ++ a :: v) = mraClean U u ++ a :: mraClean U v := by
      unfold mraClean Unicode.strUpper
      rw [List.flatMap_append, List.flatMap_cons, U.toUpper_ascii a v1, v4, List.filter_append, List.map_append]
      simp only [List.singleton_append, List.filter_cons, v3, U.isWhitespace_ascii a v1, v2, Bool.not_false, Bool.and_self,
        if_true, List.map_cons, v5]
    have hne : mraClean U u ≠ [] := by
      obtain ⟨p, q, rfl⟩ := List.append_of_mem hc
      unfold mraClean Unicode.strUpper
      rw [List.flatMap_append, List.flatMap_cons, U.toUpper_ascii c hca, List.filter_append, List.map_append]
      simp [List.filter_cons, f3, U.isWhitespace_ascii _ f4, f2]
    unfold mraReduced
    rw [hcl]
    congr 2
    cases hcu : mraClean U u with
    | nil => exact absurd hcu hne
    | cons x r =>
      unfold mraSkeleton
      have ht : ∀ z : Str, (x :: r ++ z).take 1 = [x] ∧ (x :: r ++ z).drop 1 = r ++ z := fun z => ⟨rfl, rfl⟩
      rw [(ht _).1, (ht _).1, (ht _).2, (ht _).2, List.filter_append, List.filter_append, List.filter_cons, v6]
      rfl
  have hw : ∀ {a : Char}, a ∈ c!"AEIOU" → MraProofs.Long U (u ++ a :: v) := fun {a} ha =>
    trim_long U u v c a hc (by rw [U.isWhitespace_ascii c hca, f1]) (by rw [U.isWhitespace_ascii a (vow ha).1, (vow ha).2.1])
  rw [MraProofs.encode_long (hw ha), MraProofs.encode_long (hw hb), red ha, red hb]

end InterchangeProofs

open InterchangeProofs

/-- C100: Soundex tells all first letters apart; later letters can be exchanged exactly within the groups of the table
(with H and W apart from the vowels). -/
theorem soundex_interchangeable (U : Unicode) (a b : Char) (ha : a ∈ allLetters) (hb : b ∈ allLetters) :
    (Interchangeable (Soundex.default.encode U) anyText anyText a b ↔ a = b) ∧
    (Interchangeable (Soundex.default.encode U) hasLetter anyText a b ↔
      together [c!"AEIOUY", c!"BFPV", c!"CGJKQSXZ", c!"DT", c!"HW", c!"MN"] a b = true) := by
  refine ⟨⟨fun h => ?_, fun h => by subst h; exact fun u v _ _ => rfl⟩, ⟨fun h => ?_, fun h u v hu _ => ?_⟩⟩
  · have := told_apart ha hb h [([], c!"NOUGH")] [] (by decide) (by decide)
      (fun s hs => (ascii_tables U .latin1 s hs).1 Soundex.default) (by decide +kernel)
    simpa [together] using this
  · exact told_apart ha hb h [(c!"L", c!"L"), (c!"C", c!"UGH")] _ (by decide) (by decide)
      (fun s hs => (ascii_tables U .latin1 s hs).1 Soundex.default) (by decide +kernel)
  · have facts : ∀ a ∈ allLetters, ∀ b ∈ allLetters,
        together [c!"AEIOUY", c!"BFPV", c!"CGJKQSXZ", c!"DT", c!"HW", c!"MN"] a b = true →
        getMappingCode defaultMapping a = getMappingCode defaultMapping b ∧
        (a == 'H' || a == 'W') = (b == 'H' || b == 'W') := by decide +kernel
    obtain ⟨h1, h2⟩ := facts a ha b hb h
    obtain ⟨c, r, hc⟩ := letters_ne U hu
    unfold Soundex.encode
    rw [soundexClean_eq_letters, soundexClean_eq_letters, letters_cap U u v ha, letters_cap U u v hb, hc]
    simp only [List.cons_append]
    have := soundex_loop Soundex.default a b h1 (by rw [h2]) r (letters U v)
    simp only [this]

/-- C100: the same for Refined Soundex. -/
theorem refined_interchangeable (U : Unicode) (a b : Char) (ha : a ∈ allLetters) (hb : b ∈ allLetters) :
    (Interchangeable (RefinedSoundex.default.encode U) anyText anyText a b ↔ a = b) ∧
    (Interchangeable (RefinedSoundex.default.encode U) hasLetter anyText a b ↔
      together [c!"AEHIOUWY", c!"BP", c!"CKS", c!"DT", c!"FV", c!"GJ", c!"MN", c!"QXZ"] a b = true) := by
  refine ⟨⟨fun h => ?_, fun h => by subst h; exact fun u v _ _ => rfl⟩, ⟨fun h => ?_, fun h u v hu _ => ?_⟩⟩
  · have := told_apart ha hb h [([], c!"NOUGH")] [] (by decide) (by decide)
      (fun s hs => (ascii_tables U .latin1 s hs).2.1 RefinedSoundex.default) (by decide +kernel)
    simpa [together] using this
  · exact told_apart ha hb h [(c!"MA", [])] _ (by decide) (by decide)
      (fun s hs => (ascii_tables U .latin1 s hs).2.1 RefinedSoundex.default) (by decide +kernel)
  · have facts : ∀ a ∈ allLetters, ∀ b ∈ allLetters,
        together [c!"AEHIOUWY", c!"BP", c!"CKS", c!"DT", c!"FV", c!"GJ", c!"MN", c!"QXZ"] a b = true →
        getMappingCode RefinedSoundex.englishMapping a = getMappingCode RefinedSoundex.englishMapping b := by decide +kernel
    have h1 := facts a ha b hb h
    obtain ⟨c, r, hc⟩ := letters_ne U hu
    unfold RefinedSoundex.encode
    rw [soundexClean_eq_letters, soundexClean_eq_letters, letters_cap U u v ha, letters_cap U u v hb, hc]
    exact refined_loop RefinedSoundex.englishMapping a b h1 (c :: r) (letters U v) _ _

/-- C100: in Cologne phonetics the letters of a group can be exchanged everywhere, other letters cannot. -/
theorem cologne_interchangeable (U : Unicode) (a b : Char) (ha : a ∈ allLetters) (hb : b ∈ allLetters) :
    Interchangeable (Cologne.encode U) anyText anyText a b ↔
      together [c!"AOU", c!"EIJY", c!"DT", c!"FVW", c!"KQ", c!"MN", c!"SZ"] a b = true := by
  constructor
  · intro h
    exact told_apart ha hb h [(c!"HH", []), (c!"AC", c!"H")] _ (by decide) (by decide)
      (fun s hs => (ascii_tables U .latin1 s hs).2.2.1) (by decide +kernel)
  · intro h u v _ _
    have facts : ∀ a ∈ allLetters, ∀ b ∈ allLetters,
      together [c!"AOU", c!"EIJY", c!"DT", c!"FVW", c!"KQ", c!"MN", c!"SZ"] a b = true → cologneCanon a = cologneCanon b := by
      decide
    exact cologne_swap U u v ha hb (facts a ha b hb h)

/-- C100: both Caverphone versions confuse S with Z, F with V and K with X, and no other letters. -/
theorem caverphone_interchangeable (U : Unicode) (a b : Char) (ha : a ∈ allLetters) (hb : b ∈ allLetters) :
    (Interchangeable (Caverphone1.encode U) withoutSigma withoutSigma a b ↔ together [c!"SZ", c!"FV", c!"KX"] a b = true) ∧
    (Interchangeable (Caverphone2.encode U) withoutSigma withoutSigma a b ↔ together [c!"SZ", c!"FV", c!"KX"] a b = true) := by
  have facts : ∀ a ∈ allLetters, ∀ b ∈ allLetters, together [c!"SZ", c!"FV", c!"KX"] a b = true →
      cavCanon (asciiLower a) = cavCanon (asciiLower b) := by decide
  refine ⟨⟨fun h => ?_, fun h u v hu hv => (caverphone_swap U u v hu hv ha hb (facts a ha b hb h)).1⟩,
    ⟨fun h => ?_, fun h u v hu hv => (caverphone_swap U u v hu hv ha hb (facts a ha b hb h)).2⟩⟩
  · exact told_apart ha hb h [(c!"TI", c!"E"), (c!"CC", c!"H"), ([], c!"NOUGH"), (c!"CO", c!"GH"), (c!"C", c!"UGH")] _
      (by decide) (by decide) (fun s hs => (ascii_tables U .latin1 s hs).2.2.2.1) (by decide +kernel)
  · exact told_apart ha hb h [(c!"J", c!"I"), (c!"CC", []), (c!"TI", c!"H"), (c!"C", c!"UGH"), (c!"CO", c!"GH")] _
      (by decide) (by decide) (fun s hs => (ascii_tables U .latin1 s hs).2.2.2.2.1) (by decide +kernel)

/-- C100: NYSIIS tells all first letters apart; after the first letter it confuses O with U and G with Q, and no others. -/
theorem nysiis_interchangeable (U : Unicode) (strict : Bool) (a b : Char) (ha : a ∈ allLetters) (hb : b ∈ allLetters) :
    (Interchangeable ((Nysiis.new strict).encode U) anyText anyText a b ↔ a = b) ∧
    (Interchangeable ((Nysiis.new strict).encode U) hasLetter anyText a b ↔ together [c!"OU", c!"GQ"] a b = true) := by
  have facts : ∀ a ∈ allLetters, ∀ b ∈ allLetters, together [c!"OU", c!"GQ"] a b = true → nyCanon a = nyCanon b := by decide
  refine ⟨⟨fun h => ?_, fun h => by subst h; exact fun u v _ _ => rfl⟩,
    ⟨fun h => ?_, fun h u v hu _ => nysiis_swap U strict u v hu ha hb (facts a ha b hb h)⟩⟩
  · have := told_apart ha hb h [([], c!"NOUGH"), (c!"C", c!"UGH")] [] (by decide) (by decide)
      (fun s hs => (ascii_tables U .latin1 s hs).2.2.2.2.2.1 (Nysiis.new strict)) (by cases strict <;> decide +kernel)
    simpa [together] using this
  · exact told_apart ha hb h [(c!"MA", c!"E"), (c!"M", c!"CH"), (c!"K", c!"V")] _ (by decide) (by decide)
      (fun s hs => (ascii_tables U .latin1 s hs).2.2.2.2.2.1 (Nysiis.new strict)) (by cases strict <;> decide +kernel)

/-- C100: Phonex, with a maximum of at least two. -/
theorem phonex_interchangeable (U : Unicode) (n : Nat) (h2 : 2 ≤ n) (hn : n < 2 ^ 63) (a b : Char) (ha : a ∈ allLetters)
    (hb : b ∈ allLetters) :
    (Interchangeable ((Phonex.new n).encode U) anyText anyText a b ↔ together [c!"AEIOUY", c!"FV"] a b = true) ∧
    (Interchangeable ((Phonex.new n).encode U) hasLetter anyText a b ↔
      together [c!"AEIOUY", c!"BP", c!"FV", c!"KQ"] a b = true) := by
  have later : ∀ a ∈ allLetters, ∀ b ∈ allLetters, together [c!"AEIOUY", c!"BP", c!"FV", c!"KQ"] a b = true →
      phCanon a = phCanon b := by decide
  have two : ∀ s, AsciiStr s → ((Phonex.new n).encode U s).map (fun c => c.take 2) =
      .ok (exactly 2 (phonex (letters .latin1 s))) := by
    intro s hs
    rw [LocalProofs.phonex_exactly U n h2 hn s hs, letters_ascii U hs, letters_ascii .latin1 hs]
    simp only [Except.map, Except.ok.injEq]
    unfold exactly
    rw [List.take_append, List.take_take, List.length_take, List.take_replicate, Nat.min_eq_left h2]
    congr 2
    omega
  have weaken : ∀ before, Interchangeable ((Phonex.new n).encode U) before anyText a b →
      Interchangeable (fun s => ((Phonex.new n).encode U s).map (fun c => c.take 2)) before anyText a b :=
    fun before h u v hu hv => congrArg _ (h u v hu hv)
  refine ⟨⟨fun h => ?_, fun h u v _ _ => phonex_swap U n u v ha hb h⟩, ⟨fun h => ?_, fun h u v hu _ => ?_⟩⟩
  · exact told_apart ha hb (weaken _ h) [([], c!"ND"), (c!"HM", []), (c!"AD", []), ([], c!"H")] _ (by decide) (by decide)
      two (by decide +kernel)
  · exact told_apart ha hb (weaken _ h) [(c!"H", []), (c!"AD", []), (c!"M", c!"C")] _ (by decide) (by decide)
      two (by decide +kernel)
  · obtain ⟨c, r, hc⟩ := letters_ne U hu
    exact phonex_swap_later U n u v (by rw [hc]; simp) ha hb (later a ha b hb h)

/-- C100: Match Rating tells all first letters apart; later it ignores, and so confuses, the vowels, and nothing else. -/
theorem mra_interchangeable (U : Unicode) (a b : Char) (ha : a ∈ allLetters) (hb : b ∈ allLetters) :
    (Interchangeable (MatchRating.encode U) anyText anyText a b ↔ a = b) ∧
    (Interchangeable (MatchRating.encode U) hasLetter anyText a b ↔ together [c!"AEIOU"] a b = true) := by
  have facts : ∀ a ∈ allLetters, ∀ b ∈ allLetters, together [c!"AEIOU"] a b = true →
      a = b ∨ (a ∈ c!"AEIOU" ∧ b ∈ c!"AEIOU") := by decide
  refine ⟨⟨fun h => ?_, fun h => by subst h; exact fun u v _ _ => rfl⟩, ⟨fun h => ?_, fun h u v hu _ => ?_⟩⟩
  · have := told_apart ha hb h [([], c!"NOUGH")] [] (by decide) (by decide)
      (fun s hs => (ascii_tables U .latin1 s hs).2.2.2.2.2.2.1) (by decide +kernel)
    simpa [together] using this
  · exact told_apart ha hb h [(c!"AA", [])] _ (by decide) (by decide)
      (fun s hs => (ascii_tables U .latin1 s hs).2.2.2.2.2.2.1) (by decide +kernel)
  · rcases facts a ha b hb h with rfl | ⟨h1, h2⟩
    · rfl
    · exact mra_swap U u v hu h1 h2

/-- C100: Metaphone, without a maximum or with one of at least two, tells all letters apart, even after the first one. -/
theorem metaphone_interchangeable (U : Unicode) (max : Option Nat) (h2 : ∀ n, max = some n → 2 ≤ n) (a b : Char)
    (ha : a ∈ allLetters) (hb : b ∈ allLetters) :
    Interchangeable ((Metaphone.new max).encode U) hasLetter anyText a b ↔ a = b := by
  refine ⟨fun h => ?_, fun h => by subst h; exact fun u v _ _ => rfl⟩
  have h' : Interchangeable (fun s => ((Metaphone.new max).encode U s).map fun c => c.take 2) hasLetter anyText a b :=
    fun u v hu hv => congrArg _ (h u v hu hv)
  have := told_apart ha hb h' (g := fun s => .ok ((metaphone (s.map asciiUpper)).take 2))
    [(c!"SI", c!"E"), (c!"HC", c!"H"), (c!"H", c!"F"), (c!"CI", []), (c!"A", [])] [] (by decide) (by decide)
    (fun s hs => by
      have e := metaphone_eq_spec U s hs
      cases hm : max with
      | none => simp only [e.1]; rfl
      | some n =>
        have := h2 n hm
        simp only [e.2 n (.inr (by omega)), Except.map, List.take_take, Nat.min_eq_left this]) (by decide +kernel)
  simpa [together] using this

/-- C100: Double Metaphone, without a maximum or with one of at least two, tells all letters apart, even after the first
one and by either of its two codes alone. -/
theorem double_metaphone_interchangeable (U : Unicode) (max : Option Nat) (h2 : ∀ n, max = some n → 2 ≤ n ∧ n < 2 ^ 63)
    (a b : Char) (ha : a ∈ allLetters) (hb : b ∈ allLetters) :
    (Interchangeable ((DoubleMetaphone.new max).encode U) hasLetter anyText a b ↔ a = b) ∧
    (Interchangeable ((DoubleMetaphone.new max).encodeAlternate U) hasLetter anyText a b ↔ a = b) := by
  refine ⟨⟨fun h => ?_, fun h => by subst h; exact fun u v _ _ => rfl⟩,
    ⟨fun h => ?_, fun h => by subst h; exact fun u v _ _ => rfl⟩⟩
  · have h' : Interchangeable (fun s => ((DoubleMetaphone.new max).encode U s).map fun r => r.take 2) hasLetter anyText a b :=
      fun u v hu hv => congrArg _ (h u v hu hv)
    have := told_apart ha hb h' (g := (DoubleMetaphone.new (some 2)).encode .latin1)
      [(c!"H", c!"GY"), (c!"GE", c!"E"), (c!"B", c!"IS"), (c!"HF", []), (c!"AJ", [])] [] (by decide) (by decide)
      (fun s hs => by
        obtain ⟨r, hr, h1, _⟩ := double_metaphone_ascii U max s hs (fun n hn => (h2 n hn).2)
        have e := (double_metaphone_truncation U 2 max (fun n hn => (h2 n hn).1) (by decide) s r hr).2.1
        unfold DoubleMetaphone.encode at e ⊢
        rw [← (ascii_tables U .latin1 s hs).2.2.2.2.2.2.2.2.1, e]
        unfold DoubleMetaphone.encode at h1
        simp only [h1, Except.map]) (by decide +kernel)
    simpa [together] using this
  · have h' : Interchangeable (fun s => ((DoubleMetaphone.new max).encodeAlternate U s).map fun r => r.take 2) hasLetter anyText a b :=
      fun u v hu hv => congrArg _ (h u v hu hv)
    have := told_apart ha hb h' (g := (DoubleMetaphone.new (some 2)).encodeAlternate .latin1)
      [(c!"H", c!"GY"), (c!"C", c!"E"), (c!"AJ", []), (c!"HF", [])] [] (by decide) (by decide)
      (fun s hs => by
        obtain ⟨r, hr, _, h1⟩ := double_metaphone_ascii U max s hs (fun n hn => (h2 n hn).2)
        have e := (double_metaphone_truncation U 2 max (fun n hn => (h2 n hn).1) (by decide) s r hr).2.2
        unfold DoubleMetaphone.encodeAlternate at e ⊢
        rw [← (ascii_tables U .latin1 s hs).2.2.2.2.2.2.2.2.1, e]
        unfold DoubleMetaphone.encodeAlternate at h1
        simp only [h1, Except.map]) (by decide +kernel)
    simpa [together] using this

/-! Beside C100: letters that are and that are not in a group. -/

example : Soundex.default.encode .latin1 c!"Lloyd" = Soundex.default.encode .latin1 c!"Lloyt" ∧
    Cologne.encode .latin1 c!"Meier" = Cologne.encode .latin1 c!"Mejer" ∧
    Caverphone2.encode .latin1 c!"Stefen" = Caverphone2.encode .latin1 c!"Steven" ∧
    (Phonex.new 4).encode .latin1 c!"Felix" = (Phonex.new 4).encode .latin1 c!"Velyx" ∧
    (Metaphone.new none).encode .latin1 c!"Felix" ≠ (Metaphone.new none).encode .latin1 c!"Pelix" := by decide +kernel
end Verif.Props
