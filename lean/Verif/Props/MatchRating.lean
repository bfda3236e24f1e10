import Verif.Proofs.Common
import Verif.Proofs.Replace
import Verif.Spec.MatchRating
import Verif.Model.MatchRating
/-!
# Properties of the Match Rating Approach (C20–C22)
-/

set_option linter.unusedSimpArgs false

namespace Verif.Props
open Spec

namespace MraProofs
open MatchRating

theorem removeAccent_eq (c : Char) : removeAccentChar c = mraPlain c := by
  by_cases h : c ∈ unicode
  · have : ∀ c ∈ unicode, removeAccentChar c = mraPlain c := by decide +kernel
    exact this c h
  · have h1 : unicode.idxOf? c = none := by rw [List.idxOf?_eq_none_iff]; exact h
    have h2 : removeAccentChar c = c := by unfold removeAccentChar; rw [h1]
    have h3 : mraPlain c = c := by
      have key : ∀ l : Str, (∀ d ∈ l, d ∈ unicode) → l.contains c = false := by
        intro l hl
        rw [Bool.eq_false_iff]
        intro hc
        exact h (hl c (List.contains_iff_mem.mp hc))
      unfold mraPlain
      rw [key c!"ÀÁÂÃÄÅ" (by decide +kernel), key c!"àáâãäå" (by decide +kernel),
        key c!"Çç" (by decide +kernel), key c!"ÈÉÊË" (by decide +kernel),
        key c!"èéêë" (by decide +kernel), key c!"ÌÍÎÏ" (by decide +kernel),
        key c!"ìíîï" (by decide +kernel), key c!"Ññ" (by decide +kernel),
        key c!"ÒÓÔÕÖŐ" (by decide +kernel), key c!"òóôõöő" (by decide +kernel),
        key c!"ÙÚÛÜŰ" (by decide +kernel), key c!"ùúûüű" (by decide +kernel),
        key c!"ÝŶŸ" (by decide +kernel), key c!"ýŷÿ" (by decide +kernel)]
      rfl
    rw [h2, h3]

/-- A plain letter: not punctuation, not white space. -/
theorem plain_clean (U : Unicode) (c : Char) (h1 : mraPunct c = false) (h2 : U.isWhitespace c = false) :
    mraPunct (mraPlain c) = false ∧ U.isWhitespace (mraPlain c) = false := by
  rw [← removeAccent_eq]
  unfold removeAccentChar
  cases h : unicode.idxOf? c with
  | none => exact ⟨h1, h2⟩
  | some i =>
    simp only
    have hi : i < plainAscii.length := by
      have := (List.idxOf?_eq_some_iff.mp h).1
      rw [← unicode_plain_length]; exact this
    have hm : plainAscii.getD i c ∈ plainAscii := by
      rw [List.getD_eq_getElem?_getD, List.getElem?_eq_getElem hi]; exact List.getElem_mem hi
    have k1 : ∀ d ∈ plainAscii, mraPunct d = false := by decide +kernel
    have k2 : ∀ d ∈ plainAscii, isAscii d = true ∧ isAsciiWs d = false := by decide +kernel
    refine ⟨k1 _ hm, ?_⟩
    rw [U.isWhitespace_ascii _ (k2 _ hm).1]; exact (k2 _ hm).2

theorem cleanName_eq (U : Unicode) (s : Str) : cleanName U s = mraClean U s := by
  unfold cleanName mraClean
  rw [List.filter_filter]
  have : removeAccentChar = mraPlain := funext removeAccent_eq
  rw [this]
  congr 2
  funext c
  rw [Bool.and_comm]; rfl

theorem clean_no_punct (U : Unicode) (s : Str) :
    ∀ c ∈ mraClean U s, mraPunct c = false ∧ U.isWhitespace c = false := by
  intro c hc
  obtain ⟨d, hd, rfl⟩ := List.mem_map.mp hc
  have := (List.mem_filter.mp hd).2
  simp only [Bool.and_eq_true, Bool.not_eq_true'] at this
  exact plain_clean U d this.1 this.2

theorem vowel_eq (c : Char) : isVowel (some (asciiLower c)) false = c!"AEIOUaeiou".contains c := by
  by_cases h : isAscii c = true
  · revert c; apply forall_ascii; decide +kernel
  · have hu : isAsciiUpper c = false := by
      cases hu : isAsciiUpper c with
      | false => rfl
      | true => exact absurd (isAscii_of_upper hu) h
    have f : ∀ d, isAscii d = true → (c == d) = false := fun d hd =>
      beq_eq_false_iff_ne.mpr fun e => h (e ▸ hd)
    simp only [asciiLower, hu, Bool.false_eq_true, if_false, isVowel,
      List.contains_cons, List.contains_nil, Bool.or_false, Bool.false_and]
    simp only [f 'a' rfl, f 'e' rfl, f 'i' rfl, f 'o' rfl, f 'u' rfl, f 'A' rfl, f 'E' rfl,
      f 'I' rfl, f 'O' rfl, f 'U' rfl, Bool.or_false]

theorem removeVowels_eq (U : Unicode) (w : Str)
    (h : ∀ c ∈ w, mraPunct c = false ∧ U.isWhitespace c = false) :
    removeVowels U w = mraSkeleton w := by
  have e : filterVowels w = mraSkeleton w := by
    unfold filterVowels mraSkeleton
    cases w with
    | nil => rfl
    | cons c cs => simp only [vowel_eq]; simp
  unfold removeVowels
  rw [e, List.filter_eq_self]
  intro c hc
  have : c ∈ w := by
    unfold mraSkeleton at hc
    rcases List.mem_append.mp hc with hc | hc
    · exact List.mem_of_mem_take hc
    · exact List.mem_of_mem_drop (List.mem_filter.mp hc).1
  have := h c this
  have h1 : charToTrim.contains c = false := this.1
  rw [h1, this.2]; rfl

/-- One pass of pair removal for the consonants in `S`. -/
def pairs (S : Str) : Str → Str
  | [] => []
  | [a] => [a]
  | a :: b :: r => if a = b ∧ S.contains a then a :: pairs S r else a :: pairs S (b :: r)

theorem pairs_head (S : Str) (a : Char) (r : Str) : ∃ t, pairs S (a :: r) = a :: t := by
  cases r with
  | nil => exact ⟨[], rfl⟩
  | cons b r => unfold pairs; split <;> exact ⟨_, rfl⟩

theorem pairs_nil_set (s : Str) : pairs [] s = s := by
  induction s with
  | nil => rfl
  | cons a r ih =>
    cases r with
    | nil => rfl
    | cons b r => unfold pairs; simp [ih]

theorem replaceAll_not_prefix (a : Char) (t : Str) (c : Char) (h : ¬ (a = c ∧ t.head? = some c)) :
    replaceAll (a :: t) [c, c] [c] = a :: replaceAll t [c, c] [c] := by
  rw [replaceAll_cons _ _ _ _ (by simp), if_neg]
  rw [List.isPrefixOf_iff_prefix, List.cons_prefix_cons]
  rintro ⟨h1, h2⟩
  apply h
  refine ⟨h1.symm, ?_⟩
  cases t with
  | nil => simp at h2
  | cons b t => rw [List.cons_prefix_cons] at h2; simp [h2.1]

theorem pairs_step (S : Str) (c : Char) (hc : S.contains c = false) (s : Str) :
    replaceAll (pairs S s) [c, c] [c] = pairs (S ++ [c]) s := by
  induction hn : s.length using Nat.strongRecOn generalizing s with
  | ind n ih =>
    match s, hn with
    | [], _ => rfl
    | [a], _ =>
      show replaceAll [a] [c, c] [c] = [a]
      rw [replaceAll_not_prefix a [] c (by simp)]; rfl
    | a :: b :: r, hn =>
      have ih1 := ih _ (by subst hn; simp) (b :: r) rfl
      have ih2 := ih _ (by subst hn; simp; omega) r rfl
      have hS : (S ++ [c]).contains a = (S.contains a || a == c) := by
        rw [List.contains_append]; simp only [List.contains_cons, List.contains_nil, Bool.or_false]
      unfold pairs
      rw [hS]
      by_cases hab : a = b
      · subst hab
        by_cases ha : S.contains a = true
        · have hac : a ≠ c := by rintro rfl; rw [ha] at hc; exact absurd hc (by decide)
          simp only [ha, Bool.true_or, and_self, if_true]
          rw [replaceAll_not_prefix _ _ _ (fun h => hac h.1), ih2]
        · rw [if_neg (fun h => ha h.2)]
          by_cases hac : a = c
          · subst hac
            simp only [beq_self_eq_true, Bool.or_true, and_self, if_true]
            have : pairs S (a :: r) = a :: pairs S r := by
              cases r with
              | nil => rfl
              | cons b r => rw [pairs.eq_3]; rw [if_neg (fun h => ha h.2)]
            rw [this, replaceAll_cons _ _ _ _ (by simp), if_pos (by simp)]
            simp [ih2]
          · have : (S.contains a || a == c) = false := by simp [ha, hac]; simpa using ha
            rw [this]
            simp only [Bool.false_eq_true, and_false, if_false]
            rw [replaceAll_not_prefix _ _ _ (fun h => hac h.1), ih1]
      · simp only [hab, false_and, if_false]
        rw [replaceAll_not_prefix, ih1]
        rintro ⟨rfl, h⟩
        obtain ⟨t, ht⟩ := pairs_head S b r
        rw [ht] at h
        exact hab (by simpa using h.symm)

theorem foldl_pairs (cs S : Str) (s : Str) (hnd : (S ++ cs).Nodup) :
    (cs.map fun c => ([c, c], [c])).foldl (fun result (p : Str × Str) => replaceAll result p.1 p.2)
      (pairs S s) = pairs (S ++ cs) s := by
  induction cs generalizing S with
  | nil => simp
  | cons c cs ih =>
    have hc : S.contains c = false := by
      rw [Bool.eq_false_iff]
      intro h
      have := List.contains_iff_mem.mp h
      rw [List.nodup_append] at hnd
      exact hnd.2.2 c this c (by simp) rfl
    simp only [List.map_cons, List.foldl_cons]
    rw [pairs_step S c hc, ih (S ++ [c]) (by simpa using hnd)]
    simp

theorem pairs_eq (s : Str) : pairs c!"BCDFGHJKLMNPQRSTVWXYZ" s = mraPairs s := by
  induction hn : s.length using Nat.strongRecOn generalizing s with
  | ind n ih =>
    match s, hn with
    | [], _ => rfl
    | [a], _ => rfl
    | a :: b :: r, hn =>
      have ih1 := ih _ (by subst hn; simp) (b :: r) rfl
      have ih2 := ih _ (by subst hn; simp; omega) r rfl
      unfold pairs mraPairs
      rw [ih1, ih2]

theorem removeDouble_eq (U : Unicode) (w : Str) : removeDoubleConsonants U w = mraPairs (U.strUpper w) := by
  unfold removeDoubleConsonants doubleConsonant
  have := foldl_pairs c!"BCDFGHJKLMNPQRSTVWXYZ" [] (U.strUpper w) (by decide)
  rw [pairs_nil_set] at this
  rw [this, List.nil_append, pairs_eq]

theorem reduced_eq (U : Unicode) (s : Str) :
    removeDoubleConsonants U (removeVowels U (cleanName U s)) = mraReduced U s := by
  rw [removeDouble_eq, cleanName_eq, removeVowels_eq U _ (clean_no_punct U s)]; rfl

theorem first3last3_ok (r code : Str) : getFirst3Last3 r = .ok code ↔ MraCut r code := by
  unfold getFirst3Last3 MraCut
  by_cases h : byteLen r > 6
  · rw [if_pos h]
    have h' : ¬ byteLen r ≤ 6 := by omega
    simp only [h', false_and, false_or, slice_zero]
    constructor
    · intro hc
      cases ha : sliceTo r 3 with
      | error e => simp [ha, bind, Except.bind] at hc
      | ok a =>
        cases hb : sliceFrom r (byteLen r - 3) with
        | error e => simp [ha, hb, bind, Except.bind] at hc
        | ok b =>
          simp only [ha, hb, bind, Except.bind, pure, Except.pure, Except.ok.injEq] at hc
          obtain ⟨ha1, t, ht⟩ := sliceTo_ok ha
          obtain ⟨p, hp1, hp2⟩ := sliceFrom_ok hb
          have hb3 : byteLen b = 3 := by
            have := congrArg byteLen hp2
            rw [byteLen_append] at this; omega
          refine ⟨h, a, ?_⟩
          -- `a` is a prefix of `p`
          have hlen : byteLen a ≤ byteLen p := by omega
          have hpre : a <+: p := by
            have h1 : a <+: r := ⟨t, ht.symm⟩
            have h2 : p <+: r := ⟨b, hp2.symm⟩
            rcases List.prefix_or_prefix_of_prefix h1 h2 with h3 | h3
            · exact h3
            · obtain ⟨q, hq⟩ := h3
              have := congrArg byteLen hq
              rw [byteLen_append] at this
              have hq0 : q = [] := byteLen_eq_zero.mp (by omega)
              subst hq0; simp only [List.append_nil] at hq; rw [hq]; exact List.prefix_rfl
          obtain ⟨m, hm⟩ := hpre
          exact ⟨m, b, by rw [hm]; exact hp2, ha1, hb3, hc.symm⟩
    · rintro ⟨_, a, m, b, rfl, ha, hb, rfl⟩
      have e1 : sliceTo (a ++ m ++ b) 3 = .ok a := by
        rw [← ha, List.append_assoc]; exact sliceTo_append _ _
      have e2 : sliceFrom (a ++ m ++ b) (byteLen (a ++ m ++ b) - 3) = .ok b := by
        have : byteLen (a ++ m ++ b) - 3 = byteLen (a ++ m) := by
          rw [byteLen_append (a ++ m) b]; omega
        rw [this]; exact sliceFrom_append _ _
      simp only [e1, e2, bind, Except.bind, pure, Except.pure]
  · rw [if_neg h]
    have h' : byteLen r ≤ 6 := by omega
    have h'' : ¬ 6 < byteLen r := h
    simp only [h', h'', true_and, false_and, or_false, Except.ok.injEq, eq_comm]

theorem ascii_filter {s : Str} (h : AsciiStr s) (p : Char → Bool) : AsciiStr (s.filter p) :=
  fun c hc => h c (List.mem_filter.mp hc).1

theorem plain_ascii {c : Char} (h : isAscii c = true) : mraPlain c = c := by
  revert c; apply forall_ascii; decide +kernel

theorem clean_ascii (U : Unicode) {s : Str} (h : AsciiStr s) : AsciiStr (mraClean U s) := by
  unfold mraClean
  apply AsciiStr.map
  · exact ascii_filter (asciiStr_strUpper U h) _
  · intro c hc; rw [plain_ascii hc]; exact hc

theorem skeleton_subset (w : Str) : mraSkeleton w ⊆ w := by
  intro c hc
  unfold mraSkeleton at hc
  rcases List.mem_append.mp hc with hc | hc
  · exact List.mem_of_mem_take hc
  · exact List.mem_of_mem_drop (List.mem_filter.mp hc).1

theorem pairs_subset (w : Str) : mraPairs w ⊆ w := by
  induction hn : w.length using Nat.strongRecOn generalizing w with
  | ind n ih =>
    match w, hn with
    | [], _ => exact List.Subset.refl _
    | [a], _ => exact List.Subset.refl _
    | a :: b :: r, hn =>
      have ih1 := ih _ (by subst hn; simp) (b :: r) rfl
      have ih2 := ih _ (by subst hn; simp; omega) r rfl
      unfold mraPairs
      intro c hc
      split at hc
      · rcases List.mem_cons.mp hc with rfl | hc
        · simp
        · simp [ih2 hc]
      · rcases List.mem_cons.mp hc with rfl | hc
        · simp
        · exact List.mem_cons_of_mem _ (ih1 hc)

theorem reduced_ascii (U : Unicode) {s : Str} (h : AsciiStr s) : AsciiStr (mraReduced U s) := by
  unfold mraReduced
  refine AsciiStr.subset ?_ (pairs_subset _)
  exact asciiStr_strUpper U ((clean_ascii U h).subset (skeleton_subset _))

/-- On ASCII text the cut is always possible. -/
theorem cut_ascii {r : Str} (h : AsciiStr r) : ∃ code, MraCut r code ∧ AsciiStr code := by
  by_cases hl : byteLen r ≤ 6
  · exact ⟨r, Or.inl ⟨hl, rfl⟩, h⟩
  · have hlen : 6 < r.length := by rw [← byteLen_ascii h]; omega
    refine ⟨r.take 3 ++ r.drop (r.length - 3), Or.inr ⟨by omega, r.take 3,
      (r.take (r.length - 3)).drop 3, r.drop (r.length - 3), ?_, ?_, ?_, rfl⟩, ?_⟩
    · have : r.take 3 = (r.take (r.length - 3)).take 3 := by
        rw [List.take_take]; congr 1; omega
      rw [this, List.take_append_drop, List.take_append_drop]
    · rw [byteLen_ascii (h.subset (List.take_subset _ _)), List.length_take]; omega
    · rw [byteLen_ascii (h.subset (List.drop_subset _ _)), List.length_drop]; omega
    · rw [asciiStr_append]
      exact ⟨h.subset (List.take_subset _ _), h.subset (List.drop_subset _ _)⟩

theorem cut_le_six {r code : Str} (h : MraCut r code) : byteLen code ≤ 6 := by
  rcases h with ⟨h1, rfl⟩ | ⟨_, a, m, b, _, ha, hb, rfl⟩
  · exact h1
  · rw [byteLen_append]; omega

theorem cut_nil {r : Str} (h : MraCut r []) : r = [] := by
  rcases h with ⟨_, h⟩ | ⟨_, a, m, b, _, ha, hb, h⟩
  · exact h.symm
  · have := congrArg byteLen h
    rw [byteLen_append] at this
    simp [byteLen] at this; omega

theorem skeleton_eq_nil {w : Str} : mraSkeleton w = [] ↔ w = [] := by
  cases w <;> simp [mraSkeleton]

theorem pairs_eq_nil {w : Str} : mraPairs w = [] ↔ w = [] := by
  match w with
  | [] => simp [mraPairs]
  | [a] => simp [mraPairs]
  | a :: b :: r => unfold mraPairs; split <;> simp

theorem strUpper_eq_nil {U : Unicode} {w : Str} : U.strUpper w = [] ↔ w = [] := by
  cases w with
  | nil => simp [Unicode.strUpper]
  | cons c w => simp [Unicode.strUpper, U.toUpper_ne_nil]

theorem reduced_eq_nil {U : Unicode} {s : Str} :
    mraReduced U s = [] ↔ ∀ c ∈ U.strUpper s, mraPunct c = true ∨ U.isWhitespace c = true := by
  unfold mraReduced
  rw [pairs_eq_nil, strUpper_eq_nil, skeleton_eq_nil]
  unfold mraClean
  rw [List.map_eq_nil_iff, List.filter_eq_nil_iff]
  constructor
  · intro h c hc
    have := h c hc
    cases h1 : mraPunct c <;> cases h2 : U.isWhitespace c <;> simp_all
  · intro h c hc
    rcases h c hc with h | h <;> simp [h]

/-- A name of at least two bytes after trimming. -/
def Long (U : Unicode) (s : Str) : Prop := 2 ≤ byteLen (U.trim s)

instance (U : Unicode) (s : Str) : Decidable (Long U s) := inferInstanceAs (Decidable (_ ≤ _))

theorem encode_long {U : Unicode} {s : Str} (h : Long U s) :
    MatchRating.encode U s = getFirst3Last3 (mraReduced U s) := by
  unfold MatchRating.encode Long at *
  have h1 : (U.trim s).isEmpty = false := by
    cases ht : U.trim s with
    | nil => rw [ht] at h; simp [byteLen] at h
    | cons c cs => rfl
  have h2 : (byteLen (U.trim s) == 1) = false := by
    rw [beq_eq_false_iff_ne]; omega
  rw [h1, h2, reduced_eq]; rfl

theorem encode_short {U : Unicode} {s : Str} (h : ¬ Long U s) : MatchRating.encode U s = .ok [] := by
  unfold MatchRating.encode Long at *
  have : (U.trim s).isEmpty = true ∨ byteLen (U.trim s) = 1 := by
    by_cases h0 : byteLen (U.trim s) = 0
    · left; rw [byteLen_eq_zero] at h0; rw [h0]; rfl
    · right; omega
  rw [if_pos]
  rcases this with h | h <;> simp [h]

/-- The guards of `is_encoded_equals`. -/
theorem compare_eq (U : Unicode) (a b : Str) :
    MatchRating.isEncodedEquals U a b =
      if ¬ (Long U a ∧ Long U b) then .ok false
      else if a = b then .ok true
      else do
        let c1 ← MatchRating.encode U a
        let c2 ← MatchRating.encode U b
        if absDiff (byteLen c1) (byteLen c2) ≥ 3 then return false
        else do
          let count ← leftRightProcessing c1 c2
          return decide (count ≥ getMinimumRating (byteLen c1 + byteLen c2)) := by
  have hL : ∀ s, Long U s ↔ ¬ ((U.trim s).isEmpty = true ∨ byteLen (U.trim s) = 1) := by
    intro s
    unfold Long
    cases ht : U.trim s with
    | nil => simp [byteLen]
    | cons c cs => have := utf8Size_pos c; simp [byteLen]; omega
  unfold MatchRating.isEncodedEquals
  by_cases h1 : Long U a ∧ Long U b
  · rw [if_neg (not_not_intro h1)]
    rw [hL, hL] at h1
    simp only [not_or] at h1
    simp only [h1.1.1, h1.1.2, h1.2.1, h1.2.2, Bool.or_eq_true, beq_iff_eq, or_self, if_false, Bool.false_eq_true]
  · rw [if_pos h1]
    rw [hL, hL] at h1
    by_cases h2 : (U.trim a).isEmpty = true ∨ (U.trim b).isEmpty = true
    · simp only [Bool.or_eq_true, h2, if_true]
    · have : byteLen (U.trim a) = 1 ∨ byteLen (U.trim b) = 1 := by
        simp only [not_or] at h2
        apply Decidable.byContradiction
        intro h3
        simp only [not_or] at h3
        exact h1 ⟨fun h => h.elim h2.1 h3.1, fun h => h.elim h2.2 h3.2⟩
      simp only [Bool.or_eq_true, h2, if_false, beq_iff_eq, this, if_true]

/-- Swap of a pair of results. -/
def swap (r : Res (Str × Str)) : Res (Str × Str) := r.map fun p => (p.2, p.1)

theorem matchStep_ok {n1 n2 : Str} {i : Nat} (h1 : i < n1.length) (h2 : i < n2.length) :
    ∃ m1 m2, matchStep n1 n2 i = .ok (m1, m2) ∧ matchStep n2 n1 i = .ok (m2, m1) ∧
      m1.length = n1.length ∧ m2.length = n2.length := by
  unfold matchStep
  have g1 : unwrapGet n1 i = .ok n1[i] := by simp [unwrapGet, h1]
  have g2 : unwrapGet n2 i = .ok n2[i] := by simp [unwrapGet, h2]
  simp only [g1, g2, bind, Except.bind, pure, Except.pure]
  -- after the left comparison
  obtain ⟨k1, k2, e1, e2, l1, l2⟩ : ∃ k1 k2 : Str,
      (if n1[i] = n2[i] then (n1.set i ' ', n2.set i ' ') else (n1, n2)) = (k1, k2) ∧
      (if n2[i] = n1[i] then (n2.set i ' ', n1.set i ' ') else (n2, n1)) = (k2, k1) ∧
      k1.length = n1.length ∧ k2.length = n2.length := by
    by_cases h : n1[i] = n2[i]
    · exact ⟨_, _, by rw [if_pos h], by rw [if_pos h.symm], by simp, by simp⟩
    · exact ⟨_, _, by rw [if_neg h], by rw [if_neg (fun e => h e.symm)], rfl, rfl⟩
  simp only [e1, e2]
  have u1 : usub k1.length (i + 1) = .ok (n1.length - 1 - i) := by
    simp only [usub, l1]; rw [if_pos (by omega)]; congr 1; omega
  have u2 : usub k2.length (i + 1) = .ok (n2.length - 1 - i) := by
    simp only [usub, l2]; rw [if_pos (by omega)]; congr 1; omega
  have b1 : n1.length - 1 - i < k1.length := by omega
  have b2 : n2.length - 1 - i < k2.length := by omega
  have q1 : unwrapGet k1 (n1.length - 1 - i) = .ok (k1[n1.length - 1 - i]) := by simp [unwrapGet, b1]
  have q2 : unwrapGet k2 (n2.length - 1 - i) = .ok (k2[n2.length - 1 - i]) := by simp [unwrapGet, b2]
  simp only [u1, u2, q1, q2]
  by_cases h : k1[n1.length - 1 - i] = k2[n2.length - 1 - i]
  · rw [if_pos h, if_pos h.symm]
    exact ⟨_, _, rfl, rfl, by simp [l1], by simp [l2]⟩
  · rw [if_neg h, if_neg (fun e => h e.symm)]
    exact ⟨_, _, rfl, rfl, l1, l2⟩

theorem matchLoop_succ (k i : Nat) (n1 n2 : Str) :
    matchLoop (k + 1) i n1 n2 =
      if i > n2.length - 1 then .ok (n1, n2)
      else (matchStep n1 n2 i).bind fun p => matchLoop k (i + 1) p.1 p.2 := rfl

/-- The comparison loop never panics on non-empty names, and is symmetric. -/
theorem matchLoop_ok (k : Nat) : ∀ (i : Nat) (n1 n2 : Str), n1.length = i + k → i ≤ n2.length →
    n2 ≠ [] → n1 ≠ [] →
    ∃ m1 m2, matchLoop k i n1 n2 = .ok (m1, m2) ∧
      matchLoop (n2.length - i) i n2 n1 = .ok (m2, m1) ∧
      m1.length = n1.length ∧ m2.length = n2.length := by
  induction k with
  | zero =>
    intro i n1 n2 h1 h2 hne hne1
    refine ⟨n1, n2, rfl, ?_, rfl, rfl⟩
    cases hk : n2.length - i with
    | zero => rfl
    | succ m =>
      have : 0 < n1.length := List.length_pos_iff.mpr hne1
      rw [matchLoop_succ]
      rw [if_pos (by omega)]
  | succ k ih =>
    intro i n1 n2 h1 h2 hne hne1
    have hpos : 0 < n2.length := List.length_pos_iff.mpr hne
    rw [matchLoop_succ]
    by_cases hi : i > n2.length - 1
    · rw [if_pos hi]
      have : n2.length - i = 0 := by omega
      rw [this]
      exact ⟨n1, n2, rfl, rfl, rfl, rfl⟩
    · rw [if_neg hi]
      obtain ⟨a1, a2, e1, e2, l1, l2⟩ := matchStep_ok (n1 := n1) (n2 := n2) (i := i) (by omega) (by omega)
      have hk : n2.length - i = (n2.length - (i + 1)) + 1 := by omega
      obtain ⟨m1, m2, f1, f2, q1, q2⟩ := ih (i + 1) a1 a2 (by omega) (by omega)
        (by intro h; rw [h] at l2; simp at l2; omega) (by intro h; rw [h] at l1; simp at l1; omega)
      refine ⟨m1, m2, ?_, ?_, by omega, by omega⟩
      · simp only [e1, Except.bind, f1]
      · rw [hk]
        rw [matchLoop_succ]
        rw [if_neg (by omega)]
        simp only [e2, Except.bind]
        rw [← l2, f2]

theorem leftRight_ok {c1 c2 : Str} (h1 : c1 ≠ []) (h2 : c2 ≠ []) :
    ∃ n, leftRightProcessing c1 c2 = .ok n ∧ leftRightProcessing c2 c1 = .ok n := by
  obtain ⟨m1, m2, e1, e2, _, _⟩ := matchLoop_ok c1.length 0 c1 c2 (by omega) (by omega) h2 h1
  rw [Nat.sub_zero] at e2
  have p1 : 0 < c1.length := List.length_pos_iff.mpr h1
  have p2 : 0 < c2.length := List.length_pos_iff.mpr h2
  have u1 : usub c1.length 1 = .ok (c1.length - 1) := by unfold usub; rw [if_pos (by omega)]
  have u2 : usub c2.length 1 = .ok (c2.length - 1) := by unfold usub; rw [if_pos (by omega)]
  unfold leftRightProcessing
  simp only [u1, u2, e1, e2, bind, Except.bind, pure, Except.pure]
  by_cases h : byteLen (m1.filter (· != ' ')) > byteLen (m2.filter (· != ' '))
  · rw [if_pos h, if_neg (by omega)]; exact ⟨_, rfl, rfl⟩
  · rw [if_neg h]
    by_cases h' : byteLen (m2.filter (· != ' ')) > byteLen (m1.filter (· != ' '))
    · rw [if_pos h']; exact ⟨_, rfl, rfl⟩
    · rw [if_neg h', show byteLen (m2.filter (· != ' ')) = byteLen (m1.filter (· != ' ')) by omega]
      exact ⟨_, rfl, rfl⟩

theorem matchStep_self {n : Str} {i : Nat} (h : i < n.length) (hp : ∀ j, j < i → n[j]? = some ' ') :
    ∃ m, matchStep n n i = .ok (m, m) ∧ m.length = n.length ∧ ∀ j, j < i + 1 → m[j]? = some ' ' := by
  unfold matchStep
  have g1 : unwrapGet n i = .ok n[i] := by simp [unwrapGet, h]
  simp only [g1, bind, Except.bind, pure, Except.pure, if_true, List.length_set]
  have u1 : usub n.length (i + 1) = .ok (n.length - 1 - i) := by
    simp only [usub]; rw [if_pos (by omega)]; congr 1; omega
  have b1 : n.length - 1 - i < (n.set i ' ').length := by simp; omega
  have q1 : unwrapGet (n.set i ' ') (n.length - 1 - i) = .ok ((n.set i ' ')[n.length - 1 - i]) := by
    unfold unwrapGet; rw [List.getElem?_eq_getElem b1]
  simp only [u1, q1, if_true]
  refine ⟨_, rfl, by simp, fun j hj => ?_⟩
  have hjl : j < n.length := by omega
  rw [List.getElem?_set, List.getElem?_set]
  simp only [List.length_set]
  by_cases h1 : n.length - 1 - i = j
  · rw [if_pos h1, if_pos (by omega)]
  · rw [if_neg h1]
    by_cases h2 : i = j
    · rw [if_pos h2, if_pos (by omega)]
    · rw [if_neg h2]; exact hp j (by omega)

theorem matchLoop_self (k : Nat) : ∀ (i : Nat) (n : Str), n.length = i + k → n ≠ [] →
    (∀ j, j < i → n[j]? = some ' ') →
    ∃ m, matchLoop k i n n = .ok (m, m) ∧ ∀ c ∈ m, c = ' ' := by
  induction k with
  | zero =>
    intro i n hl _ hp
    refine ⟨n, rfl, fun c hc => ?_⟩
    obtain ⟨j, hj, rfl⟩ := List.mem_iff_getElem.mp hc
    have := hp j (by omega)
    rw [List.getElem?_eq_getElem hj] at this
    injection this
  | succ k ih =>
    intro i n hl hne hp
    rw [matchLoop_succ, if_neg (by omega)]
    obtain ⟨m, e, l, hm⟩ := matchStep_self (n := n) (i := i) (by omega) hp
    simp only [e, Except.bind]
    exact ih (i + 1) m (by omega) (by intro h; rw [h] at l; simp at l; omega) hm

theorem leftRight_self {c : Str} (h : c ≠ []) : leftRightProcessing c c = .ok 6 := by
  obtain ⟨m, e, hm⟩ := matchLoop_self c.length 0 c (by omega) h (by omega)
  have p1 : 0 < c.length := List.length_pos_iff.mpr h
  have u1 : usub c.length 1 = .ok (c.length - 1) := by unfold usub; rw [if_pos (by omega)]
  have hf : m.filter (· != ' ') = [] := by
    rw [List.filter_eq_nil_iff]; intro c hc; simp [hm c hc]
  unfold leftRightProcessing
  simp only [u1, e, bind, Except.bind, pure, Except.pure, hf]
  rfl

theorem leftRight_nil (c1 c2 : Str) (h : c1 = [] ∨ c2 = []) :
    leftRightProcessing c1 c2 = .error .overflow := by
  unfold leftRightProcessing
  rcases h with rfl | rfl
  · rfl
  · cases c1 with
    | nil => rfl
    | cons a c1 => simp [usub, bind, Except.bind]

theorem absDiff_comm (a b : Nat) : absDiff a b = absDiff b a := by
  unfold absDiff; split <;> split <;> omega

theorem getFirst3Last3_error {r : Str} {e : Panic} (h : getFirst3Last3 r = .error e) : e = .slice := by
  unfold getFirst3Last3 at h
  split at h
  · rw [slice_zero] at h
    cases ha : sliceTo r 3 with
    | error e' =>
      simp only [ha, bind, Except.bind, Except.error.injEq] at h
      unfold sliceTo at ha; split at ha <;> simp_all
    | ok a =>
      cases hb : sliceFrom r (byteLen r - 3) with
      | error e' =>
        simp only [ha, hb, bind, Except.bind, Except.error.injEq] at h
        unfold sliceFrom at hb; split at hb <;> simp_all
      | ok b => simp [ha, hb, bind, Except.bind, pure, Except.pure] at h
  · simp at h

/-! ### The rating -/

/-- `m1`, `m2` are the names `n1`, `n2` with the paired positions blanked. -/
structure Inv (n1 n2 : Str) (P : List (Nat × Nat)) (m1 m2 : Str) : Prop where
  len1 : m1.length = n1.length
  len2 : m2.length = n2.length
  get1 : ∀ i, i < n1.length → m1[i]? = if i ∈ P.map Prod.fst then some ' ' else n1[i]?
  get2 : ∀ i, i < n2.length → m2[i]? = if i ∈ P.map Prod.snd then some ' ' else n2[i]?
  count1 : (m1.filter (· != ' ')).length + P.length = n1.length
  count2 : (m2.filter (· != ' ')).length + P.length = n2.length

theorem filter_set_blank {l : Str} {p : Nat} {c : Char} (h : l[p]? = some c) (hc : c ≠ ' ') :
    ((l.set p ' ').filter (· != ' ')).length + 1 = (l.filter (· != ' ')).length := by
  induction l generalizing p with
  | nil => cases h
  | cons a l ih =>
    cases p with
    | zero =>
      simp only [List.getElem?_cons_zero, Option.some.injEq] at h
      subst h
      have h1 : (a != ' ') = true := by simpa using hc
      have e1 : (' ' :: l).filter (· != ' ') = l.filter (· != ' ') := List.filter_cons_of_neg (by decide)
      have e2 : (a :: l).filter (· != ' ') = a :: l.filter (· != ' ') := List.filter_cons_of_pos (by exact h1)
      rw [List.set_cons_zero, e1, e2]
      rfl
    | succ p =>
      simp only [List.getElem?_cons_succ] at h
      have := ih h
      simp only [List.set_cons_succ, List.filter_cons]
      split
      · rw [List.length_cons, List.length_cons]; omega
      · exact this

theorem set_blank_self {l : Str} {p : Nat} (h : l[p]? = some ' ') : l.set p ' ' = l := by
  apply List.ext_getElem?
  intro i
  rw [List.getElem?_set]
  split
  · subst_vars
    obtain ⟨hp, e⟩ := List.getElem?_eq_some_iff.mp h
    rw [if_pos hp, h]
  · rfl

theorem free_iff (P : List (Nat × Nat)) (p : Nat × Nat) :
    mraFree P p = true ↔ p.1 ∉ P.map Prod.fst ∧ p.2 ∉ P.map Prod.snd := by
  unfold mraFree
  rw [List.all_eq_true]
  simp only [Bool.and_eq_true, bne_iff_ne, ne_eq, List.mem_map, not_exists, not_and]
  constructor
  · intro h
    exact ⟨fun q hq e => (h q hq).1 e, fun q hq e => (h q hq).2 e⟩
  · rintro ⟨h1, h2⟩ q hq
    exact ⟨fun e => h1 q hq e, fun e => h2 q hq e⟩

theorem inv_pair {n1 n2 m1 m2 : Str} {P : List (Nat × Nat)} (hI : Inv n1 n2 P m1 m2) (b1 : ' ' ∉ n1) (b2 : ' ' ∉ n2)
    {p q : Nat} (hp : p < n1.length) (hq : q < n2.length) :
    Inv n1 n2 (mraPair n1 n2 (p, q) P)
      (if m1[p]? = m2[q]? then m1.set p ' ' else m1) (if m1[p]? = m2[q]? then m2.set q ' ' else m2) := by
  have g1 := hI.get1 p hp
  have g2 := hI.get2 q hq
  have e1 : n1[p]? = some n1[p] := List.getElem?_eq_getElem hp
  have e2 : n2[q]? = some n2[q] := List.getElem?_eq_getElem hq
  have c1 : n1[p] ≠ ' ' := fun e => b1 (e ▸ List.getElem_mem hp)
  have c2 : n2[q] ≠ ' ' := fun e => b2 (e ▸ List.getElem_mem hq)
  unfold mraPair
  by_cases t1 : p ∈ P.map Prod.fst
  · have hf : mraFree P (p, q) = false := by
      rw [Bool.eq_false_iff]; exact fun h => ((free_iff _ _).mp h).1 t1
    rw [hf]
    simp only [Bool.false_and, Bool.false_eq_true, if_false]
    rw [if_pos t1] at g1
    by_cases t2 : q ∈ P.map Prod.snd
    · rw [if_pos t2] at g2
      rw [g1, g2, if_pos rfl, if_pos rfl, set_blank_self g1, set_blank_self g2]
      exact hI
    · rw [if_neg t2, e2] at g2
      have hne : m1[p]? ≠ m2[q]? := by
        rw [g1, g2]; intro e; exact c2 (Option.some.inj e).symm
      rw [if_neg hne, if_neg hne]; exact hI
  · rw [if_neg t1, e1] at g1
    by_cases t2 : q ∈ P.map Prod.snd
    · have hf : mraFree P (p, q) = false := by
        rw [Bool.eq_false_iff]; exact fun h => ((free_iff _ _).mp h).2 t2
      rw [hf]
      simp only [Bool.false_and, Bool.false_eq_true, if_false]
      rw [if_pos t2] at g2
      have hne : m1[p]? ≠ m2[q]? := by
        rw [g1, g2]; intro e; exact c1 (Option.some.inj e)
      rw [if_neg hne, if_neg hne]; exact hI
    · have hf : mraFree P (p, q) = true := (free_iff _ _).mpr ⟨t1, t2⟩
      rw [if_neg t2, e2] at g2
      rw [hf, g1, g2]
      simp only [Bool.true_and, e1, e2]
      by_cases h : n1[p] = n2[q]
      · rw [if_pos (by simp [h]), if_pos (by rw [h]), if_pos (by rw [h])]
        refine ⟨by simp [hI.len1], by simp [hI.len2], fun i hi => ?_, fun i hi => ?_, ?_, ?_⟩
        · rw [List.getElem?_set]
          by_cases hip : p = i
          · subst hip; simp [hI.len1, hp]
          · rw [if_neg hip, hI.get1 i hi]
            have : i ≠ p := fun e => hip e.symm
            simp only [List.map_cons, List.mem_cons, this, false_or]
        · rw [List.getElem?_set]
          by_cases hip : q = i
          · subst hip; simp [hI.len2, hq]
          · rw [if_neg hip, hI.get2 i hi]
            have : i ≠ q := fun e => hip e.symm
            simp only [List.map_cons, List.mem_cons, this, false_or]
        · have := filter_set_blank g1 c1
          have := hI.count1
          have := @List.length_cons _ (p, q) P
          omega
        · have := filter_set_blank g2 c2
          have := hI.count2
          have := @List.length_cons _ (p, q) P
          omega
      · have h' : ¬ some n1[p] = some n2[q] := fun e => h (Option.some.inj e)
        rw [if_neg (by simpa using h), if_neg h', if_neg h']
        exact hI

theorem matchStep_inv {n1 n2 m1 m2 : Str} {i : Nat} (hI : Inv n1 n2 (mraMatches n1 n2 i) m1 m2) (b1 : ' ' ∉ n1)
    (b2 : ' ' ∉ n2) (h1 : i < n1.length) (h2 : i < n2.length) :
    ∃ k1 k2, matchStep m1 m2 i = .ok (k1, k2) ∧ Inv n1 n2 (mraMatches n1 n2 (i + 1)) k1 k2 := by
  have hA := inv_pair hI b1 b2 h1 h2
  have hl1 := hI.len1
  have hl2 := hI.len2
  have l1 : i < m1.length := by omega
  have l2 : i < m2.length := by omega
  have g1 : unwrapGet m1 i = .ok m1[i] := by simp [unwrapGet, l1]
  have g2 : unwrapGet m2 i = .ok m2[i] := by simp [unwrapGet, l2]
  have hq : (m1[i]? = m2[i]?) ↔ m1[i] = m2[i] := by
    rw [List.getElem?_eq_getElem l1, List.getElem?_eq_getElem l2]; simp
  unfold matchStep
  simp only [g1, g2, bind, Except.bind, pure, Except.pure]
  have hsplit : (if m1[i] = m2[i] then (m1.set i ' ', m2.set i ' ') else (m1, m2)) =
      (if m1[i]? = m2[i]? then m1.set i ' ' else m1, if m1[i]? = m2[i]? then m2.set i ' ' else m2) := by
    by_cases h : m1[i] = m2[i]
    · rw [if_pos h, if_pos (hq.mpr h), if_pos (hq.mpr h)]
    · rw [if_neg h, if_neg (fun e => h (hq.mp e)), if_neg (fun e => h (hq.mp e))]
  rw [hsplit]
  generalize (if m1[i]? = m2[i]? then m1.set i ' ' else m1) = k1 at hA
  generalize (if m1[i]? = m2[i]? then m2.set i ' ' else m2) = k2 at hA
  have r1 : n1.length - 1 - i < n1.length := by omega
  have r2 : n2.length - 1 - i < n2.length := by omega
  have hB := inv_pair hA b1 b2 r1 r2
  have q1 := hA.len1
  have q2 := hA.len2
  have u1 : usub k1.length (i + 1) = .ok (n1.length - 1 - i) := by
    simp only [usub]; rw [if_pos (by omega)]; congr 1; omega
  have u2 : usub k2.length (i + 1) = .ok (n2.length - 1 - i) := by
    simp only [usub]; rw [if_pos (by omega)]; congr 1; omega
  have s1 : n1.length - 1 - i < k1.length := by omega
  have s2 : n2.length - 1 - i < k2.length := by omega
  have v1 : unwrapGet k1 (n1.length - 1 - i) = .ok k1[n1.length - 1 - i] := by simp [unwrapGet, s1]
  have v2 : unwrapGet k2 (n2.length - 1 - i) = .ok k2[n2.length - 1 - i] := by simp [unwrapGet, s2]
  have hq' : (k1[n1.length - 1 - i]? = k2[n2.length - 1 - i]?) ↔ k1[n1.length - 1 - i] = k2[n2.length - 1 - i] := by
    rw [List.getElem?_eq_getElem s1, List.getElem?_eq_getElem s2]; simp
  simp only [u1, u2, v1, v2, hl1, hl2]
  by_cases h : k1[n1.length - 1 - i] = k2[n2.length - 1 - i]
  · rw [if_pos (hq'.mpr h), if_pos (hq'.mpr h)] at hB
    rw [if_pos h]
    exact ⟨_, _, rfl, hB⟩
  · rw [if_neg (fun e => h (hq'.mp e)), if_neg (fun e => h (hq'.mp e))] at hB
    rw [if_neg h]
    exact ⟨_, _, rfl, hB⟩

theorem matchLoop_inv {n1 n2 : Str} (b1 : ' ' ∉ n1) (b2 : ' ' ∉ n2) (hne : n2 ≠ []) (k : Nat) : ∀ (i : Nat) (m1 m2 : Str),
    n1.length = i + k → i ≤ n2.length → Inv n1 n2 (mraMatches n1 n2 i) m1 m2 →
    ∃ k1 k2, matchLoop k i m1 m2 = .ok (k1, k2) ∧
      Inv n1 n2 (mraMatches n1 n2 (min n1.length n2.length)) k1 k2 := by
  have hpos : 0 < n2.length := List.length_pos_iff.mpr hne
  induction k with
  | zero =>
    intro i m1 m2 h1 h2 hI
    refine ⟨m1, m2, rfl, ?_⟩
    rw [show min n1.length n2.length = i by omega]; exact hI
  | succ k ih =>
    intro i m1 m2 h1 h2 hI
    rw [matchLoop_succ]
    have hl2 := hI.len2
    by_cases hi : i > m2.length - 1
    · rw [if_pos hi]
      refine ⟨m1, m2, rfl, ?_⟩
      rw [show min n1.length n2.length = i by omega]; exact hI
    · rw [if_neg hi]
      obtain ⟨k1, k2, e, hI'⟩ := matchStep_inv hI b1 b2 (by omega) (by omega)
      obtain ⟨j1, j2, e', hI''⟩ := ih (i + 1) k1 k2 (by omega) (by omega) hI'
      refine ⟨j1, j2, ?_, hI''⟩
      simp only [e, Except.bind, e']

theorem leftRight_rating {c1 c2 : Str} (h1 : c1 ≠ []) (h2 : c2 ≠ []) (a1 : AsciiStr c1) (a2 : AsciiStr c2)
    (b1 : ' ' ∉ c1) (b2 : ' ' ∉ c2) (l1 : c1.length ≤ 6) (l2 : c2.length ≤ 6) :
    leftRightProcessing c1 c2 = .ok (mraRating c1 c2) := by
  have hI0 : Inv c1 c2 (mraMatches c1 c2 0) c1 c2 := by
    refine ⟨rfl, rfl, fun i _ => by simp [mraMatches], fun i _ => by simp [mraMatches], ?_, ?_⟩
    · rw [List.filter_eq_self.mpr]
      · simp [mraMatches]
      · intro c hc; simp only [bne_iff_ne, ne_eq]; rintro rfl; exact b1 hc
    · rw [List.filter_eq_self.mpr]
      · simp [mraMatches]
      · intro c hc; simp only [bne_iff_ne, ne_eq]; rintro rfl; exact b2 hc
  obtain ⟨k1, k2, e, hI⟩ := matchLoop_inv b1 b2 h2 c1.length 0 c1 c2 (by omega) (by omega) hI0
  have p1 : 0 < c1.length := List.length_pos_iff.mpr h1
  have p2 : 0 < c2.length := List.length_pos_iff.mpr h2
  have u1 : usub c1.length 1 = .ok (c1.length - 1) := by unfold usub; rw [if_pos (by omega)]
  have u2 : usub c2.length 1 = .ok (c2.length - 1) := by unfold usub; rw [if_pos (by omega)]
  have asc : ∀ (n k : Str) (S : List Nat), AsciiStr n → k.length = n.length →
      (∀ i, i < n.length → k[i]? = if i ∈ S then some ' ' else n[i]?) → AsciiStr (k.filter (· != ' ')) := by
    intro n k S hn hl hg c hc
    obtain ⟨hc, hb⟩ := List.mem_filter.mp hc
    obtain ⟨i, hi, rfl⟩ := List.mem_iff_getElem.mp hc
    have := hg i (by omega)
    rw [List.getElem?_eq_getElem hi] at this
    split at this
    · simp only [Option.some.injEq] at this; rw [this] at hb; exact absurd hb (by decide)
    · rw [List.getElem?_eq_getElem (by omega)] at this
      simp only [Option.some.injEq] at this
      rw [this]; exact hn _ (List.getElem_mem _)
  have z1 := byteLen_ascii (asc c1 k1 _ a1 hI.len1 hI.get1)
  have z2 := byteLen_ascii (asc c2 k2 _ a2 hI.len2 hI.get2)
  have n1 := hI.count1
  have n2 := hI.count2
  unfold leftRightProcessing
  simp only [u1, u2, e, bind, Except.bind, pure, Except.pure, z1, z2]
  unfold mraRating absDiff
  generalize (mraMatches c1 c2 (min c1.length c2.length)).length = n at *
  split
  all_goals (split <;> (congr 1; omega))

theorem alone_eq {n k : Str} {S : List Nat} (hb : ' ' ∉ n) (hl : k.length = n.length)
    (hg : ∀ i, i < n.length → k[i]? = if i ∈ S then some ' ' else n[i]?) : k.filter (· != ' ') = mraAlone n S := by
  have key : ∀ (n : Str) (o : Nat) (k : Str), ' ' ∉ n → k.length = n.length →
      (∀ i, i < n.length → k[i]? = if i + o ∈ S then some ' ' else n[i]?) →
      k.filter (· != ' ') = ((n.zipIdx o).filter fun p => !S.contains p.2).map fun p => p.1 := by
    intro n
    induction n with
    | nil => intro o k _ hl _; rw [List.length_eq_zero_iff.mp hl]; rfl
    | cons c n ih =>
      intro o k hb hl hg
      cases k with
      | nil => simp at hl
      | cons d k =>
        have h0 := hg 0 (by simp)
        simp only [List.getElem?_cons_zero, Nat.zero_add] at h0
        have hr := ih (o + 1) k (fun h => hb (by simp [h])) (by simpa using hl) (fun i hi => by
          have := hg (i + 1) (by simpa using hi)
          simpa [Nat.add_assoc, Nat.add_comm 1 o] using this)
        simp only [List.zipIdx_cons, List.filter_cons, hr]
        by_cases ho : o ∈ S
        · rw [if_pos ho] at h0
          injection h0 with h0
          simp [ho, h0]
        · rw [if_neg ho] at h0
          injection h0 with h0
          subst h0
          have : d ≠ ' ' := fun h => hb (by simp [h])
          simp [ho, this]
  exact key n 0 k hb hl hg

theorem byteLen_filter_le (p : Char → Bool) (s : Str) : byteLen (s.filter p) ≤ byteLen s := by
  induction s with
  | nil => simp [byteLen]
  | cons c s ih =>
    rw [List.filter_cons]
    split <;> simp only [byteLen] <;> omega

theorem byteLen_alone_le (n : Str) (S : List Nat) : byteLen (mraAlone n S) ≤ byteLen n := by
  have key : ∀ (n : Str) (o : Nat), byteLen (((n.zipIdx o).filter fun p => !S.contains p.2).map fun p => p.1) ≤ byteLen n := by
    intro n
    induction n with
    | nil => intro o; simp [byteLen]
    | cons c n ih =>
      intro o
      have := ih (o + 1)
      rw [List.zipIdx_cons, List.filter_cons]
      split <;> simp only [List.map_cons, byteLen] <;> omega
  exact key n 0

theorem leftRight_bytes {c1 c2 : Str} (h1 : c1 ≠ []) (h2 : c2 ≠ []) (b1 : ' ' ∉ c1) (b2 : ' ' ∉ c2)
    (l1 : byteLen c1 ≤ 6) (l2 : byteLen c2 ≤ 6) : leftRightProcessing c1 c2 = .ok (mraByteRating c1 c2) := by
  have hI0 : Inv c1 c2 (mraMatches c1 c2 0) c1 c2 := by
    refine ⟨rfl, rfl, fun i _ => by simp [mraMatches], fun i _ => by simp [mraMatches], ?_, ?_⟩
    · rw [List.filter_eq_self.mpr]
      · simp [mraMatches]
      · intro c hc; simp only [bne_iff_ne, ne_eq]; rintro rfl; exact b1 hc
    · rw [List.filter_eq_self.mpr]
      · simp [mraMatches]
      · intro c hc; simp only [bne_iff_ne, ne_eq]; rintro rfl; exact b2 hc
  obtain ⟨k1, k2, e, hI⟩ := matchLoop_inv b1 b2 h2 c1.length 0 c1 c2 (by omega) (by omega) hI0
  have p1 : 0 < c1.length := List.length_pos_iff.mpr h1
  have p2 : 0 < c2.length := List.length_pos_iff.mpr h2
  have u1 : usub c1.length 1 = .ok (c1.length - 1) := by unfold usub; rw [if_pos (by omega)]
  have u2 : usub c2.length 1 = .ok (c2.length - 1) := by unfold usub; rw [if_pos (by omega)]
  have z1 := alone_eq b1 hI.len1 hI.get1
  have z2 := alone_eq b2 hI.len2 hI.get2
  have y1 := byteLen_alone_le c1 ((mraMatches c1 c2 (min c1.length c2.length)).map fun p => p.1)
  have y2 := byteLen_alone_le c2 ((mraMatches c1 c2 (min c1.length c2.length)).map fun p => p.2)
  unfold leftRightProcessing
  simp only [u1, u2, e, bind, Except.bind, pure, Except.pure, z1, z2]
  unfold mraByteRating absDiff
  simp only
  generalize byteLen (mraAlone c1 _) = m at *
  generalize byteLen (mraAlone c2 _) = n at *
  split
  all_goals (split <;> (congr 1; omega))

end MraProofs

open MraProofs

/-- C20. The code of a name of at least two bytes (after trimming) is the reduced name, cut to its
first three and last three bytes when it is longer than six; `encode` panics exactly when such a cut
would fall inside a character. -/
theorem mra_encode_spec (U : Unicode) (s : Str) (h : 2 ≤ byteLen (U.trim s)) :
    (∀ code, MatchRating.encode U s = .ok code ↔ MraCut (mraReduced U s) code) ∧
    ((∃ e, MatchRating.encode U s = .error e) ↔ ¬ ∃ code, MraCut (mraReduced U s) code) := by
  rw [encode_long (show Long U s from h)]
  refine ⟨fun code => first3last3_ok _ _, ?_⟩
  cases hc : MatchRating.getFirst3Last3 (mraReduced U s) with
  | ok c =>
    have := (first3last3_ok _ _).mp hc
    simp only [reduceCtorEq, exists_false, false_iff]
    exact fun h => h ⟨c, this⟩
  | error e =>
    simp only [Except.error.injEq, exists_eq', true_iff]
    rintro ⟨c, hcut⟩
    rw [(first3last3_ok _ _).mpr hcut] at hc
    cases hc

/-- C20. No code is longer than six bytes; blank and one-byte names have the empty code. -/
theorem mra_code_short (U : Unicode) (s : Str) :
    (∀ code, MatchRating.encode U s = .ok code → byteLen code ≤ 6) ∧
    (byteLen (U.trim s) ≤ 1 → MatchRating.encode U s = .ok []) := by
  by_cases h : 2 ≤ byteLen (U.trim s)
  · exact ⟨fun code hc => cut_le_six (((mra_encode_spec U s h).1 code).mp hc), fun h' => by omega⟩
  · have := encode_short (U := U) (s := s) h
    refine ⟨fun code hc => ?_, fun _ => this⟩
    rw [this] at hc; cases hc; simp [byteLen]

/-- C20. `encode` never panics on ASCII names. -/
theorem mra_ascii_no_panic (U : Unicode) (s : Str) (h : AsciiStr s) :
    ∃ code, MatchRating.encode U s = .ok code ∧ AsciiStr code ∧ code.length ≤ 6 := by
  by_cases hl : 2 ≤ byteLen (U.trim s)
  · obtain ⟨code, h1, h2⟩ := cut_ascii (reduced_ascii U h)
    refine ⟨code, ((mra_encode_spec U s hl).1 code).mpr h1, h2, ?_⟩
    rw [← byteLen_ascii h2]; exact cut_le_six h1
  · exact ⟨[], encode_short hl, AsciiStr.nil, by simp⟩

example : mraReduced .latin1 c!"Smith-O'Brïen" = c!"SMTHBRN" ∧
    MatchRating.encode .latin1 c!"Smith-O'Brïen" = .ok c!"SMTBRN" := by decide +kernel

/-- C20. Outside ASCII, `encode` can panic. -/
theorem mra_encode_panics : MatchRating.encode .latin1 c!"BCßÞÞÞÞ" = .error .slice := by
  decide +kernel

/-- C21. The comparison is symmetric for all names (also in whether, and how, it panics). -/
theorem mra_compare_symm (U : Unicode) (a b : Str) :
    MatchRating.isEncodedEquals U a b = MatchRating.isEncodedEquals U b a := by
  rw [compare_eq, compare_eq]
  by_cases hl : Long U a ∧ Long U b
  · rw [if_neg (not_not_intro hl), if_neg (not_not_intro hl.symm)]
    by_cases hab : a = b
    · rw [if_pos hab, if_pos hab.symm]
    · rw [if_neg hab, if_neg (fun e => hab e.symm), encode_long hl.1, encode_long hl.2]
      cases h1 : MatchRating.getFirst3Last3 (mraReduced U a) with
      | error e =>
        have he := getFirst3Last3_error h1
        cases h2 : MatchRating.getFirst3Last3 (mraReduced U b) with
        | error e' =>
          have he' := getFirst3Last3_error h2
          simp [bind, Except.bind, he, he']
        | ok c2 => simp [bind, Except.bind]
      | ok c1 =>
        cases h2 : MatchRating.getFirst3Last3 (mraReduced U b) with
        | error e' => simp [bind, Except.bind]
        | ok c2 =>
          simp only [bind, Except.bind, pure, Except.pure]
          rw [absDiff_comm (byteLen c2), Nat.add_comm (byteLen c2)]
          split
          · rfl
          · by_cases hn : c1 = [] ∨ c2 = []
            · rw [leftRight_nil c1 c2 hn, leftRight_nil c2 c1 hn.symm]
            · simp only [not_or] at hn
              obtain ⟨n, e1, e2⟩ := leftRight_ok hn.1 hn.2
              rw [e1, e2]
  · rw [if_pos hl, if_pos (fun h => hl h.symm)]

/-- C21. A name of at least two bytes (after trimming) equals itself; the comparison is false when
either name is shorter, and when the two codes differ by three or more bytes in length. -/
theorem mra_compare_laws (U : Unicode) (a b : Str) :
    (2 ≤ byteLen (U.trim a) → MatchRating.isEncodedEquals U a a = .ok true) ∧
    (byteLen (U.trim a) < 2 ∨ byteLen (U.trim b) < 2 → MatchRating.isEncodedEquals U a b = .ok false) ∧
    (∀ ca cb, a ≠ b → MatchRating.encode U a = .ok ca → MatchRating.encode U b = .ok cb →
      byteLen ca + 3 ≤ byteLen cb ∨ byteLen cb + 3 ≤ byteLen ca →
      MatchRating.isEncodedEquals U a b = .ok false) := by
  refine ⟨fun h => ?_, fun h => ?_, fun ca cb hab ha hb hd => ?_⟩
  · rw [compare_eq, if_neg (not_not_intro ⟨h, h⟩), if_pos rfl]
  · rw [compare_eq, if_pos]
    rintro ⟨h1, h2⟩
    unfold Long at h1 h2
    omega
  · rw [compare_eq]
    split
    · rfl
    · rw [ha, hb]
      have : MatchRating.absDiff (byteLen ca) (byteLen cb) ≥ 3 := by
        unfold MatchRating.absDiff; split <;> omega
      simp only [bind, Except.bind, pure, Except.pure, this, if_true]

/-- C21. Two names with the same non-empty code are always reported equal. -/
theorem mra_compare_equal_codes (U : Unicode) (a b code : Str) (hne : code ≠ [])
    (ha : MatchRating.encode U a = .ok code) (hb : MatchRating.encode U b = .ok code) :
    MatchRating.isEncodedEquals U a b = .ok true := by
  have long : ∀ s, MatchRating.encode U s = .ok code → Long U s := by
    intro s hs
    apply Decidable.byContradiction
    intro hl
    rw [encode_short hl] at hs
    injection hs with hs
    exact hne hs.symm
  rw [compare_eq, if_neg (not_not_intro ⟨long a ha, long b hb⟩), ha, hb]
  split
  · rfl
  · have h1 : ¬ MatchRating.absDiff (byteLen code) (byteLen code) ≥ 3 := by
      unfold MatchRating.absDiff; rw [if_pos (by omega)]; omega
    have h2 : 6 ≥ MatchRating.getMinimumRating (byteLen code + byteLen code) := by
      unfold MatchRating.getMinimumRating; (repeat' split) <;> omega
    simp only [bind, Except.bind, pure, Except.pure, h1, if_false, leftRight_self hne]
    simp [h2]

example : MatchRating.encode .latin1 c!"Burns" = .ok c!"BRNS" ∧
    MatchRating.encode .latin1 c!"Bourne's" = .ok c!"BRNS" := by decide +kernel

example : MatchRating.isEncodedEquals .latin1 c!"Franciszek" c!"Frances" = .ok true ∧
    MatchRating.isEncodedEquals .latin1 c!"Karl" c!"Alessandro" = .ok false := by decide +kernel

/-- C22. The property "the comparison returns for every pair of ASCII names" is false of the code: a
name made only of removable punctuation has an empty code, and `len - 1` underflows (a panic with
overflow checks). -/
theorem mra_compare_panics :
    MatchRating.isEncodedEquals .latin1 c!"--" c!"ab" = .error .overflow := by decide +kernel

/-- C22. On ASCII names that contain at least one character other than white space and
`- & ' . ,` the comparison always returns; names made only of such characters can make the
code panic (`mra_compare_panics`). -/
theorem mra_compare_total (U : Unicode) (a b : Str) (ha : AsciiStr a) (hb : AsciiStr b)
    (pa : ∃ c ∈ a, mraPunct c = false ∧ isAsciiWs c = false)
    (pb : ∃ c ∈ b, mraPunct c = false ∧ isAsciiWs c = false) :
    ∃ r, MatchRating.isEncodedEquals U a b = .ok r := by
  have nonempty : ∀ s, AsciiStr s → (∃ c ∈ s, mraPunct c = false ∧ isAsciiWs c = false) →
      mraReduced U s ≠ [] := by
    rintro s hs ⟨c, hc, h1, h2⟩ hnil
    rw [reduced_eq_nil, strUpper_ascii U hs] at hnil
    have := hnil (asciiUpper c) (List.mem_map.mpr ⟨c, hc, rfl⟩)
    have hca := hs c hc
    rw [U.isWhitespace_ascii _ (isAscii_asciiUpper hca)] at this
    have key : ∀ c, isAscii c = true → (mraPunct (asciiUpper c) = mraPunct c ∧
        isAsciiWs (asciiUpper c) = isAsciiWs c) := by apply forall_ascii; decide +kernel
    rw [(key c hca).1, (key c hca).2, h1, h2] at this
    simp at this
  rw [compare_eq]
  split
  · exact ⟨_, rfl⟩
  · rename_i hl
    simp only [Classical.not_not] at hl
    split
    · exact ⟨_, rfl⟩
    · obtain ⟨c1, e1, _⟩ := mra_ascii_no_panic U a ha
      obtain ⟨c2, e2, _⟩ := mra_ascii_no_panic U b hb
      have n1 : c1 ≠ [] := by
        rintro rfl
        exact nonempty a ha pa (cut_nil (((mra_encode_spec U a hl.1).1 _).mp e1))
      have n2 : c2 ≠ [] := by
        rintro rfl
        exact nonempty b hb pb (cut_nil (((mra_encode_spec U b hl.2).1 _).mp e2))
      obtain ⟨n, e3, _⟩ := leftRight_ok n1 n2
      rw [e1, e2]
      simp only [bind, Except.bind, pure, Except.pure, e3]
      split <;> exact ⟨_, rfl⟩

example : (∃ c ∈ c!"O'Hara", mraPunct c = false ∧ isAsciiWs c = false) ∧ AsciiStr c!"O'Hara" := by
  decide +kernel

/-- C22. Exactly when the comparison panics, for names whose encoding returns (all ASCII names do,
`mra_ascii_no_panic`): the names are distinct and have at least two bytes after trimming, one of the
codes is empty and the other is shorter than three bytes. -/
theorem mra_compare_panic_iff (U : Unicode) (a b ca cb : Str)
    (ha : MatchRating.encode U a = .ok ca) (hb : MatchRating.encode U b = .ok cb) :
    (∃ e, MatchRating.isEncodedEquals U a b = .error e) ↔
      a ≠ b ∧ 2 ≤ byteLen (U.trim a) ∧ 2 ≤ byteLen (U.trim b) ∧
        ((ca = [] ∧ byteLen cb < 3) ∨ (cb = [] ∧ byteLen ca < 3)) := by
  rw [compare_eq]
  by_cases hl : Long U a ∧ Long U b
  · rw [if_neg (not_not_intro hl)]
    by_cases hab : a = b
    · rw [if_pos hab]; simp [hab]
    · rw [if_neg hab, ha, hb]
      simp only [bind, Except.bind, pure, Except.pure]
      have h2 : 2 ≤ byteLen (U.trim a) ∧ 2 ≤ byteLen (U.trim b) := hl
      by_cases hd : MatchRating.absDiff (byteLen ca) (byteLen cb) ≥ 3
      · rw [if_pos hd]
        simp only [reduceCtorEq, exists_false, false_iff]
        rintro ⟨_, _, _, ⟨rfl, h⟩ | ⟨rfl, h⟩⟩ <;>
          (unfold MatchRating.absDiff at hd; simp only [show byteLen [] = 0 from rfl] at hd; split at hd <;> omega)
      · rw [if_neg hd]
        by_cases hn : ca = [] ∨ cb = []
        · rw [leftRight_nil ca cb hn]
          simp only [Except.error.injEq, exists_eq', true_iff]
          refine ⟨hab, h2.1, h2.2, ?_⟩
          rcases hn with rfl | rfl
          · exact .inl ⟨rfl, by unfold MatchRating.absDiff at hd; simp only [show byteLen [] = 0 from rfl] at hd; split at hd <;> omega⟩
          · exact .inr ⟨rfl, by unfold MatchRating.absDiff at hd; simp only [show byteLen [] = 0 from rfl] at hd; split at hd <;> omega⟩
        · simp only [not_or] at hn
          obtain ⟨n, e, _⟩ := leftRight_ok hn.1 hn.2
          rw [e]
          simp only [reduceCtorEq, exists_false, false_iff]
          rintro ⟨_, _, _, h | h⟩
          · exact hn.1 h.1
          · exact hn.2 h.1
  · rw [if_pos hl]
    simp only [reduceCtorEq, exists_false, false_iff]
    rintro ⟨_, h1, h2, _⟩
    exact hl ⟨h1, h2⟩

example : MatchRating.encode .latin1 c!"--" = .ok [] ∧ MatchRating.encode .latin1 c!"ab" = .ok c!"AB" ∧
    MatchRating.encode .latin1 c!"Robert" = .ok c!"RBRT" ∧
    MatchRating.isEncodedEquals .latin1 c!"--" c!"Robert" = .ok false := by decide +kernel

theorem mra_compare_codes (U : Unicode) (a b ca cb : Str) (hne : a ≠ b)
    (ha : MatchRating.encode U a = .ok ca) (hb : MatchRating.encode U b = .ok cb)
    (na : ca ≠ []) (nb : cb ≠ []) (aa : AsciiStr ca) (ab : AsciiStr cb) (ba : ' ' ∉ ca) (bb : ' ' ∉ cb) :
    MatchRating.isEncodedEquals U a b = .ok (mraSimilar ca cb) := by
  have long : ∀ s c, c ≠ [] → MatchRating.encode U s = .ok c → Long U s := by
    intro s c hc hs
    apply Decidable.byContradiction
    intro hl
    rw [encode_short hl] at hs
    injection hs with hs
    exact hc hs.symm
  have la := byteLen_ascii aa
  have lb := byteLen_ascii ab
  have sa := (mra_code_short U a).1 ca ha
  have sb := (mra_code_short U b).1 cb hb
  have hm : ∀ n, MatchRating.getMinimumRating n = mraMinimum n := by
    intro n; unfold MatchRating.getMinimumRating mraMinimum
    (repeat' split) <;> first | rfl | omega
  rw [compare_eq, if_neg (not_not_intro ⟨long a ca na ha, long b cb nb hb⟩), if_neg hne, ha, hb]
  simp only [bind, Except.bind, pure, Except.pure, leftRight_rating na nb aa ab ba bb (by omega) (by omega), hm, la, lb]
  unfold mraSimilar MatchRating.absDiff
  split <;> split
  · congr 1; symm; rw [decide_eq_false_iff_not]; omega
  · congr 1; apply decide_eq_decide.mpr; omega
  · congr 1; symm; rw [decide_eq_false_iff_not]; omega
  · congr 1; apply decide_eq_decide.mpr; omega

/-- The code of an ASCII name has no blank in it. -/
theorem mra_code_no_blank (U : Unicode) {s code : Str} (h : AsciiStr s) (hc : MatchRating.encode U s = .ok code) :
    ' ' ∉ code := by
  intro hm
  by_cases hl : 2 ≤ byteLen (U.trim s)
  · have hcut := ((mra_encode_spec U s hl).1 code).mp hc
    have hr : ' ' ∈ mraReduced U s := by
      rcases hcut with ⟨_, rfl⟩ | ⟨_, x, m, y, e, _, _, rfl⟩
      · exact hm
      · rw [e]; simp only [List.mem_append] at hm ⊢; rcases hm with h | h <;> simp [h]
    unfold mraReduced at hr
    have h1 := pairs_subset _ hr
    rw [strUpper_ascii U (fun c hc => clean_ascii U h c (skeleton_subset _ hc))] at h1
    obtain ⟨c, hc1, hc2⟩ := List.mem_map.mp h1
    have hcl := skeleton_subset _ hc1
    have hca := clean_ascii U h c hcl
    have key : ∀ c, isAscii c = true → asciiUpper c = ' ' → isAsciiWs c = true ∧ c = ' ' := by
      apply forall_ascii; decide +kernel
    have hws := (key c hca hc2).2
    subst hws
    unfold mraClean at hcl
    obtain ⟨d, hd, e⟩ := List.mem_map.mp hcl
    obtain ⟨hd1, hd2⟩ := List.mem_filter.mp hd
    have hda : isAscii d = true := by
      rw [strUpper_ascii U h] at hd1
      obtain ⟨x, hx, rfl⟩ := List.mem_map.mp hd1
      exact isAscii_asciiUpper (h x hx)
    rw [plain_ascii hda] at e
    subst e
    rw [U.isWhitespace_ascii _ hda] at hd2
    exact absurd hd2 (by decide)
  · rw [encode_short hl] at hc
    injection hc with hc
    rw [← hc] at hm; cases hm

/-- C65. The comparison of two distinct ASCII names with non-empty codes says whether the codes are
similar: their lengths differ by at most two, and six minus the number of letters of the longer code
that the greedy matching leaves alone reaches the minimum rating of the total length. -/
theorem mra_compare_spec (U : Unicode) (a b ca cb : Str) (ha : AsciiStr a) (hb : AsciiStr b) (hne : a ≠ b)
    (ea : MatchRating.encode U a = .ok ca) (eb : MatchRating.encode U b = .ok cb) (na : ca ≠ []) (nb : cb ≠ []) :
    MatchRating.isEncodedEquals U a b = .ok (mraSimilar ca cb) := by
  obtain ⟨c1, e1, a1, _⟩ := mra_ascii_no_panic U a ha
  obtain ⟨c2, e2, a2, _⟩ := mra_ascii_no_panic U b hb
  obtain rfl : ca = c1 := Except.ok.inj (ea.symm.trans e1)
  obtain rfl : cb = c2 := Except.ok.inj (eb.symm.trans e2)
  exact mra_compare_codes U a b ca cb hne ea eb na nb a1 a2 (mra_code_no_blank U ha ea) (mra_code_no_blank U hb eb)

example : MatchRating.encode .latin1 c!"Smith" = .ok c!"SMTH" ∧ MatchRating.encode .latin1 c!"Smyth" = .ok c!"SMYTH" ∧
    mraRating c!"SMTH" c!"SMYTH" = 5 ∧
    mraSimilar c!"SMTH" c!"SMYTH" = true ∧ mraSimilar c!"KRL" c!"ALSNDR" = false := by decide +kernel

/-- C65. On every alphabet: the comparison of two distinct names with non-empty codes, neither of which contains a blank,
says whether the codes are similar when lengths are counted in bytes. -/
theorem mra_compare_any (U : Unicode) (a b ca cb : Str) (hne : a ≠ b)
    (ea : MatchRating.encode U a = .ok ca) (eb : MatchRating.encode U b = .ok cb) (na : ca ≠ []) (nb : cb ≠ [])
    (ba : ' ' ∉ ca) (bb : ' ' ∉ cb) : MatchRating.isEncodedEquals U a b = .ok (mraByteSimilar ca cb) := by
  have long : ∀ s c, c ≠ [] → MatchRating.encode U s = .ok c → Long U s := by
    intro s c hc hs
    apply Decidable.byContradiction
    intro hl
    rw [encode_short hl] at hs
    injection hs with hs
    exact hc hs.symm
  have sa := (mra_code_short U a).1 ca ea
  have sb := (mra_code_short U b).1 cb eb
  have hm : ∀ n, MatchRating.getMinimumRating n = mraMinimum n := by
    intro n; unfold MatchRating.getMinimumRating mraMinimum
    (repeat' split) <;> first | rfl | omega
  rw [compare_eq, if_neg (not_not_intro ⟨long a ca na ea, long b cb nb eb⟩), if_neg hne, ea, eb]
  simp only [bind, Except.bind, pure, Except.pure, leftRight_bytes na nb ba bb sa sb, hm]
  unfold mraByteSimilar MatchRating.absDiff
  split <;> split
  · congr 1; symm; rw [decide_eq_false_iff_not]; omega
  · congr 1; apply decide_eq_decide.mpr; omega
  · congr 1; symm; rw [decide_eq_false_iff_not]; omega
  · congr 1; apply decide_eq_decide.mpr; omega

/-- C65, not vacuous beyond ASCII: Ø and Ł keep their two bytes, and a letter of two bytes weighs two in the rating. -/
example : MatchRating.encode .latin1 c!"Bjørn" = .ok c!"BJØRN" ∧ MatchRating.encode .latin1 c!"Bjorn" = .ok c!"BJRN" ∧
    mraByteRating c!"BJØRN" c!"BJRN" = 4 ∧ mraRating c!"BJØRN" c!"BJRN" = 5 ∧
    MatchRating.isEncodedEquals .latin1 c!"Bjørn" c!"Bjorn" = .ok true := by decide +kernel

/-- C22. Exactly when the comparison panics, on every alphabet: the names are distinct and have at least two bytes after
trimming, and the cut of one of the reduced names would fall inside a letter, or one of the names reduces to nothing and
the other to less than three bytes. -/
theorem mra_compare_panic_any (U : Unicode) (a b : Str) :
    (∃ e, MatchRating.isEncodedEquals U a b = .error e) ↔
      a ≠ b ∧ 2 ≤ byteLen (U.trim a) ∧ 2 ≤ byteLen (U.trim b) ∧
        ((¬ ∃ code, MraCut (mraReduced U a) code) ∨ (¬ ∃ code, MraCut (mraReduced U b) code) ∨
          (mraReduced U a = [] ∧ byteLen (mraReduced U b) < 3) ∨ (mraReduced U b = [] ∧ byteLen (mraReduced U a) < 3)) := by
  by_cases hl : Long U a ∧ Long U b
  · obtain ⟨la, lb⟩ := hl
    have whole : ∀ {r : Str} {code : Str}, MraCut r code → (code = [] ↔ r = []) ∧ (byteLen code < 3 ↔ byteLen r < 3) := by
      rintro r code (⟨_, rfl⟩ | ⟨hr, x, m, y, e, hx, hy, rfl⟩)
      · exact ⟨Iff.rfl, Iff.rfl⟩
      · have : byteLen (x ++ y) = 6 := by rw [byteLen_append]; omega
        refine ⟨⟨fun h => ?_, fun h => ?_⟩, by omega⟩
        · rw [h] at this; simp [byteLen] at this
        · rw [h] at hr; simp [byteLen] at hr
    have sa := mra_encode_spec U a la
    have sb := mra_encode_spec U b lb
    by_cases hab : a = b
    · subst hab
      rw [compare_eq, if_neg (not_not_intro ⟨la, lb⟩), if_pos rfl]
      simp
    · cases ea : MatchRating.encode U a with
      | error e =>
        have hn := sa.2.mp ⟨e, ea⟩
        rw [compare_eq, if_neg (not_not_intro ⟨la, lb⟩), if_neg hab, ea]
        exact ⟨fun _ => ⟨hab, la, lb, Or.inl hn⟩, fun _ => ⟨_, rfl⟩⟩
      | ok ca =>
        cases eb : MatchRating.encode U b with
        | error e =>
          have hn := sb.2.mp ⟨e, eb⟩
          rw [compare_eq, if_neg (not_not_intro ⟨la, lb⟩), if_neg hab, ea, eb]
          exact ⟨fun _ => ⟨hab, la, lb, Or.inr (Or.inl hn)⟩, fun _ => ⟨_, rfl⟩⟩
        | ok cb =>
          have ha := (sa.1 ca).mp ea
          have hb := (sb.1 cb).mp eb
          rw [mra_compare_panic_iff U a b ca cb ea eb, (whole ha).1, (whole ha).2, (whole hb).1, (whole hb).2]
          constructor
          · rintro ⟨h1, h2, h3, h4⟩
            exact ⟨h1, h2, h3, Or.inr (Or.inr h4)⟩
          · rintro ⟨h1, h2, h3, h4 | h4 | h4⟩
            · exact absurd ⟨ca, ha⟩ h4
            · exact absurd ⟨cb, hb⟩ h4
            · exact ⟨h1, h2, h3, h4⟩
  · rw [compare_eq, if_pos hl]
    simp only [reduceCtorEq, exists_false, false_iff]
    rintro ⟨_, h1, h2, _⟩
    exact hl ⟨h1, h2⟩

/-- C22, not vacuous: both kinds of panic. -/
example : mraReduced .latin1 c!"--" = [] ∧ byteLen (mraReduced .latin1 c!"ab") < 3 ∧
    mraReduced .latin1 c!"BCßÞÞÞÞ" = c!"BCSÞÞÞÞ" ∧
    MatchRating.isEncodedEquals .latin1 c!"--" c!"ab" = .error .overflow ∧
    MatchRating.isEncodedEquals .latin1 c!"BCßÞÞÞÞ" c!"ab" = .error .slice := by decide +kernel

end Verif.Props
