import Verif.Props.CodesMatchRating
import Verif.Props.CaverphoneSpec
import Verif.Props.CodesPhonex
import Verif.Props.Cologne
import Verif.Proofs.DoubledDaitchMokotoff
import Verif.Props.BeginningPhonex
import Verif.Props.CodesDaitchMokotoff
import Verif.Props.Soundex
/-!
# C107: a code that is encoded again

Codes are made of letters and digits; the digits are not letters, so an encoder that is given its own code ignores them.
-/
namespace Verif.Props
open Verif.Spec
set_option linter.unusedSimpArgs false

namespace AgainProofs

theorem codeOf_entry (m : Mapping) (c : Char) : codeOf m.val c = '0' ∨ codeOf m.val c ∈ m.val := by
  unfold codeOf
  rw [List.getD_eq_getElem?_getD]
  cases h : m.val[c.toNat - 'A'.toNat]? with
  | none => exact .inl rfl
  | some x => exact .inr (List.mem_of_getElem? h)

theorem asciiLetters_code {f : Char} {ds : Str} (hf : isAsciiUpper f = true) (hd : ∀ d ∈ ds, isAsciiAlpha d = false) :
    asciiLetters (f :: ds) = [f] := by
  have h1 : ∀ c, isAscii c = true → isAsciiUpper c = true → isAsciiAlpha c = true ∧ asciiUpper c = c := by
    apply forall_ascii; decide +kernel
  have h2 := h1 f (isAscii_of_upper hf) hf
  have h3 : ds.filter isAsciiAlpha = [] := List.filter_eq_nil_iff.mpr fun x hx => by simp [hd x hx]
  simp [asciiLetters, List.filter_cons, h2.1, h3, h2.2]

theorem collapse_sub (w : Str) : ∀ x ∈ collapse w, x ∈ w := by
  induction w using collapse.induct with
  | case1 => simp [collapse]
  | case2 a => simp [collapse]
  | case3 b r ih =>
    intro x hx
    rw [collapse, if_pos rfl] at hx
    exact List.mem_cons_of_mem _ (ih x hx)
  | case4 a b r h ih =>
    intro x hx
    rw [collapse, if_neg h] at hx
    rcases List.mem_cons.mp hx with rfl | hx
    · simp
    · exact List.mem_cons_of_mem _ (ih x hx)

theorem pairs_length (w : Str) : (mraPairs w).length ≤ w.length := by
  induction w using mraPairs.induct with
  | case1 => simp [mraPairs]
  | case2 a => simp [mraPairs]
  | case3 a b r h ih => rw [mraPairs, if_pos h]; simp; omega
  | case4 a b r h ih => rw [mraPairs, if_neg h]; simp at ih ⊢; omega

theorem pairs_eq_self (w : Str) : mraPairs w = w ↔
    ¬ ∃ a b c, w = a ++ [c, c] ++ b ∧ c ∈ c!"BCDFGHJKLMNPQRSTVWXYZ" := by
  induction w using mraPairs.induct with
  | case1 => simp [mraPairs]
  | case2 a =>
    simp only [mraPairs, true_iff]
    rintro ⟨u, v, c, h, -⟩
    have := congrArg List.length h
    simp at this
    omega
  | case3 a b r h ih =>
    obtain ⟨rfl, hc⟩ := h
    rw [mraPairs, if_pos ⟨rfl, hc⟩]
    constructor
    · intro h
      have := pairs_length r
      have e := congrArg List.length h
      simp at e
      omega
    · intro h
      exact absurd ⟨[], r, a, rfl, List.contains_iff_mem.mp hc⟩ h
  | case4 a b r h ih =>
    rw [mraPairs, if_neg h]
    simp only [List.cons.injEq, true_and]
    rw [ih]
    refine not_congr ?_
    constructor
    · rintro ⟨u, v, c, e, hc⟩
      exact ⟨a :: u, v, c, by rw [e]; rfl, hc⟩
    · rintro ⟨u, v, c, e, hc⟩
      cases u with
      | nil =>
        simp only [List.nil_append, List.cons_append, List.cons.injEq] at e
        obtain ⟨rfl, rfl, -⟩ := e
        exact absurd ⟨rfl, List.contains_iff_mem.mpr hc⟩ h
      | cons x u =>
        simp only [List.cons_append, List.cons.injEq] at e
        exact ⟨u, v, c, by simpa using e.2, hc⟩

end AgainProofs
open AgainProofs

/-- C107. Soundex, for every table of ASCII characters that are not letters (such as the two tables of the crate): the code of a
code is its letter followed by three zeros. -/
theorem soundex_again (U : Unicode) (sx : Soundex) (ht : ∀ c ∈ sx.mapping.val, isAscii c = true ∧ isAsciiAlpha c = false)
    (s code : Str) (hs : AsciiStr s) (h : sx.encode U s = .ok code) :
    sx.encode U code = .ok (if code = [] then [] else code.take 1 ++ c!"000") := by
  rw [soundex_ascii U sx s hs] at h
  injection h with h
  have hup := asciiLetters_upper (s := s)
  cases hl : asciiLetters s with
  | nil =>
    rw [hl] at h
    subst h
    rw [soundex_ascii U sx _ (by simp [AsciiStr, soundex])]
    rfl
  | cons f r =>
    rw [hl] at h hup
    subst h
    have hf : isAsciiUpper f = true := hup f (by simp)
    have dig : ∀ d ∈ three (soundexDigits sx.mapping.val sx.specialCaseHW f r), isAscii d = true ∧ isAsciiAlpha d = false := by
      intro d hd
      have hd := List.mem_of_mem_take hd
      rw [List.mem_append] at hd
      rcases hd with hd | hd
      · unfold soundexDigits at hd
        have hd := collapse_sub _ _ (List.mem_of_mem_drop (List.mem_filter.mp hd).1)
        have : ∃ c, d = codeOf sx.mapping.val c := by
          rcases List.mem_cons.mp hd with rfl | hd
          · exact ⟨f, rfl⟩
          · obtain ⟨c, -, rfl⟩ := List.mem_map.mp (List.mem_filter.mp hd).1
            exact ⟨c, rfl⟩
        obtain ⟨c, rfl⟩ := this
        rcases codeOf_entry sx.mapping c with h0 | h0
        · rw [h0]; decide
        · exact ht _ h0
      · have : ∀ d ∈ c!"000", isAscii d = true ∧ isAsciiAlpha d = false := by decide
        exact this d hd
    have hasc : AsciiStr (soundex sx.mapping.val sx.specialCaseHW (f :: r)) := by
      intro c hc
      rcases List.mem_cons.mp hc with rfl | hc
      · exact isAscii_of_upper hf
      · exact (dig c hc).1
    rw [soundex_ascii U sx _ hasc]
    have e : asciiLetters (soundex sx.mapping.val sx.specialCaseHW (f :: r)) = [f] :=
      asciiLetters_code hf fun d hd => (dig d hd).2
    rw [e]
    simp [soundex, soundexDigits, collapse, three]

example : (∀ c ∈ defaultMapping.val, isAscii c = true ∧ isAsciiAlpha c = false) ∧
    (∀ c ∈ genealogyMapping.val, isAscii c = true ∧ isAsciiAlpha c = false) ∧
    Soundex.default.encode .latin1 c!"Robert" = .ok c!"R163" ∧ Soundex.default.encode .latin1 c!"R163" = .ok c!"R000" := by
  decide +kernel

/-- C107. So a name and its code are "encoded equals" only if the code has no digits but zeros. -/
theorem soundex_own_code (U : Unicode) (sx : Soundex) (ht : ∀ c ∈ sx.mapping.val, isAscii c = true ∧ isAsciiAlpha c = false)
    (s code : Str) (hs : AsciiStr s) (h : sx.encode U s = .ok code) :
    isEncodedEquals (sx.encode U) s code = .ok (decide (code = [] ∨ code.drop 1 = c!"000")) := by
  unfold isEncodedEquals
  rw [h, soundex_again U sx ht s code hs h]
  show Except.ok _ = Except.ok _
  congr 1
  cases code with
  | nil => rfl
  | cons c r =>
    simp only [List.take_succ_cons, List.take_zero, List.cons_append, List.nil_append, List.drop_succ_cons, List.drop_zero,
      reduceCtorEq, if_false, false_or, List.cons_beq_cons, beq_self_eq_true, Bool.true_and]
    rw [Bool.eq_iff_iff]
    simp

/-- C107. Refined Soundex: the code of a code is its letter and the digit of that letter. -/
theorem refined_soundex_again (U : Unicode) (rs : RefinedSoundex)
    (ht : ∀ c ∈ rs.mapping.val, isAscii c = true ∧ isAsciiAlpha c = false)
    (s code : Str) (hs : AsciiStr s) (h : rs.encode U s = .ok code) : rs.encode U code = .ok (code.take 2) := by
  rw [refinedSoundex_ascii U rs s hs] at h
  injection h with h
  have hup := asciiLetters_upper (s := s)
  cases hl : asciiLetters s with
  | nil =>
    rw [hl] at h
    subst h
    rw [refinedSoundex_ascii U rs _ (by simp [AsciiStr, refinedSoundex])]
    rfl
  | cons f r =>
    rw [hl] at h hup
    subst h
    have hf : isAsciiUpper f = true := hup f (by simp)
    have dig : ∀ d ∈ collapse ((f :: r).map (codeOf rs.mapping.val)), isAscii d = true ∧ isAsciiAlpha d = false := by
      intro d hd
      obtain ⟨c, -, rfl⟩ := List.mem_map.mp (collapse_sub _ _ hd)
      rcases codeOf_entry rs.mapping c with h0 | h0
      · rw [h0]; decide
      · exact ht _ h0
    have hasc : AsciiStr (refinedSoundex rs.mapping.val (f :: r)) := by
      intro c hc
      rcases List.mem_cons.mp hc with rfl | hc
      · exact isAscii_of_upper hf
      · exact (dig c hc).1
    rw [refinedSoundex_ascii U rs _ hasc]
    have e : asciiLetters (refinedSoundex rs.mapping.val (f :: r)) = [f] :=
      asciiLetters_code hf fun d hd => (dig d hd).2
    rw [e]
    obtain ⟨t, ht⟩ := collapse_head (codeOf rs.mapping.val f) (r.map (codeOf rs.mapping.val))
    show Except.ok _ = Except.ok _
    congr 1
    rw [refinedSoundex, refinedSoundex, List.map_cons, List.map_cons, ht]
    simp [collapse]

example : RefinedSoundex.default.encode .latin1 c!"Testing" = .ok c!"T6036084" ∧
    RefinedSoundex.default.encode .latin1 c!"T6036084" = .ok c!"T6" := by decide +kernel

/-- C107. Cologne: a code has no code. -/
theorem cologne_again (U : Unicode) (s : Str) : Cologne.encode U (Cologne.encode U s) = [] := by
  have hd := (cologne_shape U s).1
  generalize Cologne.encode U s = code at hd
  rw [cologne_empty_iff]
  have hasc : AsciiStr code := by
    have : ∀ d ∈ c!"012345678", isAscii d = true := by decide
    exact fun c hc => this c (hd c hc)
  have hw : cologneWord U code = code := by
    unfold cologneWord
    rw [strUpper_ascii U hasc]
    have : ∀ d ∈ c!"012345678", unUmlaut (asciiUpper d) = d := by decide +kernel
    rw [List.map_map]
    exact (List.map_congr_left fun c hc => this c (hd c hc)).trans (List.map_id _)
  rw [hw]
  intro c hc hu
  have : ∀ d ∈ c!"012345678", isAsciiUpper d = false := by decide +kernel
  rw [this c (hd c hc)] at hu
  cases hu

example : Cologne.encode .latin1 c!"Müller" = c!"657" ∧ Cologne.encode .latin1 c!"657" = [] := by decide +kernel

/-- C107. Phonex: the code of a code is its letter followed by zeros; for S and H, and for a name without a code, only
zeros remain. -/
theorem phonex_again (U : Unicode) (n : Nat) (h2 : 2 ≤ n) (hn : n < 2 ^ 63) (s code : Str) (hs : AsciiStr s)
    (h : (Phonex.new n).encode U s = .ok code) :
    ∃ c r, code = c :: r ∧ (Phonex.new n).encode U code =
      .ok ((if c = 'S' ∨ c = 'H' ∨ c = '0' then '0' else c) :: List.replicate (n - 1) '0') := by
  have hcode := (phonex_codes U n h2 hn code).mp ⟨s, hs, h⟩
  obtain ⟨m, rfl⟩ : ∃ m, n = m + 1 := ⟨n - 1, by omega⟩
  have dl : ∀ d ∈ c!"0123456", isAscii d = true ∧ isAsciiAlpha d = false := by decide +kernel
  rcases hcode with rfl | ⟨f, ds, k, hf, hd, -, hl, rfl⟩
  · have hasc : AsciiStr (List.replicate (m + 1) '0') := by
      intro c hc; rw [(List.mem_replicate.mp hc).2]; rfl
    refine ⟨'0', List.replicate m '0', rfl, ?_⟩
    rw [LocalProofs.phonex_exactly U _ h2 hn _ hasc, letters_ascii U hasc]
    have e : asciiLetters (List.replicate (m + 1) '0') = [] := by
      unfold asciiLetters
      rw [List.filter_eq_nil_iff.mpr]
      · rfl
      · intro c hc; rw [(List.mem_replicate.mp hc).2]; decide
    rw [e]
    simp [phonex, phonexPrepare, dropFinalS, exactly, List.replicate_succ]
  · have hcap : ∀ f ∈ c!"ABCDFGHLMNRSTWX", isAsciiUpper f = true := by decide +kernel
    have dig : ∀ d ∈ ds ++ List.replicate k '0', isAscii d = true ∧ isAsciiAlpha d = false := by
      intro d hm
      rcases List.mem_append.mp hm with hm | hm
      · have : ∀ d ∈ c!"123456", isAscii d = true ∧ isAsciiAlpha d = false := by decide +kernel
        exact this d (hd d hm)
      · rw [(List.mem_replicate.mp hm).2]; decide
    have hasc : AsciiStr (f :: (ds ++ List.replicate k '0')) := by
      intro c hc
      rcases List.mem_cons.mp hc with rfl | hc
      · exact isAscii_of_upper (hcap _ hf)
      · exact (dig c hc).1
    refine ⟨f, ds ++ List.replicate k '0', rfl, ?_⟩
    rw [List.cons_append, LocalProofs.phonex_exactly U _ h2 hn _ hasc, letters_ascii U hasc,
      asciiLetters_code (hcap f hf) fun d hd => (dig d hd).2]
    have one : ∀ f ∈ c!"ABCDFGHLMNRSTWX", phonex [f] = if f = 'S' ∨ f = 'H' ∨ f = '0' then [] else [f] := by decide +kernel
    rw [one f hf]
    simp only [Nat.add_sub_cancel]
    split
    · simp [exactly, List.replicate_succ]
    · simp [exactly]

example : (Phonex.new 4).encode .latin1 c!"Peter" = .ok c!"B360" ∧ (Phonex.new 4).encode .latin1 c!"B360" = .ok c!"B000" ∧
    (Phonex.new 4).encode .latin1 c!"Zoe" = .ok c!"S000" ∧ (Phonex.new 4).encode .latin1 c!"S000" = .ok c!"0000" := by
  decide +kernel

open DaitchMokotoff in
/-- C107. Daitch-Mokotoff with the embedded rules, for text in any alphabet: the code of a code, or of a list of codes, is
`000000`. -/
theorem dm_again (U : Unicode) (s : Str) : ∃ code codes, defaultEncoder.encode U s = .ok code ∧
    defaultEncoder.soundex U s = .ok codes ∧ defaultEncoder.encode U code = .ok c!"000000" ∧
    defaultEncoder.soundex U codes = .ok c!"000000" := by
  have skip : ∀ (br : Bool) (w : Str) (bs : List Branch), (∀ c ∈ w, defaultEncoder.rules.get? c = none) →
      loop defaultEncoder br w 0 '\x00' bs = .ok bs := by
    intro br w bs hw
    induction w with
    | nil => rfl
    | cons c w ih =>
      rw [loop, hw c (by simp)]
      exact ih fun x hx => hw x (by simp [hx])
  have none : ∀ c ∈ c!"0123456789|", isAscii c = true ∧ defaultEncoder.rules.get? (asciiLower c) = none := by decide +kernel
  have zero : ∀ (br : Bool) (w : Str), (∀ c ∈ w, c ∈ c!"0123456789|") → defaultEncoder.innerSoundex U w br = .ok [c!"000000"] := by
    intro br w hw
    unfold innerSoundex
    rw [DMKProofs.clean_ascii U (fun c hc => (none c (hw c hc)).1)]
    rw [skip]
    · rfl
    · intro c hc
      obtain ⟨x, hx, rfl⟩ := List.mem_map.mp hc
      exact (none x (hw x (List.mem_filter.mp hx).1)).2
  have dig : ∀ c, isAscii c = true → isAsciiDigit c = true → c ∈ c!"0123456789|" := by apply forall_ascii; decide +kernel
  have asc : ∀ c, isAsciiDigit c = true → isAscii c = true := by
    intro c hc
    simp only [isAsciiDigit, isAscii, Bool.and_eq_true, decide_eq_true_eq] at hc ⊢
    omega
  obtain ⟨one, h1, hne, hd1⟩ := dm_default_digits U s false
  obtain ⟨all, h2, -, hd2⟩ := dm_default_digits U s true
  have e1 : defaultEncoder.encode U s = .ok (one.head?.getD []) := by unfold encode; rw [h1]; rfl
  have e2 : defaultEncoder.soundex U s = .ok ((all.intersperse c!"|").flatten) := by unfold DaitchMokotoff.soundex; rw [h2]; rfl
  refine ⟨_, _, e1, e2, ?_, ?_⟩
  · unfold encode
    rw [zero]
    · rfl
    · intro c hc
      cases one with
      | nil => exact absurd rfl hne
      | cons a r =>
        have := (hd1 a (by simp)).2 c (by simpa using hc)
        exact dig c (asc c this) this
  · unfold DaitchMokotoff.soundex
    rw [zero]
    · rfl
    · intro c hc
      obtain ⟨w, hw, hc⟩ := List.mem_flatten.mp hc
      have : ∀ (l : List Str) (x : Str), x ∈ l.intersperse c!"|" → x ∈ l ∨ x = c!"|" := by
        intro l
        induction l using List.intersperse.induct with
        | case1 => simp
        | case2 a => simp
        | case3 a b r ih => 
          intro x hx
          simp only [List.intersperse, List.mem_cons] at hx ih ⊢
          grind
      rcases this all w hw with hw | rfl
      · have := (hd2 w hw).2 c hc
        exact dig c (asc c this) this
      · simp only [List.mem_singleton] at hc
        subst hc
        decide

example : DaitchMokotoff.defaultEncoder.encode .latin1 c!"Moskowitz" = .ok c!"645740" ∧
    DaitchMokotoff.defaultEncoder.encode .latin1 c!"645740" = .ok c!"000000" := by decide +kernel

open CodeProofs MraProofs in
/-- C107. Match Rating: a code of one character has no code; any other code only loses one letter of every pair of equal
consonants. -/
theorem mra_again (U : Unicode) (s code : Str) (hs : AsciiStr s) (h : MatchRating.encode U s = .ok code) :
    MatchRating.encode U code = .ok (if code.length = 1 then [] else mraPairs code) := by
  obtain ⟨hl, hc, hv⟩ := (mra_codes U code).mp ⟨s, hs, h⟩
  have hasc : AsciiStr code := fun c h => (hc c h).1
  have hkeep : mraAsciiKept code = code := by
    unfold mraAsciiKept
    have hc' : ∀ c ∈ code, MraChar c := hc
    rw [List.filter_eq_self.mpr, upper_chars hc']
    intro c hm
    rw [(mraChar_upper (hc' c hm)).2, (hc c hm).2.2.1]
    rfl
  have htrim : U.trim code = code := by
    have hws : ∀ c ∈ code, U.isWhitespace c = false := fun c h => by
      rw [U.isWhitespace_ascii c (hc c h).1]; exact (hc c h).2.2.1
    have drop : ∀ w : Str, (∀ c ∈ w, U.isWhitespace c = false) → w.dropWhile U.isWhitespace = w := by
      intro w hw
      cases w with
      | nil => rfl
      | cons a r => rw [List.dropWhile_cons_of_neg]; simp [hw a (by simp)]
    unfold Unicode.trim
    rw [drop code hws, drop code.reverse (fun c h => hws c (List.mem_reverse.mp h)), List.reverse_reverse]
  have hb : byteLen code = code.length := byteLen_ascii hasc
  by_cases h1 : code.length ≤ 1
  · rw [encode_short]
    · congr 1
      cases code with
      | nil => rfl
      | cons a r => cases r with
        | nil => rfl
        | cons b r => simp at h1
    · intro hlong
      have : 2 ≤ byteLen (U.trim code) := hlong
      rw [htrim, hb] at this
      omega
  · have hlong : 2 ≤ byteLen (U.trim code) := by rw [htrim, hb]; omega
    rw [if_neg (by omega)]
    refine ((mra_encode_spec U code hlong).1 _).mpr (.inl ?_)
    have hsk : mraSkeleton code = code := by
      have low : ∀ c, isAscii c = true → isAsciiLower c = false → c ∉ c!"AEIOU" → c!"AEIOUaeiou".contains c = false := by
        apply forall_ascii; decide +kernel
      unfold mraSkeleton
      rw [List.filter_eq_self.mpr, List.take_append_drop]
      intro c hm
      have hm' := List.mem_of_mem_drop hm
      rw [low c (hc c hm').1 (hc c hm').2.1 (hv c hm)]
      rfl
    rw [reduced_kept U code hasc, hkeep, hsk]
    refine ⟨?_, rfl⟩
    rw [byteLen_ascii fun c h => hasc c (pairs_subset _ h)]
    exact Nat.le_trans (pairs_length code) hl

/-- C107. So a code of Match Rating is its own code exactly if it does not have exactly one character and no consonant is
followed by itself. -/
theorem mra_fixed (U : Unicode) (s code : Str) (hs : AsciiStr s) (h : MatchRating.encode U s = .ok code) :
    MatchRating.encode U code = .ok code ↔ code.length ≠ 1 ∧
      ¬ ∃ a b c, code = a ++ [c, c] ++ b ∧ c ∈ c!"BCDFGHJKLMNPQRSTVWXYZ" := by
  rw [mra_again U s code hs h, ← pairs_eq_self]
  constructor
  · intro h
    injection h with h
    by_cases h1 : code.length = 1
    · rw [if_pos h1] at h
      rw [← h] at h1
      cases h1
    · rw [if_neg h1] at h
      exact ⟨h1, h⟩
  · rintro ⟨h1, h2⟩
    rw [if_neg h1, h2]

example : MatchRating.encode .latin1 c!"Smith" = .ok c!"SMTH" ∧ MatchRating.encode .latin1 c!"SMTH" = .ok c!"SMTH" ∧
    MatchRating.encode .latin1 c!"Lee" = .ok c!"L" ∧ MatchRating.encode .latin1 c!"L" = .ok [] ∧
    MatchRating.encode .latin1 c!"Bcdcddfg" = .ok c!"BCDDFG" ∧ MatchRating.encode .latin1 c!"BCDDFG" = .ok c!"BCDFG" := by
  decide +kernel

namespace AgainProofs
open Spec.Caverphone

/-- The consonants that are always heard. -/
abbrev stops : Str := c!"fkmnpst"

theorem sounds_stops (v : Version) (rest : Str) (hr : ∀ c ∈ rest, c ∈ stops) (last : Str) (hl : last = [] ∨ last = c!"a") :
    ∀ before : Str, soundsFrom v before (rest ++ last) =
      (rest.map fun c => Sound.letter (asciiUpper c)) ++ soundsFrom v (before ++ rest) last := by
  induction rest with
  | nil => intro before; simp
  | cons c rest ih =>
    intro before
    have hc := hr c (by simp)
    have ih := ih (fun x hx => hr x (by simp [hx])) (before ++ [c])
    rw [List.cons_append, soundsFrom, ih, List.map_cons, List.cons_append, List.append_assoc, List.cons_append, List.nil_append]
    congr 1
    have hn : ∀ (x : Char) (w : Str), x ∉ c!"afkmnpst" → starts (rest ++ last) [x :: w] = false := by
      intro x w hx
      cases rest with
      | nil =>
        rcases hl with rfl | rfl
        · rfl
        · have : x ≠ 'a' := fun e => hx (by simp [e])
          simp [starts, List.isPrefixOf, this]
      | cons y rest =>
        have hy := hr y (by simp)
        have : x ≠ y := fun e => hx (by subst e; exact List.mem_cons_of_mem _ hy)
        simp [starts, List.isPrefixOf, this]
    have h1 : starts (rest ++ last) [c!"h"] = false := hn _ _ (by decide)
    have h2 : starts (rest ++ last) [c!"ch"] = false := hn _ _ (by decide)
    have h3 : starts (rest ++ last) [c!"io", c!"ia"] = false := by
      have a := hn 'i' c!"o" (by decide)
      have b := hn 'i' c!"a" (by decide)
      simp only [starts, List.any_cons, List.any_nil, Bool.or_false] at a b ⊢
      rw [a, b]; rfl
    simp only [stops, List.mem_cons, List.not_mem_nil, or_false] at hc
    rcases hc with rfl | rfl | rfl | rfl | rfl | rfl | rfl <;> simp [sound, h1, h2, h3] <;> decide

theorem once_stops (rest : Str) (hd : NoAdjacentDup rest) (tail : List Sound)
    (ht : ∀ x ∈ tail.head?, x ∉ c!"STPKFMN".map Sound.letter) (hr : ∀ c ∈ rest, c ∈ c!"FKMNPST") :
    once (rest.map Sound.letter ++ tail) = rest.map Sound.letter ++ once tail := by
  induction rest with
  | nil => rfl
  | cons a rest ih =>
    cases rest with
    | nil =>
      cases tail with
      | nil => rfl
      | cons t tail =>
        simp only [List.map_cons, List.map_nil, List.cons_append, List.nil_append, once]
        rw [if_neg]
        rintro ⟨rfl, h⟩
        exact ht _ rfl h
    | cons b rest =>
      obtain ⟨hab, hd⟩ := hd
      have ih := ih hd fun c hc => hr c (by simp [hc])
      simp only [List.map_cons, List.cons_append] at ih ⊢
      rw [once, if_neg (by rintro ⟨h, -⟩; exact hab (Sound.letter.inj h)), ih]

theorem once_A (l : List Sound) : once (.letter 'A' :: l) = .letter 'A' :: once l := by
  cases l with
  | nil => rfl
  | cons b l => rw [once, if_neg]; rintro ⟨-, h⟩; revert h; decide

theorem written_letters (w : Str) : (w.map Sound.letter).flatMap written = w := by
  induction w with
  | nil => rfl
  | cons c w ih => rw [List.map_cons, List.flatMap_cons, ih]; rfl

/-- The sounds of a text of such consonants, perhaps after and before an a. -/
theorem heard_stops (v : Version) (first rest last : Str) (hf : first = [] ∨ first = c!"A")
    (hr : ∀ c ∈ rest, c ∈ c!"FKMNPST") (hd : NoAdjacentDup rest) (hl : last = [] ∨ last = c!"A") (h0 : first ++ rest ≠ []) :
    once (soundsFrom v [] ((first ++ rest ++ last).map asciiLower)) =
      (first ++ rest).map Sound.letter ++ last.map fun _ => Sound.vowel := by
  have low : ∀ c ∈ c!"FKMNPST", asciiLower c ∈ stops ∧ asciiUpper (asciiLower c) = c := by decide +kernel
  have hr' : ∀ c ∈ rest.map asciiLower, c ∈ stops := by
    intro c hc
    obtain ⟨x, hx, rfl⟩ := List.mem_map.mp hc
    exact (low x (hr x hx)).1
  have hl' : last.map asciiLower = [] ∨ last.map asciiLower = c!"a" := by
    rcases hl with rfl | rfl
    · exact .inl rfl
    · exact .inr (by decide)
  have hm : ((rest.map asciiLower).map fun c => Sound.letter (asciiUpper c)) = rest.map Sound.letter := by
    rw [List.map_map]
    exact List.map_congr_left fun c hc => congrArg Sound.letter (low c (hr c hc)).2
  have hs := sounds_stops v _ hr' _ hl'
  have tail : ∀ before : Str, before ≠ [] → soundsFrom v before (last.map asciiLower) = last.map fun _ => Sound.vowel := by
    intro before hb
    rcases hl with rfl | rfl
    · rfl
    · show [sound v before [] 'a'] = _
      simp [sound, hb]
  have ot : once (last.map fun _ => Sound.vowel) = last.map fun _ => Sound.vowel := by rcases hl with rfl | rfl <;> rfl
  have hh : ∀ x ∈ (last.map fun _ => Sound.vowel).head?, x ∉ c!"STPKFMN".map Sound.letter := by
    rcases hl with rfl | rfl
    · simp
    · simp
  have main := once_stops rest hd (last.map fun _ => Sound.vowel) hh hr
  rcases hf with rfl | rfl
  · have hne : rest ≠ [] := by simpa using h0
    rw [List.nil_append, List.map_append, hs, hm, tail _ (by simpa using hne), main, ot]
  · rw [List.map_append, List.map_append, List.append_assoc]
    show once (soundsFrom v [] ('a' :: (rest.map asciiLower ++ last.map asciiLower))) = _
    rw [soundsFrom, hs, hm, tail _ (by simp)]
    show once (.letter 'A' :: _) = _
    rw [once_A, main, ot]
    rfl

theorem caps_letters (first rest last : Str) (k : Nat) (hf : first = [] ∨ first = c!"A")
    (hr : ∀ c ∈ rest, c ∈ c!"FKMNPST") (hl : last = [] ∨ last = c!"A") :
    AsciiStr (first ++ rest ++ last ++ List.replicate k '1') ∧
      asciiLetters (first ++ rest ++ last ++ List.replicate k '1') = first ++ rest ++ last := by
  have caps : ∀ c ∈ first ++ rest ++ last, c ∈ c!"AFKMNPST" := by
    intro c hc
    simp only [List.mem_append] at hc
    rcases hc with (hc | hc) | hc
    · rcases hf with rfl | rfl
      · cases hc
      · rw [List.mem_singleton.mp hc]; decide
    · exact List.mem_cons_of_mem _ (hr c hc)
    · rcases hl with rfl | rfl
      · cases hc
      · rw [List.mem_singleton.mp hc]; decide
  generalize first ++ rest ++ last = w at caps
  have facts : ∀ c ∈ c!"AFKMNPST", isAscii c = true ∧ isAsciiAlpha c = true ∧ asciiUpper c = c := by decide +kernel
  constructor
  · intro c hc
    rcases List.mem_append.mp hc with hc | hc
    · exact (facts c (caps c hc)).1
    · rw [(List.mem_replicate.mp hc).2]; decide
  · unfold asciiLetters
    rw [List.filter_append, List.filter_eq_self.mpr fun c hc => (facts c (caps c hc)).2.1, List.filter_eq_nil_iff.mpr,
      List.append_nil]
    · exact (List.map_congr_left fun c hc => (facts c (caps c hc)).2.2).trans (List.map_id _)
    · intro c hc; rw [(List.mem_replicate.mp hc).2]; decide

theorem fill_code (w : Str) (k n : Nat) (h : w.length + k = n) : cutOrFill n w = w ++ List.replicate k '1' := by
  unfold cutOrFill
  rw [List.take_append, List.take_of_length_le (by omega), List.take_replicate]
  congr 2
  omega

end AgainProofs

open Spec.Caverphone in
/-- C107. Caverphone 1: a code of the letters F, K, M, N, P, S and T, perhaps after an A, is its own code if no two
neighbours are equal. -/
theorem caverphone1_fixed (U : Unicode) (first rest : Str) (k : Nat) (hf : first = [] ∨ first = c!"A")
    (hr : ∀ c ∈ rest, c ∈ c!"FKMNPST") (hd : NoAdjacentDup rest) (hk : (first ++ rest).length + k = 6) :
    Caverphone1.encode U (first ++ rest ++ List.replicate k '1') = .ok (first ++ rest ++ List.replicate k '1') := by
  have hl := caps_letters first rest [] k hf hr (.inl rfl)
  simp only [List.append_nil] at hl
  rw [(caverphone_spec_ascii U _ hl.1).1, hl.2]
  congr 1
  rw [← fill_code (first ++ rest) k 6 hk]
  congr 1
  show ((once (soundsFrom .v1 [] ((first ++ rest).map asciiLower))).flatMap Spec.Caverphone.written) = _
  by_cases h0 : first ++ rest = []
  · rw [h0]; rfl
  · have := heard_stops .v1 first rest [] hf hr hd (.inl rfl) h0
    rw [List.append_nil] at this
    rw [this, List.map_nil, List.append_nil, written_letters]

open Spec.Caverphone in
/-- C107. Caverphone 2: the same, and the code may end in A. -/
theorem caverphone2_fixed (U : Unicode) (first rest last : Str) (k : Nat) (hf : first = [] ∨ first = c!"A")
    (hr : ∀ c ∈ rest, c ∈ c!"FKMNPST") (hd : NoAdjacentDup rest) (hl : last = [] ∨ last = c!"A")
    (hk : (first ++ rest ++ last).length + k = 10) :
    Caverphone2.encode U (first ++ rest ++ last ++ List.replicate k '1') = .ok (first ++ rest ++ last ++ List.replicate k '1') := by
  have hc := caps_letters first rest last k hf hr hl
  rw [(caverphone_spec_ascii U _ hc.1).2, hc.2]
  congr 1
  rw [← fill_code (first ++ rest ++ last) k 10 hk]
  congr 1
  by_cases h0 : first ++ rest = []
  · rw [h0]
    rcases hl with rfl | rfl <;> decide +kernel
  · have := heard_stops .v2 first rest last hf hr hd hl h0
    have hnil : asciiLetters (first ++ rest ++ last) = first ++ rest ++ last := by
      have := (caps_letters first rest last 0 hf hr hl).2
      simpa using this
    have he : ((first ++ rest ++ last).map asciiLower).getLast? ≠ some 'e' := by
      intro he
      have hm := List.mem_of_getLast? he
      obtain ⟨x, hx, e⟩ := List.mem_map.mp hm
      have : x ∈ c!"AFKMNPST" := by
        simp only [List.mem_append] at hx
        rcases hx with (hx | hx) | hx
        · rcases hf with rfl | rfl
          · cases hx
          · rw [List.mem_singleton.mp hx]; decide
        · exact List.mem_cons_of_mem _ (hr x hx)
        · rcases hl with rfl | rfl
          · cases hx
          · rw [List.mem_singleton.mp hx]; decide
      have no : ∀ x ∈ c!"AFKMNPST", asciiLower x ≠ 'e' := by decide +kernel
      exact no x this e
    unfold code
    simp only [if_neg he, this]
    have hfil : ((first ++ rest).map Sound.letter ++ last.map fun _ => Sound.vowel).filter (fun x => decide (x ≠ .silent)) =
        (first ++ rest).map Sound.letter ++ last.map fun _ => Sound.vowel := by
      refine List.filter_eq_self.mpr ?_
      intro x hx
      rcases List.mem_append.mp hx with hx | hx
      · obtain ⟨c, -, rfl⟩ := List.mem_map.mp hx; rfl
      · obtain ⟨c, -, rfl⟩ := List.mem_map.mp hx; rfl
    rw [hfil]
    rcases hl with rfl | rfl
    · simp only [List.map_nil, List.append_nil, written_letters]
      rw [if_neg, List.append_nil]
      intro h
      obtain ⟨c, -, e⟩ := List.mem_map.mp (List.mem_of_getLast? h)
      cases e
    · simp only [List.map_cons, List.map_nil, List.flatMap_append, written_letters, List.getLast?_concat, if_true]
      simp [Spec.Caverphone.written]

example : Caverphone1.encode .latin1 c!"Evans" = .ok c!"AFNS11" ∧ Caverphone1.encode .latin1 c!"AFNS11" = .ok c!"AFNS11" ∧
    Caverphone2.encode .latin1 c!"Gough" = .ok c!"KA11111111" ∧
    Caverphone2.encode .latin1 c!"KA11111111" = .ok c!"KA11111111" := by decide +kernel

/-- C107. The codes of these algorithms can change when they are encoded again. -/
theorem others_again :
    (Nysiis.default.encode .latin1 c!"Richards" = .ok c!"RACARD" ∧ Nysiis.default.encode .latin1 c!"RACARD" = .ok c!"RACAD") ∧
    (Metaphone.default.encode .latin1 c!"Thumb" = .ok c!"0M" ∧ Metaphone.default.encode .latin1 c!"0M" = .ok c!"M") ∧
    (Caverphone1.encode .latin1 c!"Lee" = .ok c!"L11111" ∧ Caverphone1.encode .latin1 c!"L11111" = .ok c!"111111") ∧
    (Caverphone2.encode .latin1 c!"Tata" = .ok c!"TTA1111111" ∧ Caverphone2.encode .latin1 c!"TTA1111111" = .ok c!"TA11111111") := by
  decide +kernel

end Verif.Props
