import Verif.Props.CodesSoundex
import Verif.Props.Letters
/-!
# C93: which strings are codes (Match Rating)
-/

set_option linter.unusedSimpArgs false

namespace Verif.Props
open Spec

namespace CodeProofs
open MraProofs

/-- The characters of a Match Rating code. -/
def MraChar (c : Char) : Prop := isAscii c = true ∧ isAsciiLower c = false ∧ isAsciiWs c = false ∧ c ∉ c!"-&'.,"

theorem mraChar_upper {c : Char} (h : MraChar c) : asciiUpper c = c ∧ mraPunct c = false := by
  have k : ∀ c, isAscii c = true → isAsciiLower c = false → asciiUpper c = c := by apply forall_ascii; decide +kernel
  refine ⟨k c h.1 h.2.1, ?_⟩
  unfold mraPunct
  have := h.2.2.2
  rw [← List.contains_iff_mem] at this
  simpa using this

theorem kept_chars (s : Str) (hs : AsciiStr s) : ∀ c ∈ mraAsciiKept s, MraChar c := by
  intro c hc
  unfold mraAsciiKept at hc
  obtain ⟨d, hd, rfl⟩ := List.mem_map.mp hc
  obtain ⟨h1, h2⟩ := List.mem_filter.mp hd
  have k : ∀ d, isAscii d = true → (!mraPunct d && !isAsciiWs d) = true →
      isAscii (asciiUpper d) = true ∧ isAsciiLower (asciiUpper d) = false ∧ isAsciiWs (asciiUpper d) = false ∧
        asciiUpper d ∉ c!"-&'.," := by apply forall_ascii; decide +kernel
  exact k d (hs d h1) h2

theorem upper_chars {w : Str} (h : ∀ c ∈ w, MraChar c) : w.map asciiUpper = w := by
  induction w with
  | nil => rfl
  | cons a r ih =>
    rw [List.map_cons, (mraChar_upper (h a (by simp))).1, ih fun c hc => h c (by simp [hc])]

theorem pairs_cons (a : Char) (r : Str) : ∃ t, mraPairs (a :: r) = a :: t ∧ t ⊆ r := by
  match r with
  | [] => exact ⟨[], rfl, List.Subset.refl _⟩
  | b :: r =>
    unfold mraPairs
    split
    · exact ⟨_, rfl, fun x hx => List.mem_cons_of_mem _ (pairs_subset _ hx)⟩
    · exact ⟨_, rfl, pairs_subset _⟩

theorem reduced_kept (U : Unicode) (s : Str) (hs : AsciiStr s) :
    mraReduced U s = mraPairs (mraSkeleton (mraAsciiKept s)) := by
  have h : ∀ c ∈ mraSkeleton (mraAsciiKept s), MraChar c := fun c hc => kept_chars s hs c (skeleton_subset _ hc)
  unfold mraReduced
  rw [mraClean_ascii U hs, strUpper_ascii U fun c hc => (h c hc).1, upper_chars h]

/-- A name with the code: consonants are doubled. -/
def mraWord (code : Str) : Str :=
  code.flatMap fun c => if c!"BCDFGHJKLMNPQRSTVWXYZ".contains c then [c, c] else [c]

theorem pairs_word (code : Str) : mraPairs (mraWord code) = code := by
  induction code with
  | nil => rfl
  | cons c r ih =>
    have e : mraWord (c :: r) = (if c!"BCDFGHJKLMNPQRSTVWXYZ".contains c then [c, c] else [c]) ++ mraWord r := by
      simp [mraWord]
    rw [e]
    by_cases hc : c!"BCDFGHJKLMNPQRSTVWXYZ".contains c = true
    · rw [if_pos hc]
      show mraPairs (c :: c :: mraWord r) = _
      rw [mraPairs, if_pos ⟨rfl, hc⟩, ih]
    · rw [if_neg hc]
      show mraPairs (c :: mraWord r) = _
      cases hw : mraWord r with
      | nil => rw [hw] at ih; rw [← ih]; rfl
      | cons b t =>
        rw [hw] at ih
        rw [mraPairs, if_neg (fun h => hc h.2), ih]

theorem word_mem {code : Str} {c : Char} (h : c ∈ mraWord code) : c ∈ code := by
  obtain ⟨d, hd, hc⟩ := List.mem_flatMap.mp h
  split at hc <;> simp only [List.mem_cons, List.not_mem_nil, or_false, or_self] at hc <;> subst hc <;> exact hd

theorem skeleton_word (code : Str) (h : ∀ c ∈ code, MraChar c) (hv : ∀ c ∈ code.drop 1, c ∉ c!"AEIOU") :
    mraSkeleton (mraWord code) = mraWord code := by
  cases code with
  | nil => rfl
  | cons c r =>
    simp only [List.drop_one, List.tail_cons] at hv
    have low : ∀ c, isAscii c = true → isAsciiLower c = false → c ∉ c!"AEIOU" → c ∉ c!"AEIOUaeiou" := by
      apply forall_ascii; decide +kernel
    have key : ∀ x ∈ (mraWord (c :: r)).drop 1, c!"AEIOUaeiou".contains x = false := by
      have e : mraWord (c :: r) = (if c!"BCDFGHJKLMNPQRSTVWXYZ".contains c then [c, c] else [c]) ++ mraWord r := by
        simp [mraWord]
      intro x hx
      have : x ∉ c!"AEIOUaeiou" := by
        rw [e] at hx
        have hr : x ∈ mraWord r → x ∉ c!"AEIOUaeiou" := by
          intro hm
          have hm := word_mem hm
          have hx := h x (by simp [hm])
          exact low x hx.1 hx.2.1 (hv x hm)
        split at hx
        · rename_i hc
          simp only [List.cons_append, List.nil_append, List.drop_one, List.tail_cons, List.mem_cons] at hx
          rcases hx with rfl | hx
          · have : ∀ c ∈ c!"BCDFGHJKLMNPQRSTVWXYZ", c ∉ c!"AEIOUaeiou" := by decide +kernel
            exact this _ (List.contains_iff_mem.mp hc)
          · exact hr hx
        · simp only [List.cons_append, List.nil_append, List.drop_one, List.tail_cons] at hx
          exact hr hx
      rw [← List.contains_iff_mem] at this
      simpa using this
    unfold mraSkeleton
    rw [List.filter_eq_self.mpr (fun x hx => by rw [key x hx]; rfl), List.take_append_drop]

end CodeProofs

open CodeProofs MraProofs

/-- C93. The Match Rating codes of ASCII names are exactly the strings of the shape `MatchRatingCode`. -/
theorem mra_codes (U : Unicode) (code : Str) :
    (∃ s, AsciiStr s ∧ MatchRating.encode U s = .ok code) ↔ MatchRatingCode code := by
  constructor
  · rintro ⟨s, hs, h⟩
    obtain ⟨c', hc', ha, hl⟩ := mra_ascii_no_panic U s hs
    obtain rfl := Except.ok.inj (hc'.symm.trans h)
    by_cases hlong : 2 ≤ byteLen (U.trim s)
    · have hcut := ((mra_encode_spec U s hlong).1 c').mp h
      rw [reduced_kept U s hs] at hcut
      have hchars : ∀ c ∈ mraPairs (mraSkeleton (mraAsciiKept s)), MraChar c :=
        fun c hc => kept_chars s hs c (skeleton_subset _ (pairs_subset _ hc))
      have htail : ∀ c ∈ (mraPairs (mraSkeleton (mraAsciiKept s))).drop 1, c ∉ c!"AEIOU" := by
        cases hk : mraAsciiKept s with
        | nil => simp [mraSkeleton, mraPairs]
        | cons a r =>
          have e : mraSkeleton (a :: r) = a :: r.filter fun c => !c!"AEIOUaeiou".contains c := rfl
          rw [e]
          obtain ⟨t, ht, hsub⟩ := pairs_cons a (r.filter fun c => !c!"AEIOUaeiou".contains c)
          rw [ht]
          intro c hc
          simp only [List.drop_one, List.tail_cons] at hc
          have := (List.mem_filter.mp (hsub hc)).2
          intro hv
          have k : ∀ c ∈ c!"AEIOU", c!"AEIOUaeiou".contains c = true := by decide
          rw [k c hv] at this
          cases this
      generalize mraPairs (mraSkeleton (mraAsciiKept s)) = r at *
      refine ⟨hl, ?_, ?_⟩
      · rcases hcut with ⟨_, rfl⟩ | ⟨_, a, m, b, rfl, _, _, rfl⟩
        · exact hchars
        · intro c hc
          refine hchars c ?_
          simp only [List.mem_append] at hc ⊢
          rcases hc with h | h <;> simp [h]
      · rcases hcut with ⟨_, rfl⟩ | ⟨_, a, m, b, rfl, h3, _, rfl⟩
        · exact htail
        · cases a with
          | nil => simp [byteLen] at h3
          | cons x a =>
            intro c hc
            refine htail c ?_
            simp only [List.cons_append, List.drop_one, List.tail_cons, List.mem_append] at hc ⊢
            rcases hc with h | h <;> simp [h]
    · rw [encode_short hlong] at h
      obtain rfl := Except.ok.inj h
      exact ⟨by simp, by simp, by simp⟩
  · rintro ⟨hl, hc, hv⟩
    have hc : ∀ c ∈ code, MraChar c := hc
    have hword : ∀ c ∈ mraWord code, MraChar c := fun c h => hc c (word_mem h)
    have hasc : AsciiStr (mraWord code ++ c!".") := by
      rw [asciiStr_append]
      exact ⟨fun c h => (hword c h).1, by decide⟩
    by_cases h0 : code = []
    · subst h0
      refine ⟨[], AsciiStr.nil, encode_short ?_⟩
      unfold Long
      simp [Unicode.trim, byteLen]
    · refine ⟨mraWord code ++ c!".", hasc, ?_⟩
      have hne : mraWord code ≠ [] := by
        intro h
        apply h0
        rw [← pairs_word code, h]; rfl
      have htrim : 2 ≤ byteLen (U.trim (mraWord code ++ c!".")) := by
        have hw : ∀ c ∈ mraWord code ++ c!".", U.isWhitespace c = false := by
          intro c h
          rw [U.isWhitespace_ascii c (hasc c h)]
          rcases List.mem_append.mp h with h | h
          · exact (hword c h).2.2.1
          · have : ∀ c ∈ c!".", isAsciiWs c = false := by decide
            exact this c h
        have ht : U.trim (mraWord code ++ c!".") = mraWord code ++ c!"." := by
          unfold Unicode.trim
          have dw : ∀ l : Str, (∀ c ∈ l, U.isWhitespace c = false) → l.dropWhile U.isWhitespace = l := by
            intro l hl
            cases l with
            | nil => rfl
            | cons a r => rw [List.dropWhile_cons, hl a (by simp)]; rfl
          rw [dw _ hw, dw _ (fun c h => hw c (List.mem_reverse.mp h)), List.reverse_reverse]
        rw [ht, byteLen_ascii hasc]
        have := List.length_pos_iff.mpr hne
        simp only [List.length_append, List.length_cons, List.length_nil]
        omega
      rw [(mra_encode_spec U _ htrim).1 code, reduced_kept U _ hasc]
      have hk : mraAsciiKept (mraWord code ++ c!".") = mraWord code := by
        unfold mraAsciiKept
        rw [List.filter_append, List.filter_eq_self.mpr]
        · have : (c!".").filter (fun c => !mraPunct c && !isAsciiWs c) = [] := by decide
          rw [this, List.append_nil, upper_chars hword]
        · intro c h
          have := hword c h
          rw [(mraChar_upper this).2, this.2.2.1]; rfl
      rw [hk, skeleton_word code hc hv, pairs_word]
      exact Or.inl ⟨by rw [byteLen_ascii fun c h => (hc c h).1]; exact hl, rfl⟩

example : MatchRatingCode c!"ABB1" := ⟨by decide, by decide, by decide⟩

end Verif.Props
