import Verif.Proofs.Str
import Verif.Model.CharSequence
/-!
# Properties of `CharSequence` (C40)
-/

namespace Verif.Props
open CharSequence

theorem charIndices_drop (off n : Nat) (s : Str) :
    (charIndicesFrom off s).drop n = charIndicesFrom (off + byteLen (s.take n)) (s.drop n) := by
  induction s generalizing off n with
  | nil => simp [charIndicesFrom]
  | cons c cs ih =>
    cases n with
    | zero => simp [charIndicesFrom, byteLen]
    | succ n => simp [charIndicesFrom, byteLen, ih, Nat.add_assoc]

/-- C40. Indexing a `CharSequence` by a range of *character* positions returns exactly the
characters at these positions, on every string (however many bytes its characters take), and never
panics; out-of-range and inverted ranges give what is left of them, possibly the empty string. -/
theorem charSequence_range (s : Str) (a b : Nat) :
    (ofStr s).indexRange a b = .ok ((s.drop a).take (b - a)) := by
  unfold indexRange ofStr
  simp only [charIndices_drop, Nat.zero_add]
  by_cases hab : b > a
  · rw [if_pos hab]
    have hs : s.take a ++ s.drop a = s := List.take_append_drop a s
    cases hd : s.drop a with
    | nil => simp [charIndicesFrom]
    | cons c cs =>
      rw [hd] at hs
      generalize hp : s.take a = p at hs
      subst hs
      have key : ∀ n m, (charIndicesFrom n (c :: cs)).tail.drop m =
          charIndicesFrom (n + c.utf8Size + byteLen (cs.take m)) (cs.drop m) := by
        intro n m; simp [charIndicesFrom, charIndices_drop]
      simp only [key]
      simp only [charIndicesFrom, List.head?_cons]
      have hba : b - a = (b - (a + 1)) + 1 := by omega
      rw [hba, List.take_succ_cons]
      generalize b - (a + 1) = m
      have hsplit : cs.take m ++ cs.drop m = cs := List.take_append_drop m cs
      cases hd2 : cs.drop m with
      | nil =>
        rw [hd2, List.append_nil] at hsplit
        simp only [charIndicesFrom, List.head?_nil, hsplit]
        exact sliceFrom_append _ _
      | cons d ds =>
        rw [hd2] at hsplit
        simp only [charIndicesFrom, List.head?_cons, slice]
        rw [if_pos (by omega)]
        rw [splitAtByte_append]
        simp only
        have e : byteLen p + c.utf8Size + byteLen (cs.take m) - byteLen p =
            byteLen (c :: cs.take m) := by simp [byteLen]; omega
        rw [e]
        have e2 : c :: cs = (c :: cs.take m) ++ d :: ds := by simp [hsplit]
        rw [e2, sliceTo_append]
  · rw [if_neg hab]
    have : b - a = 0 := by omega
    simp [this]

/-- C40. The other range forms. The inclusive forms overflow for an end of `usize::MAX`. -/
theorem charSequence_other_ranges (s : Str) (a b : Nat) :
    (ofStr s).indexFrom a = .ok (s.drop a) ∧
    (ofStr s).indexFull = .ok s ∧
    (ofStr s).indexTo b = .ok (s.take b) ∧
    (b < usizeMax → (ofStr s).indexInclusive a b = .ok ((s.drop a).take (b + 1 - a))) ∧
    (b < usizeMax → (ofStr s).indexToInclusive b = .ok (s.take (b + 1))) ∧
    (ofStr s).indexInclusive a usizeMax = .error .overflow ∧
    (ofStr s).indexToInclusive usizeMax = .error .overflow := by
  refine ⟨?_, ?_, ?_, ?_, ?_, ?_, ?_⟩
  · unfold indexFrom
    rw [charSequence_range]
    congr 1
    apply List.take_of_length_le
    simp [ofStr]
  · unfold indexFull
    rw [charSequence_range]
    simp [ofStr]
  · unfold indexTo
    rw [charSequence_range]; simp
  · intro h
    unfold indexInclusive
    rw [if_pos h, charSequence_range]
  · intro h
    unfold indexToInclusive indexInclusive
    rw [if_pos h, charSequence_range]; simp
  · simp [indexInclusive]
  · simp [indexToInclusive, indexInclusive]

/-- C40. `len` counts characters and `is_empty` means the empty string. -/
theorem charSequence_len (s : Str) :
    (ofStr s).len = s.length ∧ ((ofStr s).isEmpty = true ↔ s = []) ∧ (ofStr s).asStr = s := by
  simp [ofStr, len, isEmpty, asStr]

example : (ofStr c!"aéîz").indexRange 1 3 = .ok c!"éî" := by decide +kernel
example : byteLen c!"aéîz" = 6 := by decide +kernel

end Verif.Props
