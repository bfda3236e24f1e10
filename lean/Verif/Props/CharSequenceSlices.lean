import Verif.Props.CharSequence
/-!
# C40, continued: slices of slices, and of sequences that no constructor made
-/
namespace Verif.Props
open CharSequence

/-- C40. Neighbouring slices join, a slice of a slice is a slice, and a text is the text before a
position followed by the text from it on. -/
theorem charSequence_slices (s : Str) :
    (∀ a b c t u, a ≤ b → b ≤ c → (ofStr s).indexRange a b = .ok t → (ofStr s).indexRange b c = .ok u →
      (ofStr s).indexRange a c = .ok (t ++ u)) ∧
    (∀ a b c d t, a + d ≤ b → (ofStr s).indexRange a b = .ok t →
      (ofStr t).indexRange c d = (ofStr s).indexRange (a + c) (a + d)) ∧
    (∀ n t u, (ofStr s).indexTo n = .ok t → (ofStr s).indexFrom n = .ok u → t ++ u = s) := by
  refine ⟨?_, ?_, ?_⟩
  · intro a b c t u hab hbc h1 h2
    rw [charSequence_range] at h1 h2 ⊢
    cases h1; cases h2
    have e1 : c - a = (b - a) + (c - b) := by omega
    rw [e1, List.take_add, List.drop_drop]
    congr 4
    omega
  · intro a b c d t h h1
    rw [charSequence_range] at h1
    cases h1
    rw [charSequence_range, charSequence_range, List.drop_take, List.drop_drop, List.take_take]
    congr 2
    omega
  · intro n t u h1 h2
    rw [(charSequence_other_ranges s 0 n).2.2.1] at h1
    rw [(charSequence_other_ranges s n 0).1] at h2
    cases h1; cases h2
    exact List.take_append_drop n s

/-- C40. A `CharSequence` whose length is not that of its text (one can be read from storage, C118)
does not panic either: ranges with both ends given do not look at the length, the others end where the
length says, or with the text. -/
theorem charSequence_any (c : CharSequence) (a b : Nat) :
    c.indexRange a b = .ok ((c.asStr.drop a).take (b - a)) ∧
    c.indexTo b = .ok (c.asStr.take b) ∧
    c.indexFrom a = .ok ((c.asStr.drop a).take (c.len - a)) ∧
    c.indexFull = .ok (c.asStr.take c.len) ∧
    (b < usizeMax → c.indexInclusive a b = .ok ((c.asStr.drop a).take (b + 1 - a))) ∧
    (b < usizeMax → c.indexToInclusive b = .ok (c.asStr.take (b + 1))) ∧
    (c.isEmpty = true ↔ c.len = 0) := by
  have h : ∀ a b, c.indexRange a b = .ok ((c.asStr.drop a).take (b - a)) :=
    fun a b => charSequence_range c.inner a b
  refine ⟨h a b, ?_, h a _, ?_, fun hb => ?_, fun hb => ?_, ?_⟩
  · exact h 0 b
  · exact h 0 c.lenInChar
  · unfold indexInclusive; rw [if_pos hb]; exact h a (b + 1)
  · unfold indexToInclusive indexInclusive; rw [if_pos hb]; simpa using h 0 (b + 1)
  · simp [isEmpty, len]

example : (CharSequence.mk c!"aéîz" 2).indexFrom 1 = .ok c!"é" ∧
    (CharSequence.mk c!"aéîz" 2).indexRange 1 4 = .ok c!"éîz" ∧
    (CharSequence.mk c!"aéîz" 9).indexFull = .ok c!"aéîz" ∧
    (CharSequence.mk c!"aéîz" 0).isEmpty = true := by decide +kernel

example : (ofStr c!"aéîz").indexRange 1 3 = .ok c!"éî" ∧ (ofStr c!"éî").indexRange 1 2 = .ok c!"î" ∧
    (ofStr c!"aéîz").indexRange 2 3 = .ok c!"î" := by decide +kernel

end Verif.Props
