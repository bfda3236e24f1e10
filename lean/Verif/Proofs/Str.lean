import Verif.Basic
/-!
# Lemmas about bytes, slices, ASCII and `replace`
-/

namespace Verif

/-! ## Bytes and slices -/

theorem utf8Size_pos (c : Char) : 1 ≤ c.utf8Size := Char.utf8Size_pos c

theorem byteLen_append (a b : Str) : byteLen (a ++ b) = byteLen a + byteLen b := by
  induction a with
  | nil => simp [byteLen]
  | cons c cs ih => simp [byteLen, ih]; omega

theorem length_le_byteLen (s : Str) : s.length ≤ byteLen s := by
  induction s with
  | nil => simp
  | cons c cs ih => have := utf8Size_pos c; simp [byteLen]; omega

theorem byteLen_eq_zero {s : Str} : byteLen s = 0 ↔ s = [] := by
  cases s with
  | nil => simp [byteLen]
  | cons c cs => have := utf8Size_pos c; simp [byteLen]; omega

theorem utf8Size_ascii {c : Char} (h : isAscii c = true) : c.utf8Size = 1 := by
  rw [Char.utf8Size_eq_one_iff]
  simp only [isAscii, decide_eq_true_eq, Char.toNat] at h
  exact UInt32.le_iff_toNat_le.mpr (by have : (127 : UInt32).toNat = 127 := rfl; omega)

theorem utf8Size_eq_one {c : Char} : c.utf8Size = 1 ↔ isAscii c = true := by
  constructor
  · intro h
    rw [Char.utf8Size_eq_one_iff] at h
    have := UInt32.le_iff_toNat_le.mp h
    have h2 : (127 : UInt32).toNat = 127 := rfl
    simp only [isAscii, decide_eq_true_eq, Char.toNat]; omega
  · exact utf8Size_ascii

theorem AsciiStr.nil : AsciiStr [] := by simp [AsciiStr]

theorem asciiStr_cons {c : Char} {s : Str} : AsciiStr (c :: s) ↔ isAscii c = true ∧ AsciiStr s := by
  simp [AsciiStr]

theorem asciiStr_append {a b : Str} : AsciiStr (a ++ b) ↔ AsciiStr a ∧ AsciiStr b := by
  simp [AsciiStr, or_imp, forall_and]

theorem AsciiStr.sublist {a b : Str} (h : AsciiStr b) (hs : a.Sublist b) : AsciiStr a :=
  fun c hc => h c (hs.subset hc)

theorem AsciiStr.subset {a b : Str} (h : AsciiStr b) (hs : a ⊆ b) : AsciiStr a :=
  fun c hc => h c (hs hc)

theorem byteLen_ascii {s : Str} (h : AsciiStr s) : byteLen s = s.length := by
  induction s with
  | nil => rfl
  | cons c cs ih =>
    rw [asciiStr_cons] at h
    simp [byteLen, utf8Size_ascii h.1, ih h.2]; omega

theorem byteLen_eq_length_iff {s : Str} : byteLen s = s.length ↔ AsciiStr s := by
  constructor
  · intro h
    induction s with
    | nil => exact AsciiStr.nil
    | cons c cs ih =>
      have h1 := utf8Size_pos c
      have h2 := length_le_byteLen cs
      simp [byteLen] at h
      exact asciiStr_cons.mpr ⟨utf8Size_eq_one.mp (by omega), ih (by omega)⟩
  · exact byteLen_ascii

theorem splitAtByte_zero (s : Str) : splitAtByte 0 s = some ([], s) := by
  cases s <;> simp [splitAtByte]

theorem splitAtByte_append (a b : Str) : splitAtByte (byteLen a) (a ++ b) = some (a, b) := by
  induction a with
  | nil => simp [byteLen, splitAtByte_zero]
  | cons c cs ih =>
    have := utf8Size_pos c
    simp only [byteLen, List.cons_append, splitAtByte]
    rw [if_neg (by omega), if_pos (by omega)]
    have : c.utf8Size + byteLen cs - c.utf8Size = byteLen cs := by omega
    rw [this, ih]

theorem splitAtByte_some {n : Nat} {s a b : Str} (h : splitAtByte n s = some (a, b)) :
    s = a ++ b ∧ byteLen a = n := by
  induction s generalizing n a b with
  | nil =>
    simp only [splitAtByte] at h
    split at h
    · simp at h; obtain ⟨rfl, rfl⟩ := h; simp_all [byteLen]
    · simp at h
  | cons c cs ih =>
    simp only [splitAtByte] at h
    split at h
    · simp at h; obtain ⟨rfl, rfl⟩ := h; simp_all [byteLen]
    · split at h
      · split at h
        · rename_i x y heq
          simp at h
          obtain ⟨rfl, rfl⟩ := h
          have := ih heq
          simp [byteLen, this.1, this.2]; omega
        · simp at h
      · simp at h

/-- A byte offset is acceptable exactly when it is the byte length of a prefix. -/
theorem splitAtByte_eq_some_iff {n : Nat} {s a b : Str} :
    splitAtByte n s = some (a, b) ↔ s = a ++ b ∧ byteLen a = n :=
  ⟨splitAtByte_some, fun ⟨h1, h2⟩ => by rw [h1, ← h2, splitAtByte_append]⟩

theorem sliceTo_ok {s a : Str} {n : Nat} (h : sliceTo s n = .ok a) :
    byteLen a = n ∧ ∃ b, s = a ++ b := by
  unfold sliceTo at h
  split at h
  · rename_i x y heq
    simp at h; subst h
    have := splitAtByte_some heq
    exact ⟨this.2, _, this.1⟩
  · simp at h

theorem sliceFrom_ok {s b : Str} {n : Nat} (h : sliceFrom s n = .ok b) :
    ∃ a, byteLen a = n ∧ s = a ++ b := by
  unfold sliceFrom at h
  split at h
  · rename_i x y heq
    simp at h; subst h
    have := splitAtByte_some heq
    exact ⟨_, this.2, this.1⟩
  · simp at h

theorem sliceTo_append (a b : Str) : sliceTo (a ++ b) (byteLen a) = .ok a := by
  simp [sliceTo, splitAtByte_append]

theorem sliceFrom_append (a b : Str) : sliceFrom (a ++ b) (byteLen a) = .ok b := by
  simp [sliceFrom, splitAtByte_append]

theorem slice_zero (s : Str) (n : Nat) : slice s 0 n = sliceTo s n := by
  simp [slice, splitAtByte_zero]

theorem splitAtByte_ascii {s : Str} (h : AsciiStr s) {n : Nat} (hn : n ≤ s.length) :
    splitAtByte n s = some (s.take n, s.drop n) := by
  rw [splitAtByte_eq_some_iff]
  refine ⟨(List.take_append_drop n s).symm, ?_⟩
  rw [byteLen_ascii (h.sublist (List.take_sublist n s)), List.length_take]; omega

theorem splitAtByte_ascii_gt {s : Str} (h : AsciiStr s) {n : Nat} (hn : s.length < n) :
    splitAtByte n s = none := by
  cases hc : splitAtByte n s with
  | none => rfl
  | some p =>
    obtain ⟨a, b⟩ := p
    have := splitAtByte_some hc
    have h2 : byteLen s = byteLen a + byteLen b := by rw [this.1, byteLen_append]
    rw [byteLen_ascii h] at h2
    omega

theorem sliceTo_ascii {s : Str} (h : AsciiStr s) {n : Nat} (hn : n ≤ s.length) :
    sliceTo s n = .ok (s.take n) := by
  simp [sliceTo, splitAtByte_ascii h hn]

theorem sliceFrom_ascii {s : Str} (h : AsciiStr s) {n : Nat} (hn : n ≤ s.length) :
    sliceFrom s n = .ok (s.drop n) := by
  simp [sliceFrom, splitAtByte_ascii h hn]

theorem slice_ascii {s : Str} (h : AsciiStr s) {a b : Nat} (hab : a ≤ b) (hn : b ≤ s.length) :
    slice s a b = .ok ((s.drop a).take (b - a)) := by
  have hd : AsciiStr (s.drop a) := h.sublist (List.drop_sublist a s)
  simp only [slice, if_pos hab, splitAtByte_ascii h (Nat.le_trans hab hn)]
  exact sliceTo_ascii hd (by simp; omega)

/-! ## ASCII characters -/

/-- To prove a statement for every ASCII character it is enough to check the 128 of them. -/
theorem forall_ascii {P : Char → Prop} (h : ∀ n < 128, P (Char.ofNat n)) :
    ∀ c, isAscii c = true → P c := by
  intro c hc
  simp only [isAscii, decide_eq_true_eq] at hc
  have := h c.toNat hc
  rwa [Char.ofNat_toNat] at this

theorem toNat_ofNat_lt {n : Nat} (h : n < 0xd800) : (Char.ofNat n).toNat = n := by
  have hv : n.isValidChar := Or.inl h
  unfold Char.ofNat
  rw [dif_pos hv]
  rfl

theorem isAscii_of_upper {c : Char} (h : isAsciiUpper c = true) : isAscii c = true := by
  simp only [isAsciiUpper, Bool.and_eq_true, decide_eq_true_eq] at h
  simp only [isAscii, decide_eq_true_eq]; omega

theorem isAscii_of_lower {c : Char} (h : isAsciiLower c = true) : isAscii c = true := by
  simp only [isAsciiLower, Bool.and_eq_true, decide_eq_true_eq] at h
  simp only [isAscii, decide_eq_true_eq]; omega

theorem isAsciiUpper_asciiUpper {c : Char} (h : isAsciiAlpha c = true) :
    isAsciiUpper (asciiUpper c) = true := by
  simp only [isAsciiAlpha, isAsciiLower, isAsciiUpper, Bool.or_eq_true, Bool.and_eq_true,
    decide_eq_true_eq] at h
  unfold asciiUpper isAsciiUpper isAsciiLower
  split
  · rename_i h2
    simp only [Bool.and_eq_true, decide_eq_true_eq] at h2
    rw [toNat_ofNat_lt (by omega)]
    simp; omega
  · rename_i h2
    simp only [Bool.and_eq_true, decide_eq_true_eq] at h2
    simp; omega

theorem isAscii_asciiUpper {c : Char} (h : isAscii c = true) : isAscii (asciiUpper c) = true := by
  unfold asciiUpper
  split
  · rename_i h2
    simp only [isAsciiLower, Bool.and_eq_true, decide_eq_true_eq] at h2
    simp only [isAscii, decide_eq_true_eq]
    rw [toNat_ofNat_lt (by omega)]; omega
  · exact h

theorem isAscii_asciiLower {c : Char} (h : isAscii c = true) : isAscii (asciiLower c) = true := by
  unfold asciiLower
  split
  · rename_i h2
    simp only [isAsciiUpper, Bool.and_eq_true, decide_eq_true_eq] at h2
    simp only [isAscii, decide_eq_true_eq]
    rw [toNat_ofNat_lt (by omega)]; omega
  · exact h

/-! ## Unicode tables on ASCII -/

theorem strUpper_ascii (U : Unicode) {s : Str} (h : AsciiStr s) : U.strUpper s = s.map asciiUpper := by
  induction s with
  | nil => rfl
  | cons c cs ih =>
    rw [asciiStr_cons] at h
    have := ih h.2
    simp only [Unicode.strUpper] at this
    simp [Unicode.strUpper, U.toUpper_ascii c h.1, this]

theorem strLowerAux_ascii (U : Unicode) {s : Str} (h : AsciiStr s) (pre : Str) :
    U.strLowerAux pre s = s.map asciiLower := by
  induction s generalizing pre with
  | nil => rfl
  | cons c cs ih =>
    rw [asciiStr_cons] at h
    have hne : c ≠ 'Σ' := by
      intro he; subst he; exact absurd h.1 (by decide)
    simp [Unicode.strLowerAux, hne, U.toLower_ascii c h.1, ih h.2]

theorem strLower_ascii (U : Unicode) {s : Str} (h : AsciiStr s) : U.strLower s = s.map asciiLower :=
  strLowerAux_ascii U h []

theorem strUpper_append (U : Unicode) (a b : Str) : U.strUpper (a ++ b) = U.strUpper a ++ U.strUpper b := by
  simp [Unicode.strUpper]

theorem AsciiStr.map {s : Str} {f : Char → Char} (h : AsciiStr s)
    (hf : ∀ c, isAscii c = true → isAscii (f c) = true) : AsciiStr (s.map f) := by
  intro c hc
  simp only [List.mem_map] at hc
  obtain ⟨a, ha, rfl⟩ := hc
  exact hf a (h a ha)

theorem asciiStr_strUpper (U : Unicode) {s : Str} (h : AsciiStr s) : AsciiStr (U.strUpper s) := by
  rw [strUpper_ascii U h]; exact h.map fun c hc => isAscii_asciiUpper hc

theorem asciiStr_strLower (U : Unicode) {s : Str} (h : AsciiStr s) : AsciiStr (U.strLower s) := by
  rw [strLower_ascii U h]; exact h.map fun c hc => isAscii_asciiLower hc

end Verif
