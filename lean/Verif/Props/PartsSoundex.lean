import Verif.Props.Typos
/-!
# C116, C117: Soundex
-/

namespace Verif.Props
open Spec TogetherProofs

namespace SoundexCutProofs

theorem digits_cut (t : Str) (hw : Bool) (g : Char) (q : Str) (v : Char) (hv : Separates t hw v) (r : Str) :
    soundexDigits t hw g (q ++ v :: r) = soundexDigits t hw g (q ++ [v]) ++ soundexDigits t hw v r := by
  obtain ⟨x, hx⟩ := digits_left t hw g q v hv
  rw [hx, hx]
  have : soundexDigits t hw v [] = [] := by simp [soundexDigits, collapse]
  rw [this, List.append_nil]

theorem digits_length (t : Str) (hw : Bool) (g : Char) (q : Str) : (soundexDigits t hw g q).length ≤ q.length := by
  rw [digits_eq]
  refine Nat.le_trans (List.length_filter_le _ _) ?_
  rw [List.length_drop]
  have h1 := collapse_length_le (codeOf t g :: heard t hw q)
  have h2 : (heard t hw q).length ≤ q.length := by
    unfold heard
    refine Nat.le_trans (List.length_filter_le _ _) ?_
    rw [List.length_map]
    exact List.length_filter_le _ _
  rw [List.length_cons] at h1
  omega

/-- The digits of a code, without the zeros that fill it up. -/
theorem filter_three (x : Str) (h : '0' ∉ x) : (three x).filter (· ≠ '0') = x.take 3 := by
  have nz : ∀ l : Str, '0' ∉ l → l.filter (· ≠ '0') = l := by
    intro l hl
    rw [List.filter_eq_self]
    intro a ha
    have : a ≠ '0' := fun e => hl (e ▸ ha)
    simpa using this
  unfold three
  rw [List.take_append, List.filter_append, nz (x.take 3) (fun h' => h (List.mem_of_mem_take h'))]
  have : (List.take (3 - x.length) ['0', '0', '0']).filter (· ≠ '0') = [] := by
    rw [List.filter_eq_nil_iff]
    intro a ha
    have := List.mem_of_mem_take ha
    simp at this
    simp [this]
  rw [this, List.append_nil]

theorem three_takes (x y : Str) : three (x.take 3 ++ y.take 3) = three (x ++ y) := by
  unfold three
  match x with
  | [] =>
    match y with
    | [] => rfl
    | [_] => rfl
    | [_, _] => rfl
    | _ :: _ :: _ :: _ => rfl
  | [_] =>
    match y with
    | [] => rfl
    | [_] => rfl
    | [_, _] => rfl
    | _ :: _ :: _ :: _ => rfl
  | [_, _] =>
    match y with
    | [] => rfl
    | [_] => rfl
    | [_, _] => rfl
    | _ :: _ :: _ :: _ => rfl
  | _ :: _ :: _ :: _ => rfl

theorem three_take' (x m y : Str) : three (x.take 3 ++ m ++ y.take 3) = three (x ++ m ++ y) := by
  have h := three_takes (x ++ m) y
  rw [← h, ← three_takes (x.take 3 ++ m) (y.take 3)]
  unfold three
  match x with
  | [] => simp [List.take_take]
  | [_] => simp [List.take_take]
  | [_, _] => simp [List.take_take]
  | _ :: _ :: _ :: _ => rfl

theorem letter_of {v : Char} (hv : isAsciiAlpha v = true) :
    isAscii v = true ∧ asciiLetters [v] = [asciiUpper v] := by
  have asc : isAscii v = true := by
    unfold isAsciiAlpha at hv
    unfold isAscii
    simp [isAsciiLower, isAsciiUpper] at hv ⊢
    omega
  refine ⟨asc, ?_⟩
  revert hv
  have : ∀ c, isAscii c = true → isAsciiAlpha c = true → asciiLetters [c] = [asciiUpper c] := by
    apply forall_ascii; decide +kernel
  exact this v asc

end SoundexCutProofs
open SoundexCutProofs

/-- C116. Soundex, at a letter that separates (a vowel, say): the code of the text has the first letter of the code up to
this letter, the digits of this code and then those of the code from the letter on, cut or filled up to three. -/
theorem soundex_cut (U : Unicode) (sx : Soundex) (a b : Str) (v : Char) (ha : AsciiStr a) (hb : AsciiStr b)
    (hv : isAsciiAlpha v = true) (hs : Separates sx.mapping.val sx.specialCaseHW (asciiUpper v)) :
    ∃ f d g e, sx.encode U (a ++ [v]) = .ok (f :: d) ∧ sx.encode U (v :: b) = .ok (g :: e) ∧
      sx.encode U (a ++ v :: b) = .ok (f :: three (d.filter (· ≠ '0') ++ e.filter (· ≠ '0'))) := by
  obtain ⟨hav, hl⟩ := letter_of hv
  have hv1 : AsciiStr [v] := fun y hy => by rw [List.mem_singleton.1 hy]; exact hav
  have hvb : AsciiStr (v :: b) := fun y hy => by
    rcases List.mem_cons.mp hy with rfl | hy
    · exact hav
    · exact hb y hy
  have hlb : asciiLetters (v :: b) = asciiUpper v :: asciiLetters b := by
    have := asciiLetters_append [v] b
    rw [hl] at this; exact this
  rw [soundex_ascii U sx _ (asciiStr_append.mpr ⟨ha, hv1⟩), soundex_ascii U sx _ hvb,
    soundex_ascii U sx _ (asciiStr_append.mpr ⟨ha, hvb⟩), asciiLetters_append, asciiLetters_append, hl, hlb]
  cases asciiLetters a with
  | nil =>
    refine ⟨_, _, _, _, rfl, rfl, ?_⟩
    simp only [List.nil_append, soundex_cons]
    rw [filter_three _ (no_zero _ _ _ _), filter_three _ (no_zero _ _ _ _), three_takes]
    have : soundexDigits sx.mapping.val sx.specialCaseHW (asciiUpper v) [] = [] := by
      simp [soundexDigits, collapse]
    rw [this, List.nil_append]
  | cons g q =>
    refine ⟨_, _, _, _, rfl, rfl, ?_⟩
    simp only [List.cons_append, soundex_cons]
    rw [filter_three _ (no_zero _ _ _ _), filter_three _ (no_zero _ _ _ _), three_takes,
      digits_cut _ _ _ _ _ hs]
    rfl

/-- C117. Soundex: whatever is written between two separating letters of an ASCII text, the first letter and the digits up to
the first of them stay in front and the digits from the second on stay behind, as far as three digits reach; at most one digit
more than is written comes between them. -/
theorem soundex_typo (U : Unicode) (sx : Soundex) (a b : Str) (v w : Char) (ha : AsciiStr a) (hb : AsciiStr b)
    (hv : isAsciiAlpha v = true) (hw : isAsciiAlpha w = true)
    (hsv : Separates sx.mapping.val sx.specialCaseHW (asciiUpper v))
    (hsw : Separates sx.mapping.val sx.specialCaseHW (asciiUpper w)) :
    ∃ f d g e, sx.encode U (a ++ [v]) = .ok (f :: d) ∧ sx.encode U (w :: b) = .ok (g :: e) ∧
      ∀ x, AsciiStr x → ∃ m, '0' ∉ m ∧ m.length ≤ x.length + 1 ∧
        sx.encode U (a ++ v :: (x ++ w :: b)) = .ok (f :: three (d.filter (· ≠ '0') ++ m ++ e.filter (· ≠ '0'))) := by
  obtain ⟨hav, hl⟩ := letter_of hv
  obtain ⟨haw, hlw⟩ := letter_of hw
  have hv1 : AsciiStr [v] := fun y hy => by rw [List.mem_singleton.1 hy]; exact hav
  have hwb : AsciiStr (w :: b) := fun y hy => by
    rcases List.mem_cons.mp hy with rfl | hy
    · exact haw
    · exact hb y hy
  have hlb : asciiLetters (w :: b) = asciiUpper w :: asciiLetters b := by
    have := asciiLetters_append [w] b
    rw [hlw] at this; exact this
  have hx : ∀ x, AsciiStr x → AsciiStr (a ++ v :: (x ++ w :: b)) ∧ asciiLetters (a ++ v :: (x ++ w :: b)) =
      asciiLetters a ++ asciiUpper v :: (asciiLetters x ++ asciiUpper w :: asciiLetters b) := by
    intro x hx
    constructor
    · have : a ++ v :: (x ++ w :: b) = a ++ ([v] ++ (x ++ w :: b)) := rfl
      rw [this]
      exact asciiStr_append.mpr ⟨ha, asciiStr_append.mpr ⟨hv1, asciiStr_append.mpr ⟨hx, hwb⟩⟩⟩
    · have : a ++ v :: (x ++ w :: b) = a ++ ([v] ++ (x ++ w :: b)) := rfl
      rw [this, asciiLetters_append, asciiLetters_append, asciiLetters_append, hl, hlb]
      rfl
  rw [soundex_ascii U sx _ (asciiStr_append.mpr ⟨ha, hv1⟩), soundex_ascii U sx _ hwb, asciiLetters_append, hl, hlb]
  have hm : ∀ x, (soundexDigits sx.mapping.val sx.specialCaseHW (asciiUpper v) (asciiLetters x ++ [asciiUpper w])).length ≤
      x.length + 1 := by
    intro x
    refine Nat.le_trans (digits_length _ _ _ _) ?_
    have : (asciiLetters x).length ≤ x.length := by
      unfold asciiLetters
      rw [List.length_map]
      exact List.length_filter_le _ _
    simpa using this
  generalize asciiLetters a = la at hx ⊢
  cases la with
  | nil =>
    refine ⟨_, _, _, _, rfl, rfl, fun x hxa => ⟨_, no_zero _ _ _ _, hm x, ?_⟩⟩
    rw [soundex_ascii U sx _ (hx x hxa).1, (hx x hxa).2]
    simp only [List.nil_append, soundex_cons]
    rw [filter_three _ (no_zero _ _ _ _), filter_three _ (no_zero _ _ _ _), three_take']
    have : soundexDigits sx.mapping.val sx.specialCaseHW (asciiUpper v) [] = [] := by
      simp [soundexDigits, collapse]
    rw [this, List.nil_append, digits_cut _ _ _ _ _ hsw]
  | cons g q =>
    refine ⟨_, _, _, _, rfl, rfl, fun x hxa => ⟨_, no_zero _ _ _ _, hm x, ?_⟩⟩
    rw [soundex_ascii U sx _ (hx x hxa).1, (hx x hxa).2]
    simp only [List.cons_append, soundex_cons]
    rw [filter_three _ (no_zero _ _ _ _), filter_three _ (no_zero _ _ _ _), three_take',
      digits_cut _ _ _ _ _ hsv, digits_cut _ _ _ (asciiLetters x) _ hsw, List.append_assoc]
    rfl

example : Separates Soundex.default.mapping.val Soundex.default.specialCaseHW 'E' ∧
    Soundex.default.encode .latin1 (c!"Scha" ++ c!"e") = .ok c!"S000" ∧
    Soundex.default.encode .latin1 (c!"e" ++ c!"fer") = .ok c!"E160" ∧
    Soundex.default.encode .latin1 c!"Schaefer" = .ok c!"S160" := by
  unfold Separates; decide +kernel

end Verif.Props
