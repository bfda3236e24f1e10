import Verif.Props.CodesSoundex
/-!
# C115: `difference` as a similarity
-/

set_option linter.unusedSimpArgs false

namespace Verif.Props
open Spec

namespace SimilarProofs

theorem agreements_triangle (a b c : Str) : agreements a b + agreements b c ≤ agreements a c + b.length := by
  induction b generalizing a c with
  | nil => simp [agreements_nil_left, agreements_nil_right]
  | cons y ys ih =>
    cases a with
    | nil => have := agreements_le (y :: ys) c; simp only [agreements_nil_left]; omega
    | cons x xs =>
      cases c with
      | nil => have := agreements_le (x :: xs) (y :: ys); simp only [agreements_nil_right]; omega
      | cons z zs =>
        have := ih xs zs
        simp only [agreements_cons, List.length_cons]
        by_cases h1 : x = y
        · subst h1
          by_cases h2 : x = z <;> simp [h2] <;> omega
        · by_cases h2 : y = z <;> simp [h1, h2] <;> omega

theorem agreements_prefix (a b : Str) : agreements a b = a.length ↔ a <+: b := by
  induction a generalizing b with
  | nil => simp [agreements_nil_left]
  | cons x xs ih =>
    cases b with
    | nil => simp [agreements_nil_right]
    | cons y ys =>
      have hle := agreements_le xs ys
      rw [agreements_cons, List.length_cons, List.cons_prefix_cons, ← ih ys]
      by_cases h : x = y
      · simp [h]; omega
      · simp [h]; omega

/-- A digit other than the given one, and other than 0. -/
def another (d : Char) : Char := if d = '1' then '2' else '1'

theorem another_ne (d : Char) : d ≠ another d := by
  unfold another; split
  · rename_i h; subst h; decide
  · assumption

theorem another_mem (d : Char) : another d ∈ c!"123456" := by
  unfold another; split <;> decide

/-- A letter other than the given one. -/
def anotherLetter (f : Char) : Char := if f = 'A' then 'B' else 'A'

theorem anotherLetter_ne (d : Char) : d ≠ anotherLetter d := by
  unfold anotherLetter; split
  · rename_i h; subst h; decide
  · assumption

theorem anotherLetter_mem (d : Char) : anotherLetter d ∈ capitals := by
  unfold anotherLetter; split <;> decide

theorem agreements_four (f x y z f' x' y' z' : Char) : agreements [f, x, y, z] [f', x', y', z'] =
    (if f = f' then 1 else 0) + (if x = x' then 1 else 0) + (if y = y' then 1 else 0) + (if z = z' then 1 else 0) := by
  simp only [agreements_cons, agreements_nil_left]; omega

theorem code3 {f x y z : Char} (hf : f ∈ capitals) (hx : x ∈ c!"123456") (hy : y ∈ c!"123456") (hz : z ∈ c!"123456") :
    SoundexCode [f, x, y, z] := Or.inr ⟨f, [x, y, z], 0, hf, by simp only [List.forall_mem_cons]; exact ⟨hx, hy, hz, by simp⟩, rfl, rfl⟩

theorem code2 {f x y : Char} (hf : f ∈ capitals) (hx : x ∈ c!"123456") (hy : y ∈ c!"123456") :
    SoundexCode [f, x, y, '0'] := Or.inr ⟨f, [x, y], 1, hf, by simp only [List.forall_mem_cons]; exact ⟨hx, hy, by simp⟩, rfl, rfl⟩

theorem code1 {f x : Char} (hf : f ∈ capitals) (hx : x ∈ c!"123456") :
    SoundexCode [f, x, '0', '0'] := Or.inr ⟨f, [x], 2, hf, by simp only [List.forall_mem_cons]; exact ⟨hx, by simp⟩, rfl, rfl⟩

theorem zero_ne {d : Char} (h : d ∈ c!"123456") : d ≠ '0' := by
  have : ∀ d ∈ c!"123456", d ≠ '0' := by decide
  exact this d h

theorem every (code : Str) (h : SoundexCode code) (hne : code ≠ []) (n : Nat) (hn : n ≤ 4) :
    ∃ code', SoundexCode code' ∧ agreements code code' = n := by
  have h' := h
  rcases h' with h' | ⟨f, ds, k, hf, hds, hk, rfl⟩
  · exact absurd h' hne
  have shape : ∃ x y z, f :: ds ++ List.replicate k '0' = [f, x, y, z] ∧
      (x ∈ c!"123456" ∨ (x = '0' ∧ y = '0' ∧ z = '0')) ∧ (y ∈ c!"123456" ∨ (y = '0' ∧ z = '0')) ∧ (z ∈ c!"123456" ∨ z = '0') := by
    match ds, k, hk with
    | [], 3, _ => exact ⟨_, _, _, rfl, Or.inr ⟨rfl, rfl, rfl⟩, Or.inr ⟨rfl, rfl⟩, Or.inr rfl⟩
    | [x], 2, _ => exact ⟨_, _, _, rfl, Or.inl (hds x (by simp)), Or.inr ⟨rfl, rfl⟩, Or.inr rfl⟩
    | [x, y], 1, _ => exact ⟨_, _, _, rfl, Or.inl (hds x (by simp)), Or.inl (hds y (by simp)), Or.inr rfl⟩
    | [x, y, z], 0, _ => exact ⟨_, _, _, rfl, Or.inl (hds x (by simp)), Or.inl (hds y (by simp)), Or.inl (hds z (by simp))⟩
    | [], 0, h => simp at h <;> omega
    | [], 1, h => simp at h <;> omega
    | [], 2, h => simp at h <;> omega
    | [], _ + 4, h => simp at h <;> omega
    | [_], 0, h => simp at h <;> omega
    | [_], 1, h => simp at h <;> omega
    | [_], _ + 3, h => simp at h <;> omega
    | [_, _], 0, h => simp at h <;> omega
    | [_, _], _ + 2, h => simp at h <;> omega
    | [_, _, _], _ + 1, h => simp at h <;> omega
    | _ :: _ :: _ :: _ :: _, _, h => simp at h; omega
  obtain ⟨x, y, z, e, hx, hy, hz⟩ := shape
  rw [e] at h ⊢
  have nx := another_ne x
  have ny := another_ne y
  have nz := another_ne z
  match n, hn with
  | 0, _ => exact ⟨[anotherLetter f, another x, another y, another z],
      code3 (anotherLetter_mem f) (another_mem x) (another_mem y) (another_mem z), by
      rw [agreements_four, if_neg (anotherLetter_ne f), if_neg nx, if_neg ny, if_neg nz]⟩
  | 1, _ => exact ⟨[f, another x, another y, another z],
      code3 hf (another_mem x) (another_mem y) (another_mem z), by
      rw [agreements_four, if_pos rfl, if_neg nx, if_neg ny, if_neg nz]⟩
  | 2, _ =>
    rcases hx with hx | ⟨rfl, rfl, rfl⟩
    · exact ⟨[f, x, another y, another z], code3 hf hx (another_mem y) (another_mem z), by
        rw [agreements_four, if_pos rfl, if_pos rfl, if_neg ny, if_neg nz]⟩
    · exact ⟨[f, another '0', another '0', '0'], code2 hf (another_mem _) (another_mem _), by
        rw [agreements_four, if_pos rfl, if_neg nx, if_pos rfl]⟩
  | 3, _ =>
    rcases hx with hx | ⟨rfl, rfl, rfl⟩
    · rcases hy with hy | ⟨rfl, rfl⟩
      · exact ⟨[f, x, y, another z], code3 hf hx hy (another_mem z), by
          rw [agreements_four, if_pos rfl, if_pos rfl, if_pos rfl, if_neg nz]⟩
      · exact ⟨[f, x, another '0', '0'], code2 hf hx (another_mem _), by
          rw [agreements_four, if_pos rfl, if_pos rfl, if_neg ny, if_pos rfl]⟩
    · exact ⟨[f, another '0', '0', '0'], code1 hf (another_mem _), by
        rw [agreements_four, if_pos rfl, if_neg nx, if_pos rfl]⟩
  | 4, _ => exact ⟨[f, x, y, z], h, by rw [agreements_self]; rfl⟩

end SimilarProofs
open SimilarProofs

/-- C115. `difference` obeys a triangle inequality: two texts that agree with a third at many characters of its code agree with
each other.  The positions at which `a` and `c` differ are at most those at which one of them differs from `b`. -/
theorem difference_triangle (encode : Str → Res Str) (a b c ca cb cc : Str)
    (ha : encode a = .ok ca) (hb : encode b = .ok cb) (hc : encode c = .ok cc) :
    ∃ ab bc ac, difference encode a b = .ok ab ∧ difference encode b c = .ok bc ∧ difference encode a c = .ok ac ∧
      ab + bc ≤ ac + cb.length :=
  ⟨_, _, _, difference_eq_agreements _ _ _ _ _ ha hb, difference_eq_agreements _ _ _ _ _ hb hc,
    difference_eq_agreements _ _ _ _ _ ha hc, agreements_triangle ca cb cc⟩

/-- C115. The difference is the length of a code exactly when that code is a beginning of the other one. -/
theorem difference_full (encode : Str → Res Str) (a b ca cb : Str)
    (ha : encode a = .ok ca) (hb : encode b = .ok cb) :
    (difference encode a b = .ok ca.length ↔ ca <+: cb) ∧ (difference encode a b = .ok cb.length ↔ cb <+: ca) := by
  rw [difference_eq_agreements _ _ _ _ _ ha hb, ← agreements_prefix ca cb, ← agreements_prefix cb ca, agreements_comm cb ca]
  exact ⟨⟨fun h => Except.ok.inj h, fun h => by rw [h]⟩, ⟨fun h => Except.ok.inj h, fun h => by rw [h]⟩⟩

/-- C115. Two texts have the same code exactly when no third text tells them apart by `difference`; it is enough to compare
each of them with both. -/
theorem difference_determines (encode : Str → Res Str) (a b ca cb : Str)
    (ha : encode a = .ok ca) (hb : encode b = .ok cb) :
    (ca = cb ↔ ∀ x, difference encode a x = difference encode b x) ∧
    (ca = cb ↔ difference encode a a = difference encode b a ∧ difference encode a b = difference encode b b) := by
  have fwd : ca = cb → ∀ x, difference encode a x = difference encode b x := by
    intro h x
    have e : encode a = encode b := by rw [ha, hb, h]
    simp only [difference, e]
  have back : difference encode a a = difference encode b a ∧ difference encode a b = difference encode b b → ca = cb := by
    rintro ⟨h1, h2⟩
    rw [difference_eq_agreements _ _ _ _ _ ha ha, difference_eq_agreements _ _ _ _ _ hb ha] at h1
    rw [difference_eq_agreements _ _ _ _ _ ha hb, difference_eq_agreements _ _ _ _ _ hb hb] at h2
    have h1 := Except.ok.inj h1
    have h2 := Except.ok.inj h2
    rw [agreements_self] at h1 h2
    have hc := agreements_comm ca cb
    have hl : ca.length = cb.length := by omega
    exact (agreements_eq_length_iff hl).mp (by omega)
  exact ⟨⟨fwd, fun h => back ⟨h a, h b⟩⟩, ⟨fun h => ⟨fwd h a, fwd h b⟩, back⟩⟩

/-- C115. For Soundex, four minus the difference is a distance between the texts with a letter: zero between equal codes only,
symmetric, and with the triangle inequality. -/
theorem soundex_distance (U : Unicode) (sx : Soundex) (a b c ca cb cc : Str)
    (ha : sx.encode U a = .ok ca) (hb : sx.encode U b = .ok cb) (hc : sx.encode U c = .ok cc)
    (na : ca ≠ []) (nb : cb ≠ []) :
    ∃ ab bc ac, difference (sx.encode U) a b = .ok ab ∧ difference (sx.encode U) b c = .ok bc ∧
      difference (sx.encode U) a c = .ok ac ∧ difference (sx.encode U) b a = .ok ab ∧
      (4 - ab = 0 ↔ ca = cb) ∧ 4 - ac ≤ (4 - ab) + (4 - bc) := by
  obtain ⟨ab, bc, ac, h1, h2, h3, h4⟩ := difference_triangle (sx.encode U) a b c ca cb cc ha hb hc
  refine ⟨ab, bc, ac, h1, h2, h3, ?_, ?_, ?_⟩
  · rw [(difference_laws (sx.encode U) b a cb ca hb ha).1]; exact h1
  · obtain ⟨n, e, hle, hiff⟩ := soundex_difference_four U sx a b ca cb ha hb
    have : n = ab := Except.ok.inj (e.symm.trans h1)
    subst this
    constructor
    · intro h; exact (hiff.mp (by omega)).1
    · intro h; have := hiff.mpr ⟨h, na⟩; omega
  · have := ((soundex_shape U sx b cb hb).2 nb).1
    omega

/-- C115. For the default Soundex encoder every value from 0 to 4 is the difference of any text with a letter and some other
text. -/
theorem soundex_difference_every (U : Unicode) (s code : Str) (hs : Soundex.default.encode U s = .ok code) (hne : code ≠ [])
    (n : Nat) : (∃ t, AsciiStr t ∧ difference (Soundex.default.encode U) s t = .ok n) ↔ n ≤ 4 := by
  constructor
  · rintro ⟨t, ht, h⟩
    have hc := soundex_ascii U Soundex.default t ht
    obtain ⟨m, e, hle, _⟩ := soundex_difference_four U Soundex.default s t _ _ hs hc
    have : m = n := Except.ok.inj (e.symm.trans h)
    omega
  · intro hn
    obtain ⟨code', hc', ha⟩ := every code ((soundex_codes U code).1.mp ⟨s, hs⟩) hne n hn
    obtain ⟨t, ht, e⟩ := (soundex_codes U code').2.mpr hc'
    exact ⟨t, ht, by rw [difference_eq_agreements _ _ _ _ _ hs e, ha]⟩

/-! Cases. -/

example : Soundex.default.encode .latin1 c!"Smith" = .ok c!"S530" ∧ Soundex.default.encode .latin1 c!"Smart" = .ok c!"S563" ∧
    Soundex.default.encode .latin1 c!"Short" = .ok c!"S630" ∧
    difference (Soundex.default.encode .latin1) c!"Smith" c!"Smart" = .ok 2 ∧
    difference (Soundex.default.encode .latin1) c!"Smart" c!"Short" = .ok 1 ∧
    difference (Soundex.default.encode .latin1) c!"Smith" c!"Short" = .ok 3 := by decide +kernel

example : RefinedSoundex.default.encode .latin1 c!"Bar" = .ok c!"B109" ∧
    RefinedSoundex.default.encode .latin1 c!"Barn" = .ok c!"B1098" ∧
    difference (RefinedSoundex.default.encode .latin1) c!"Bar" c!"Barn" = .ok 4 ∧
    isEncodedEquals (RefinedSoundex.default.encode .latin1) c!"Bar" c!"Barn" = .ok false := by decide +kernel

end Verif.Props
