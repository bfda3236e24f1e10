import Verif.Proofs.DoubleMetaphone
/-!
# Double Metaphone: C28 to C32 and C51
-/

set_option linter.unusedSimpArgs false
set_option linter.unusedSectionVars false

namespace Verif.Props
open Verif.DMProofs Verif.DoubleMetaphone Verif.Spec

/-! ## What the calls append -/

/-! ## Limits -/

/-- C28. With a limit of `n`, both codes have at most `n` characters (and bytes). -/
theorem double_metaphone_limit (U : Unicode) (n : Nat) (s : Str) (r : DMResult)
    (h : (DoubleMetaphone.new (some n)).doubleMetaphone U s = .ok r) :
    r.primary.length ≤ n ∧ r.alternate.length ≤ n ∧ byteLen r.primary ≤ n ∧ byteLen r.alternate ≤ n := by
  obtain ⟨-, hg, hm⟩ := dm_run U (some n) 0 (fun _ _ => Nat.zero_le _) (by decide) s r h
  have h1 := hg.fitsP n hm
  have h2 := hg.fitsA n hm
  rw [byteLen_ascii hg.primary, byteLen_ascii hg.alternate]
  exact ⟨h1, h2, h1, h2⟩

/-- C28. `new` without a limit never cuts; the default limit is 4. -/
example : (DoubleMetaphone.new none).encode .latin1 c!"Schwarzenegger" = .ok c!"XRSNKR" ∧
    DoubleMetaphone.default.encode .latin1 c!"Schwarzenegger" = .ok c!"XRSN" ∧
    DoubleMetaphone.default = DoubleMetaphone.new (some 4) := by decide +kernel

/-- C29. The codes with limit `n` are the first `n` characters of the codes with any larger limit, or
with no limit. -/
theorem double_metaphone_truncation (U : Unicode) (n : Nat) (max : Option Nat)
    (hm : ∀ m, max = some m → n ≤ m) (hn : n < 2 ^ 63) (s : Str) (r : DMResult)
    (h : (DoubleMetaphone.new max).doubleMetaphone U s = .ok r) :
    (DoubleMetaphone.new (some n)).doubleMetaphone U s =
      .ok { primary := r.primary.take n, alternate := r.alternate.take n, maxLength := some n } ∧
    (DoubleMetaphone.new (some n)).encode U s = .ok (r.primary.take n) ∧
    (DoubleMetaphone.new (some n)).encodeAlternate U s = .ok (r.alternate.take n) := by
  have h1 := (dm_run U max n hm hn s r h).1
  exact ⟨h1, by unfold encode; rw [h1]; rfl, by unfold encodeAlternate; rw [h1]; rfl⟩

/-- C29, not vacuous. -/
example : (DoubleMetaphone.new none).doubleMetaphone .latin1 c!"Xylophone" =
    .ok { primary := c!"SLFN", alternate := c!"SLFN", maxLength := none } := by decide +kernel

/-! ## No panic on ASCII -/

/-- C30. On ASCII text encoding never panics, whatever the limit. -/
theorem double_metaphone_ascii (U : Unicode) (max : Option Nat) (s : Str) (h : AsciiStr s)
    (hmax : Allocatable max) :
    ∃ r, (DoubleMetaphone.new max).doubleMetaphone U s = .ok r ∧
      (DoubleMetaphone.new max).encode U s = .ok r.primary ∧
      (DoubleMetaphone.new max).encodeAlternate U s = .ok r.alternate := by
  have key : NoPanic ((DoubleMetaphone.new max).doubleMetaphone U s) := by
    rw [doubleMetaphone_eq _ _ _ hmax]
    by_cases hv : dmValue U s = []
    · rw [hv]; exact noPanic_ok _
    · exact dm_loop_noPanic _ (asciiStr_strUpper U (ascii_trim U h)) (byteLen_pos hv) _ _ _ _ _
        (dm_good_new max)
  obtain ⟨r, hr⟩ := key
  exact ⟨r, hr, by unfold encode; rw [hr]; rfl, by unfold encodeAlternate; rw [hr]; rfl⟩

/-- C30. The restriction is necessary: outside ASCII a byte offset may fall inside a character. -/
theorem double_metaphone_panics :
    DoubleMetaphone.default.encode .latin1 c!"Céé" = .error .slice := by decide +kernel

/-- C73. On ASCII text encoding panics exactly if the limit exceeds `isize::MAX`; beyond it, it panics on every text. -/
theorem double_metaphone_capacity (U : Unicode) (max : Option Nat) (s : Str) :
    (AsciiStr s → ((∃ e, (DoubleMetaphone.new max).doubleMetaphone U s = .error e) ↔ ∃ n, max = some n ∧ 2 ^ 63 ≤ n)) ∧
    (∀ n, max = some n → 2 ^ 63 ≤ n → ∃ e, (DoubleMetaphone.new max).doubleMetaphone U s = .error e) := by
  have h2 : ∀ n, max = some n → 2 ^ 63 ≤ n → ∃ e, (DoubleMetaphone.new max).doubleMetaphone U s = .error e := by
    intro n hn hle
    refine ⟨_, doubleMetaphone_panics U max s fun ha => ?_⟩
    have := ha n hn
    omega
  refine ⟨fun hs => ⟨?_, fun ⟨n, hn, hle⟩ => h2 n hn hle⟩, h2⟩
  rintro ⟨e, he⟩
  apply Classical.byContradiction
  intro hn
  obtain ⟨r, hr, -⟩ := double_metaphone_ascii U max s hs (fun n hm => by
    apply Classical.byContradiction
    intro hlt
    exact hn ⟨n, hm, by omega⟩)
  rw [hr] at he
  cases he

example : (DoubleMetaphone.new (some (2 ^ 64 - 1))).doubleMetaphone .latin1 c!"Peter" = .error .capacity := by
  decide +kernel

/-! ## Alphabet -/

/-- C31. Both codes are made of P S K T F J H L M N R X 0; 'A' appears only as the first character,
and the alternate code (only) may end with a space. -/
theorem double_metaphone_alphabet (U : Unicode) (max : Option Nat) (s : Str) (r : DMResult)
    (h : (DoubleMetaphone.new max).doubleMetaphone U s = .ok r) :
    (∀ i x, r.primary[i]? = some x → c!"PSKTFJHLMNRX0".contains x = true ∨ (i = 0 ∧ x = 'A')) ∧
    (∀ i x, r.alternate[i]? = some x → c!"PSKTFJHLMNRX0".contains x = true ∨ (i = 0 ∧ x = 'A') ∨
      (i + 1 = r.alternate.length ∧ x = ' ')) := by
  rw [doubleMetaphone_eq _ _ _ (allocatable_of_ok h)] at h
  by_cases hv : dmValue U s = []
  · rw [hv] at h
    unfold loop at h
    cases h
    exact ⟨fun i x hx => by simp [dmEmpty] at hx, fun i x hx => by simp [dmEmpty] at hx⟩
  · exact dm_loop_alphabet _ (byteLen_pos hv) _ _ 0 _ (dmEmpty max) r (dm_good_new max) (by omega)
      (fun _ => ⟨rfl, rfl⟩) (fun i x hx => by simp [dmEmpty] at hx)
      (fun i x hx => by simp [dmEmpty] at hx) h

/-- C31. The space is real: it is the alternate of a final J. -/
theorem double_metaphone_space : DoubleMetaphone.default.doubleMetaphone .latin1 c!"Raj" =
    .ok { primary := c!"RJ", alternate := c!"R ", maxLength := some 4 } := by decide +kernel

/-! ## Whitespace and case -/

/-- C32. Leading and trailing whitespace is ignored. -/
theorem double_metaphone_trim (U : Unicode) (max : Option Nat) (w s w' : Str)
    (h : w.all U.isWhitespace = true) (h' : w'.all U.isWhitespace = true) :
    (DoubleMetaphone.new max).doubleMetaphone U (w ++ s ++ w') =
      (DoubleMetaphone.new max).doubleMetaphone U s := by
  by_cases hm : Allocatable max
  · rw [doubleMetaphone_eq _ _ _ hm, doubleMetaphone_eq _ _ _ hm, dmValue, dmValue, trim_append U w s w' h h']
  · rw [doubleMetaphone_panics _ _ _ hm, doubleMetaphone_panics _ _ _ hm]

/-- C32. The case of ASCII letters is ignored, in any text. -/
theorem double_metaphone_case (U : Unicode) (max : Option Nat) (s t : Str)
    (h : s.map asciiUpper = t.map asciiUpper) :
    (DoubleMetaphone.new max).doubleMetaphone U s = (DoubleMetaphone.new max).doubleMetaphone U t := by
  have : ∀ u, dmValue U (u.map asciiUpper) = dmValue U u := fun u => by
    rw [dmValue, trim_map, strUpper_map, dmValue]
  by_cases hm : Allocatable max
  · rw [doubleMetaphone_eq _ _ _ hm, doubleMetaphone_eq _ _ _ hm, ← this s, ← this t, h]
  · rw [doubleMetaphone_panics _ _ _ hm, doubleMetaphone_panics _ _ _ hm]

/-- C32. `encode` returns the primary code. -/
theorem double_metaphone_encode (U : Unicode) (max : Option Nat) (s : Str) (r : DMResult)
    (h : (DoubleMetaphone.new max).doubleMetaphone U s = .ok r) :
    (DoubleMetaphone.new max).encode U s = .ok r.primary ∧
      (DoubleMetaphone.new max).encodeAlternate U s = .ok r.alternate := by
  unfold encode encodeAlternate
  rw [h]
  exact ⟨rfl, rfl⟩

example : DoubleMetaphone.default.encode .latin1 c!"  jUmPed \n" = .ok c!"JMPT" ∧
    DoubleMetaphone.default.encode .latin1 c!"Jumped" = .ok c!"JMPT" ∧
    DoubleMetaphone.default.encodeAlternate .latin1 c!"Jumped" = .ok c!"AMPT" := by decide +kernel

/-! ## Comparison -/

/-- C51. On ASCII texts `is_double_metaphone_equal` returns, and says whether the codes of the chosen
kind are the same. -/
theorem double_metaphone_equal_iff (U : Unicode) (max : Option Nat) (s t : Str) (hs : AsciiStr s)
    (ht : AsciiStr t) (hmax : Allocatable max) (alternate : Bool) :
    ∃ b, (DoubleMetaphone.new max).isDoubleMetaphoneEqual U s t alternate = .ok b ∧
      (b = true ↔ if alternate then
        (DoubleMetaphone.new max).encodeAlternate U s = (DoubleMetaphone.new max).encodeAlternate U t
        else (DoubleMetaphone.new max).encode U s = (DoubleMetaphone.new max).encode U t) := by
  obtain ⟨r, h1, h2, h3⟩ := double_metaphone_ascii U max s hs hmax
  obtain ⟨r', h1', h2', h3'⟩ := double_metaphone_ascii U max t ht hmax
  unfold isDoubleMetaphoneEqual
  rw [h1, h1', h2, h3, h2', h3']
  cases alternate
  · exact ⟨_, rfl, by simp⟩
  · exact ⟨_, rfl, by simp⟩

/-- C51. Wherever it returns, the relation is reflexive, symmetric and transitive, and a lower limit
relates at least as much. -/
theorem double_metaphone_equal_equivalence (U : Unicode) (max : Option Nat) (alternate : Bool) :
    let eq := fun s t => (DoubleMetaphone.new max).isDoubleMetaphoneEqual U s t alternate
    (∀ s, AsciiStr s → Allocatable max → eq s s = .ok true) ∧
    (∀ s t b, eq s t = .ok b → eq t s = .ok b) ∧
    (∀ s t u, eq s t = .ok true → eq t u = .ok true → eq s u = .ok true) ∧
    (∀ s t n, (∀ m, max = some m → n ≤ m) → n < 2 ^ 63 → eq s t = .ok true →
      (DoubleMetaphone.new (some n)).isDoubleMetaphoneEqual U s t alternate = .ok true) := by
  have key : ∀ m s t b, (DoubleMetaphone.new m).isDoubleMetaphoneEqual U s t alternate = .ok b ↔
      ∃ r r', (DoubleMetaphone.new m).doubleMetaphone U s = .ok r ∧
        (DoubleMetaphone.new m).doubleMetaphone U t = .ok r' ∧
        b = if alternate then r.alternate == r'.alternate else r.primary == r'.primary := by
    intro m s t b
    unfold isDoubleMetaphoneEqual
    cases (DoubleMetaphone.new m).doubleMetaphone U s with
    | error e => simp [bind, Except.bind]
    | ok r =>
      cases (DoubleMetaphone.new m).doubleMetaphone U t with
      | error e => simp [bind, Except.bind]
      | ok r' =>
        constructor
        · intro h
          refine ⟨r, r', rfl, rfl, ?_⟩
          cases alternate <;> (simp only [bind, Except.bind, pure, Except.pure] at h; cases h; rfl)
        · rintro ⟨_, _, h1, h2, rfl⟩
          cases h1
          cases h2
          cases alternate <;> rfl
  refine ⟨fun s hs hmax => ?_, fun s t b h => ?_, fun s t u h1 h2 => ?_, fun s t n hm hn h => ?_⟩
  · obtain ⟨r, h1, -, -⟩ := double_metaphone_ascii U max s hs hmax
    exact (key _ _ _ _).mpr ⟨r, r, h1, h1, by cases alternate <;> simp⟩
  · obtain ⟨r, r', h1, h2, rfl⟩ := (key _ _ _ _).mp h
    refine (key _ _ _ _).mpr ⟨r', r, h2, h1, ?_⟩
    cases alternate
    · simp only [Bool.false_eq_true, if_false]; exact Bool.beq_comm
    · simp only [if_true]; exact Bool.beq_comm
  · obtain ⟨r1, r2, e1, e2, e3⟩ := (key _ _ _ _).mp h1
    obtain ⟨r3, r4, f1, f2, f3⟩ := (key _ _ _ _).mp h2
    rw [e2] at f1
    cases f1
    refine (key _ _ _ _).mpr ⟨r1, r4, e1, f2, ?_⟩
    cases alternate
    · have g1 : r1.primary = r2.primary := by simpa using e3.symm
      have g2 : r2.primary = r4.primary := by simpa using f3.symm
      simp [g1, g2]
    · have g1 : r1.alternate = r2.alternate := by simpa using e3.symm
      have g2 : r2.alternate = r4.alternate := by simpa using f3.symm
      simp [g1, g2]
  · obtain ⟨r1, r2, e1, e2, e3⟩ := (key _ _ _ _).mp h
    refine (key _ _ _ _).mpr ⟨_, _, (dm_run U max n hm hn s r1 e1).1, (dm_run U max n hm hn t r2 e2).1, ?_⟩
    cases alternate
    · have g1 : r1.primary = r2.primary := by simpa using e3.symm
      simp [limitTo, g1]
    · have g1 : r1.alternate = r2.alternate := by simpa using e3.symm
      simp [limitTo, g1]

example : DoubleMetaphone.default.isDoubleMetaphoneEqual .latin1 c!"Smith" c!"Schmidt" true = .ok false ∧
    DoubleMetaphone.default.isDoubleMetaphoneEqual .latin1 c!"Jablonski" c!"Yablonsky" false = .ok false ∧
    DoubleMetaphone.default.isDoubleMetaphoneEqual .latin1 c!"Jablonski" c!"Yablonsky" true = .ok true := by
  decide +kernel

end Verif.Props
