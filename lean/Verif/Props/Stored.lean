import Verif.Spec.Stored
import Verif.Proofs.BMSets
import Verif.Proofs.BMPhonemeExpr
/-!
# C118: stored encoders, results and settings are read back as they were
-/

namespace Verif.Props
open Spec Stored BM BMProofs

/-! ## The entries of a map -/

theorem filter_key_nil {e : List (Str × Data)} {n : Str} :
    e.filter (fun x => x.1 == n) = [] ↔ AbsentIn e n := by
  simp [List.filter_eq_nil_iff, AbsentIn]

theorem filter_key_once {e : List (Str × Data)} {n : Str} {x : Str × Data} :
    e.filter (fun x => x.1 == n) = [x] ↔ x.1 = n ∧ OnceIn e n x.2 := by
  induction e with
  | nil =>
    constructor
    · intro h; simp at h
    · rintro ⟨-, a, b, h, -⟩; simp at h
  | cons y ys ih =>
    by_cases hy : y.1 = n
    · rw [List.filter_cons_of_pos (by simpa using hy)]
      constructor
      · intro h
        obtain ⟨rfl, h'⟩ := List.cons.inj h
        refine ⟨hy, [], ys, ?_, by simp, filter_key_nil.1 h'⟩
        subst hy; rfl
      · rintro ⟨hx, a, b, h, ha, hb⟩
        cases a with
        | nil =>
          obtain ⟨rfl, rfl⟩ := List.cons.inj h
          have : x = (n, x.2) := by subst hx; rfl
          rw [this]
          simpa using filter_key_nil.2 hb
        | cons z zs =>
          obtain ⟨rfl, rfl⟩ := List.cons.inj h
          exact absurd hy (ha _ (by simp))
    · rw [List.filter_cons_of_neg (by simpa using hy), ih]
      constructor
      · rintro ⟨hx, a, b, rfl, ha, hb⟩
        refine ⟨hx, y :: a, b, rfl, ?_, hb⟩
        intro e he
        rcases List.mem_cons.1 he with rfl | he
        · exact hy
        · exact ha e he
      · rintro ⟨hx, a, b, h, ha, hb⟩
        cases a with
        | nil =>
          obtain ⟨rfl, rfl⟩ := List.cons.inj h
          exact absurd rfl hy
        | cons z zs =>
          obtain ⟨rfl, rfl⟩ := List.cons.inj h
          exact ⟨hx, zs, b, rfl, fun e he => ha e (by simp [he]), hb⟩

theorem field_absent {e : List (Str × Data)} {n : Str} : field e n = some none ↔ AbsentIn e n := by
  unfold field
  rw [← filter_key_nil]
  cases e.filter (fun x => x.1 == n) with
  | nil => simp
  | cons x xs => cases xs <;> simp

theorem field_once {e : List (Str × Data)} {n : Str} {d : Data} :
    field e n = some (some d) ↔ OnceIn e n d := by
  have h0 := @filter_key_once e n (n, d)
  simp only [true_and] at h0
  rw [← h0]
  unfold field
  split
  · rename_i hx; rw [hx]; simp
  · rename_i x hx
    have h1 := (filter_key_once (e := e) (n := n)).1 hx
    obtain ⟨h1, -⟩ := h1
    rw [hx]
    obtain ⟨x1, x2⟩ := x
    simp only at h1 ⊢
    subst h1
    simp
  · rename_i h1 h2
    simp only [reduceCtorEq, false_iff]
    intro h
    exact h2 _ h

/-! ## The values -/

theorem readUsize_iff {d : Data} {n : Nat} : readUsize d = some n ↔ SpellsNumber d n := by
  unfold readUsize SpellsNumber usizeMax
  split
  · rename_i m
    by_cases h : m ≤ 2 ^ 64 - 1
    · rw [if_pos h]
      constructor
      · intro h'; cases h'; exact ⟨rfl, by omega⟩
      · rintro ⟨h', -⟩; cases h'; rfl
    · rw [if_neg h]
      constructor
      · intro h'; cases h'
      · rintro ⟨h', h''⟩; cases h'; omega
  · rename_i h
    constructor
    · intro h'; cases h'
    · rintro ⟨h', -⟩; exact absurd h' (h _)

theorem readBool_iff {d : Data} {b : Bool} : readBool d = some b ↔ d = .bool b := by
  cases d <;> simp [readBool]

theorem readChar_iff {d : Data} {c : Char} : readChar d = some c ↔ SpellsChar d c := by
  unfold readChar SpellsChar
  split <;> simp_all

theorem readStr_iff {d : Data} {s : Str} : readStr d = some s ↔ SpellsText d s := by
  unfold readStr SpellsText
  split
  · simp
  · rename_i c
    simp only [Option.some.injEq, reduceCtorEq, Data.char.injEq, false_or]
    constructor
    · rintro rfl; exact ⟨c, rfl, rfl⟩
    · rintro ⟨c', rfl, rfl⟩; rfl
  · rename_i h1 h2
    simp only [reduceCtorEq, false_iff]
    rintro (h | ⟨c, -, h⟩)
    · exact h1 _ h
    · exact h2 _ h

theorem readBorrowed_iff {d : Data} {s : Str} : readBorrowed d = some s ↔ d = .str s := by
  cases d <;> simp [readBorrowed]

theorem mapM_readChar {l : List Data} : ∀ {v : Str}, l.mapM readChar = some v ↔
    l.length = v.length ∧ ∀ i (h : i < l.length) (h' : i < v.length), SpellsChar l[i] v[i] := by
  induction l with
  | nil =>
    intro v
    cases v <;> simp
  | cons d ds ih =>
    intro v
    rw [List.mapM_cons]
    cases hd : readChar d with
    | none =>
      simp only [Option.bind_eq_bind, Option.bind_none, reduceCtorEq, false_iff]
      rintro ⟨hl, h⟩
      cases v with
      | nil => simp at hl
      | cons c cs =>
        have := readChar_iff.2 (h 0 (by simp) (by simp))
        simp [hd] at this
    | some c0 =>
      simp only [Option.bind_eq_bind, Option.bind_some]
      cases hds : ds.mapM readChar with
      | none =>
        simp only [Option.bind_none, reduceCtorEq, false_iff]
        rintro ⟨hl, h⟩
        cases v with
        | nil => simp at hl
        | cons c cs =>
          have := (ih (v := cs)).2 ⟨by simpa using hl, fun i h1 h2 =>
            h (i + 1) (by simpa using h1) (by simpa using h2)⟩
          simp [hds] at this
      | some w =>
        have hw := ih.1 hds
        simp only [Option.bind_some, Option.pure_def, Option.some.injEq]
        constructor
        · rintro rfl
          refine ⟨by simp [hw.1], ?_⟩
          intro i h1 h2
          cases i with
          | zero => simpa using readChar_iff.1 hd
          | succ i => simpa using hw.2 i (by simpa using h1) (by simpa using h2)
        · rintro ⟨hl, h⟩
          cases v with
          | nil => simp at hl
          | cons c cs =>
            have h0 := readChar_iff.2 (h 0 (by simp) (by simp))
            simp only [List.getElem_cons_zero, hd, Option.some.injEq] at h0
            have h1 := (ih (v := cs)).2 ⟨by simpa using hl, fun i h1 h2 =>
              h (i + 1) (by simpa using h1) (by simpa using h2)⟩
            rw [hds, Option.some.injEq] at h1
            rw [h0, h1]

theorem readMapping_iff {d : Data} {m : Mapping} : readMapping d = some m ↔ SpellsMapping d m.val := by
  unfold readMapping SpellsMapping
  cases d with
  | seq l =>
    simp only [readSeq]
    constructor
    · intro h
      cases hl : l.mapM readChar with
      | none => simp [hl] at h
      | some v =>
        rw [hl] at h
        simp only [toArray26] at h
        by_cases h26 : v.length = 26
        · rw [dif_pos h26] at h
          simp only [Except.toOption, Option.some.injEq] at h
          subst h
          have := mapM_readChar.1 hl
          exact ⟨l, rfl, this.1, h26, this.2⟩
        · rw [dif_neg h26] at h
          simp [Except.toOption] at h
    · rintro ⟨l', hl', h1, h2, h3⟩
      cases hl'
      rw [mapM_readChar.2 ⟨h1, h3⟩]
      simp only [toArray26]
      rw [dif_pos m.2]
      rfl
  | _ =>
    simp only [readSeq]
    constructor
    · intro h; cases h
    · rintro ⟨l', hl', -⟩; cases hl'

theorem required_iff {α : Type} {read : Data → Option α} {spells : Data → α → Prop}
    (hr : ∀ d x, read d = some x ↔ spells d x) {e : List (Str × Data)} {n : Str} {x : α} :
    (∃ f, field e n = some f ∧ requiredField read f = some x) ↔ SpellsRequired spells e n x := by
  constructor
  · rintro ⟨f, hf, h⟩
    cases f with
    | none => simp [requiredField] at h
    | some d => exact ⟨d, field_once.1 hf, (hr d x).1 h⟩
  · rintro ⟨d, h1, h2⟩
    exact ⟨some d, field_once.2 h1, (hr d x).2 h2⟩

theorem optional_iff {α : Type} {read : Data → Option α} {spells : Data → α → Prop}
    (hr : ∀ d x, read d = some x ↔ spells d x) {e : List (Str × Data)} {n : Str} {x : Option α} :
    (∃ f, field e n = some f ∧ optionalField read f = some x) ↔ SpellsOptional spells e n x := by
  constructor
  · rintro ⟨f, hf, h⟩
    cases f with
    | none =>
      simp only [optionalField, Option.some.injEq] at h
      exact .inl ⟨h.symm, .inl (field_absent.1 hf)⟩
    | some d =>
      have hf' := field_once.1 hf
      clear hf
      cases d <;> simp only [optionalField, readOption, Option.some.injEq, reduceCtorEq] at h
      · exact .inl ⟨h.symm, .inr (.inr hf')⟩
      · exact .inl ⟨h.symm, .inr (.inl hf')⟩
      · rename_i d
        cases hd : read d with
        | none => simp [hd] at h
        | some v =>
          rw [hd] at h
          simp only [Option.map_some, Option.some.injEq] at h
          exact .inr ⟨v, d, h.symm, hf', (hr d v).1 hd⟩
  · rintro (⟨rfl, h | h | h⟩ | ⟨v, d, rfl, h1, h2⟩)
    · exact ⟨none, field_absent.2 h, rfl⟩
    · exact ⟨some .none, field_once.2 h, rfl⟩
    · exact ⟨some .unit, field_once.2 h, rfl⟩
    · refine ⟨some (.some d), field_once.2 h1, ?_⟩
      simp [optionalField, readOption, (hr d v).2 h2]

/-! ## Reading a map -/

/-- What a Soundex encoder is read from: exactly the maps with a mapping of 26 characters and a
flag, each once, in whatever order and beside whatever other entries. -/
theorem soundex_read (e : List (Str × Data)) (s : Soundex) :
    readSoundex (.map e) = some s ↔
      SpellsRequired SpellsMapping e c!"mapping" s.mapping.val ∧
      SpellsRequired (fun d b => d = .bool b) e c!"special_case_h_w" s.specialCaseHW := by
  have h1 := required_iff (read := readMapping) (spells := fun d m => SpellsMapping d m.val)
    (fun _ _ => readMapping_iff) (e := e) (n := c!"mapping") (x := s.mapping)
  have h2 := required_iff (read := readBool) (spells := fun d b => d = .bool b)
    (fun _ _ => readBool_iff) (e := e) (n := c!"special_case_h_w") (x := s.specialCaseHW)
  change _ ↔ SpellsRequired (fun d m => SpellsMapping d m.val) e c!"mapping" s.mapping ∧ _
  rw [← h1, ← h2]
  simp only [readSoundex, fieldsOf, List.mapM_cons, List.mapM_nil]
  rcases field e c!"mapping" with _ | f1
  · simp
  rcases field e c!"special_case_h_w" with _ | f2
  · simp
  obtain ⟨m, h⟩ := s
  rcases k1 : requiredField readMapping f1 with _ | x1
  · simp [k1]
  rcases k2 : requiredField readBool f2 with _ | x2
  · simp [k1, k2]
  simp [k1, k2]

/-- What a Refined Soundex encoder is read from. -/
theorem refined_soundex_read (e : List (Str × Data)) (s : RefinedSoundex) :
    readRefinedSoundex (.map e) = some s ↔
      SpellsRequired SpellsMapping e c!"mapping" s.mapping.val := by
  have h1 := required_iff (read := readMapping) (spells := fun d m => SpellsMapping d m.val)
    (fun _ _ => readMapping_iff) (e := e) (n := c!"mapping") (x := s.mapping)
  change _ ↔ SpellsRequired (fun d m => SpellsMapping d m.val) e c!"mapping" s.mapping
  rw [← h1]
  simp only [readRefinedSoundex, fieldsOf, List.mapM_cons, List.mapM_nil]
  rcases field e c!"mapping" with _ | f1
  · simp
  obtain ⟨m⟩ := s
  rcases k1 : requiredField readMapping f1 with _ | x1 <;> simp [k1]

/-- What a Metaphone encoder is read from; without an entry for the limit there is no limit. -/
theorem metaphone_read (e : List (Str × Data)) (m : Metaphone) :
    readMetaphone (.map e) = some m ↔
      SpellsOptional SpellsNumber e c!"max_code_length" m.maxCodeLength := by
  rw [← optional_iff (read := readUsize) fun _ _ => readUsize_iff]
  simp only [readMetaphone, fieldsOf, List.mapM_cons, List.mapM_nil]
  rcases field e c!"max_code_length" with _ | f1
  · simp
  obtain ⟨m⟩ := m
  rcases k1 : optionalField readUsize f1 with _ | x1 <;> simp [k1]

/-- What a Double Metaphone encoder is read from. -/
theorem double_metaphone_read (e : List (Str × Data)) (m : DoubleMetaphone) :
    readDoubleMetaphone (.map e) = some m ↔
      SpellsOptional SpellsNumber e c!"max_code_length" m.maxCodeLength := by
  rw [← optional_iff (read := readUsize) fun _ _ => readUsize_iff]
  simp only [readDoubleMetaphone, fieldsOf, List.mapM_cons, List.mapM_nil]
  rcases field e c!"max_code_length" with _ | f1
  · simp
  obtain ⟨m⟩ := m
  rcases k1 : optionalField readUsize f1 with _ | x1 <;> simp [k1]

/-- What a Double Metaphone result is read from. -/
theorem double_metaphone_result_read (e : List (Str × Data)) (r : DMResult) :
    readDMResult (.map e) = some r ↔
      SpellsRequired SpellsText e c!"primary" r.primary ∧
      SpellsRequired SpellsText e c!"alternate" r.alternate ∧
      SpellsOptional SpellsNumber e c!"max_length" r.maxLength := by
  rw [← optional_iff (read := readUsize) fun _ _ => readUsize_iff,
    ← required_iff (read := readStr) fun _ _ => readStr_iff,
    ← required_iff (read := readStr) fun _ _ => readStr_iff]
  simp only [readDMResult, fieldsOf, List.mapM_cons, List.mapM_nil]
  rcases field e c!"primary" with _ | f1
  · simp
  rcases field e c!"alternate" with _ | f2
  · simp
  rcases field e c!"max_length" with _ | f3
  · simp
  obtain ⟨p, a, m⟩ := r
  rcases k1 : requiredField readStr f1 with _ | x1
  · simp [k1]
  rcases k2 : requiredField readStr f2 with _ | x2
  · simp [k1, k2]
  rcases k3 : optionalField readUsize f3 with _ | x3
  · simp [k1, k2, k3]
  simp [k1, k2, k3]

/-- What a Nysiis encoder is read from. -/
theorem nysiis_read (e : List (Str × Data)) (n : Nysiis) :
    readNysiis (.map e) = some n ↔ OnceIn e c!"strict" (.bool n.strict) := by
  have h1 := required_iff (read := readBool) (spells := fun d b => d = .bool b)
    (fun _ _ => readBool_iff) (e := e) (n := c!"strict") (x := n.strict)
  have h2 : OnceIn e c!"strict" (.bool n.strict) ↔
      SpellsRequired (fun d b => d = .bool b) e c!"strict" n.strict := by
    simp [SpellsRequired]
  rw [h2, ← h1]
  simp only [readNysiis, fieldsOf, List.mapM_cons, List.mapM_nil]
  rcases field e c!"strict" with _ | f1
  · simp
  obtain ⟨m⟩ := n
  rcases k1 : requiredField readBool f1 with _ | x1 <;> simp [k1]

/-- What a Phonex encoder is read from: here the limit is required. -/
theorem phonex_read (e : List (Str × Data)) (p : Phonex) :
    readPhonex (.map e) = some p ↔
      SpellsRequired SpellsNumber e c!"max_code_length" p.maxCodeLength := by
  rw [← required_iff (read := readUsize) fun _ _ => readUsize_iff]
  simp only [readPhonex, fieldsOf, List.mapM_cons, List.mapM_nil]
  rcases field e c!"max_code_length" with _ | f1
  · simp
  obtain ⟨m⟩ := p
  rcases k1 : requiredField readUsize f1 with _ | x1 <;> simp [k1]

/-- What a parse error is read from. -/
theorem parse_error_read (e : List (Str × Data)) (x : ParseError) :
    readParseError (.map e) = some x ↔
      SpellsRequired SpellsNumber e c!"line_number" x.lineNumber ∧
      SpellsOptional SpellsText e c!"filename" x.filename ∧
      SpellsRequired SpellsText e c!"line_content" x.lineContent ∧
      SpellsRequired SpellsText e c!"description" x.description := by
  rw [← optional_iff (read := readStr) fun _ _ => readStr_iff,
    ← required_iff (read := readUsize) fun _ _ => readUsize_iff,
    ← required_iff (read := readStr) fun _ _ => readStr_iff,
    ← required_iff (read := readStr) fun _ _ => readStr_iff]
  simp only [readParseError, fieldsOf, List.mapM_cons, List.mapM_nil]
  rcases field e c!"line_number" with _ | f1
  · simp
  rcases field e c!"filename" with _ | f2
  · simp
  rcases field e c!"line_content" with _ | f3
  · simp
  rcases field e c!"description" with _ | f4
  · simp
  obtain ⟨p, a, m, d⟩ := x
  rcases k1 : requiredField readUsize f1 with _ | x1
  · simp [k1]
  rcases k2 : optionalField readStr f2 with _ | x2
  · simp [k1, k2]
  rcases k3 : requiredField readStr f3 with _ | x3
  · simp [k1, k2, k3]
  rcases k4 : requiredField readStr f4 with _ | x4
  · simp [k1, k2, k3, k4]
  simp [k1, k2, k3, k4]

/-- What a `CharSequence` is read from.  The length is taken on trust. -/
theorem char_sequence_read (e : List (Str × Data)) (c : CharSequence) :
    readCharSequence (.map e) = some c ↔
      OnceIn e c!"inner" (.str c.inner) ∧
      SpellsRequired SpellsNumber e c!"len_in_char" c.lenInChar := by
  have h2 : OnceIn e c!"inner" (.str c.inner) ↔
      SpellsRequired (fun d s => d = .str s) e c!"inner" c.inner := by
    simp [SpellsRequired]
  rw [h2, ← required_iff (read := readBorrowed) fun _ _ => readBorrowed_iff,
    ← required_iff (read := readUsize) fun _ _ => readUsize_iff]
  simp only [readCharSequence, fieldsOf, List.mapM_cons, List.mapM_nil]
  rcases field e c!"inner" with _ | f1
  · simp
  rcases field e c!"len_in_char" with _ | f2
  · simp
  obtain ⟨i, l⟩ := c
  rcases k1 : requiredField readBorrowed f1 with _ | x1
  · simp [k1]
  rcases k2 : requiredField readUsize f2 with _ | x2
  · simp [k1, k2]
  simp [k1, k2]

/-! ## Writing and reading back -/

theorem onceIn_head {n : Str} {d : Data} {e : List (Str × Data)} (h : AbsentIn e n) :
    OnceIn ((n, d) :: e) n d := ⟨[], e, rfl, by simp, h⟩

theorem onceIn_cons {n m : Str} {d d' : Data} {e : List (Str × Data)} (hn : m ≠ n)
    (h : OnceIn e n d) : OnceIn ((m, d') :: e) n d := by
  obtain ⟨a, b, rfl, ha, hb⟩ := h
  refine ⟨(m, d') :: a, b, rfl, ?_, hb⟩
  intro x hx
  rcases List.mem_cons.1 hx with rfl | hx
  · exact hn
  · exact ha x hx

theorem spellsMapping_store (m : Mapping) : SpellsMapping (storeMapping m) m.val :=
  ⟨_, rfl, by simp, m.2, fun i h h' => .inl (by simp)⟩

theorem spellsOptional_store {α : Type} {spells : Data → α → Prop} {store : α → Data}
    {e : List (Str × Data)} {n : Str} {x : Option α} (hs : ∀ v, x = some v → spells (store v) v)
    (h : OnceIn e n (storeOption store x)) : SpellsOptional spells e n x := by
  cases x with
  | none => exact .inl ⟨rfl, .inr (.inl h)⟩
  | some v => exact .inr ⟨v, store v, rfl, h, hs v rfl⟩

/-- What has been stored is read back as the same value: encoders, results, errors and settings.
Numbers are those of `usize`. -/
theorem stored_round_trip :
    (∀ s, readSoundex (storeSoundex s) = some s) ∧
    (∀ s, readRefinedSoundex (storeRefinedSoundex s) = some s) ∧
    (∀ m, (∀ n, m.maxCodeLength = some n → n < 2 ^ 64) → readMetaphone (storeMetaphone m) = some m) ∧
    (∀ m, (∀ n, m.maxCodeLength = some n → n < 2 ^ 64) →
      readDoubleMetaphone (storeDoubleMetaphone m) = some m) ∧
    (∀ r, (∀ n, r.maxLength = some n → n < 2 ^ 64) → readDMResult (storeDMResult r) = some r) ∧
    (∀ n, readNysiis (storeNysiis n) = some n) ∧
    (∀ p, p.maxCodeLength < 2 ^ 64 → readPhonex (storePhonex p) = some p) ∧
    (∀ e, e.lineNumber < 2 ^ 64 → readParseError (storeParseError e) = some e) ∧
    (∀ c, c.lenInChar < 2 ^ 64 → readCharSequence (storeCharSequence c) = some c) ∧
    (∀ t, readNameType (storeNameType t) = some t) ∧
    (∀ t, readRuleType (storeRuleType t) = some t) := by
  refine ⟨fun s => ?_, fun s => ?_, fun m hm => ?_, fun m hm => ?_, fun r hr => ?_, fun n => ?_,
    fun p hp => ?_, fun e he => ?_, fun c hc => ?_, fun t => ?_, fun t => ?_⟩
  · refine (soundex_read _ _).2 ⟨⟨_, onceIn_head ?_, spellsMapping_store _⟩,
      ⟨_, onceIn_cons (by decide) (onceIn_head ?_), rfl⟩⟩ <;> simp [AbsentIn]
  · exact (refined_soundex_read _ _).2 ⟨_, onceIn_head (by simp [AbsentIn]), spellsMapping_store _⟩
  · exact (metaphone_read _ _).2
      (spellsOptional_store (fun v hv => ⟨rfl, hm v hv⟩) (onceIn_head (by simp [AbsentIn])))
  · exact (double_metaphone_read _ _).2
      (spellsOptional_store (fun v hv => ⟨rfl, hm v hv⟩) (onceIn_head (by simp [AbsentIn])))
  · refine (double_metaphone_result_read _ _).2 ⟨⟨_, onceIn_head ?_, .inl rfl⟩,
      ⟨_, onceIn_cons (by decide) (onceIn_head ?_), .inl rfl⟩,
      spellsOptional_store (fun v hv => ⟨rfl, hr v hv⟩)
        (onceIn_cons (by decide) (onceIn_cons (by decide) (onceIn_head ?_)))⟩ <;> simp [AbsentIn]
  · exact (nysiis_read _ _).2 (onceIn_head (by simp [AbsentIn]))
  · exact (phonex_read _ _).2 ⟨_, onceIn_head (by simp [AbsentIn]), rfl, hp⟩
  · refine (parse_error_read _ _).2 ⟨⟨_, onceIn_head ?_, rfl, he⟩,
      spellsOptional_store (store := .str) (fun v _ => .inl rfl) (onceIn_cons (by decide) (onceIn_head ?_)),
      ⟨_, onceIn_cons (by decide) (onceIn_cons (by decide) (onceIn_head ?_)), .inl rfl⟩,
      ⟨_, onceIn_cons (by decide) (onceIn_cons (by decide) (onceIn_cons (by decide) (onceIn_head ?_))),
        .inl rfl⟩⟩ <;> simp [AbsentIn]
  · refine (char_sequence_read _ _).2 ⟨onceIn_head ?_,
      ⟨_, onceIn_cons (by decide) (onceIn_head ?_), rfl, hc⟩⟩ <;> simp [AbsentIn]
  · cases t <;> rfl
  · cases t <;> rfl

/-- Two encoders are stored alike only if they are the same. -/
theorem stored_apart :
    (∀ s t, storeSoundex s = storeSoundex t → s = t) ∧
    (∀ s t, storeRefinedSoundex s = storeRefinedSoundex t → s = t) ∧
    (∀ s t, storeNysiis s = storeNysiis t → s = t) ∧
    (∀ s t, storeNameType s = storeNameType t → s = t) ∧
    (∀ s t, storeRuleType s = storeRuleType t → s = t) := by
  obtain ⟨h1, h2, -, -, -, h6, -, -, -, h10, h11⟩ := stored_round_trip
  refine ⟨fun s t h => ?_, fun s t h => ?_, fun s t h => ?_, fun s t h => ?_, fun s t h => ?_⟩
  · exact Option.some.inj ((h1 s).symm.trans (h ▸ h1 t))
  · exact Option.some.inj ((h2 s).symm.trans (h ▸ h2 t))
  · exact Option.some.inj ((h6 s).symm.trans (h ▸ h6 t))
  · exact Option.some.inj ((h10 s).symm.trans (h ▸ h10 t))
  · exact Option.some.inj ((h11 s).symm.trans (h ▸ h11 t))

/-! ## Order of entries, unknown entries, positions -/

theorem field_perm {e e' : List (Str × Data)} (h : e.Perm e') (n : Str) : field e n = field e' n := by
  have hp := h.filter (fun x => x.1 == n)
  unfold field
  generalize e.filter (fun x => x.1 == n) = a at hp
  generalize e'.filter (fun x => x.1 == n) = b at hp
  cases a with
  | nil => rw [List.nil_perm.1 hp]
  | cons x xs =>
    cases xs with
    | nil => rw [List.singleton_perm.1 hp]
    | cons y ys =>
      have hl := hp.length_eq
      match b, hl with
      | [], hl => simp at hl
      | [_], hl => simp at hl
      | _ :: _ :: _, _ => rfl

theorem fieldsOf_perm {e e' : List (Str × Data)} (h : e.Perm e') (ns : List Str) :
    fieldsOf ns (.map e) = fieldsOf ns (.map e') := by
  simp only [fieldsOf]
  have : field e = field e' := funext fun n => field_perm h n
  rw [this]

/-- The order of the entries of a map does not matter. -/
theorem stored_any_order (e e' : List (Str × Data)) (h : e.Perm e') :
    readSoundex (.map e) = readSoundex (.map e') ∧
    readRefinedSoundex (.map e) = readRefinedSoundex (.map e') ∧
    readMetaphone (.map e) = readMetaphone (.map e') ∧
    readDoubleMetaphone (.map e) = readDoubleMetaphone (.map e') ∧
    readDMResult (.map e) = readDMResult (.map e') ∧
    readNysiis (.map e) = readNysiis (.map e') ∧
    readPhonex (.map e) = readPhonex (.map e') ∧
    readParseError (.map e) = readParseError (.map e') ∧
    readCharSequence (.map e) = readCharSequence (.map e') := by
  refine ⟨?_, ?_, ?_, ?_, ?_, ?_, ?_, ?_, ?_⟩ <;>
    simp only [readSoundex, readRefinedSoundex, readMetaphone, readDoubleMetaphone, readDMResult,
      readNysiis, readPhonex, readParseError, readCharSequence, fieldsOf_perm h]

theorem field_unknown {a b : List (Str × Data)} {k n : Str} {d : Data} (h : k ≠ n) :
    field (a ++ (k, d) :: b) n = field (a ++ b) n := by
  have : (a ++ (k, d) :: b).filter (fun x => x.1 == n) = (a ++ b).filter (fun x => x.1 == n) := by
    simp [List.filter_append, h]
  unfold field
  rw [this]

theorem fieldsOf_unknown {a b : List (Str × Data)} {k : Str} {d : Data} {ns : List Str}
    (h : k ∉ ns) : fieldsOf ns (.map (a ++ (k, d) :: b)) = fieldsOf ns (.map (a ++ b)) := by
  simp only [fieldsOf]
  induction ns with
  | nil => rfl
  | cons n ns ih =>
    simp only [List.mapM_cons]
    rw [field_unknown (by rintro rfl; exact h (by simp)), ih (fun hn => h (by simp [hn]))]

/-- Entries that are no field are ignored. -/
theorem stored_unknown (a b : List (Str × Data)) (k : Str) (d : Data) :
    (k ≠ c!"mapping" → k ≠ c!"special_case_h_w" →
      readSoundex (.map (a ++ (k, d) :: b)) = readSoundex (.map (a ++ b))) ∧
    (k ≠ c!"mapping" →
      readRefinedSoundex (.map (a ++ (k, d) :: b)) = readRefinedSoundex (.map (a ++ b))) ∧
    (k ≠ c!"max_code_length" →
      readMetaphone (.map (a ++ (k, d) :: b)) = readMetaphone (.map (a ++ b)) ∧
      readDoubleMetaphone (.map (a ++ (k, d) :: b)) = readDoubleMetaphone (.map (a ++ b)) ∧
      readPhonex (.map (a ++ (k, d) :: b)) = readPhonex (.map (a ++ b))) ∧
    (k ≠ c!"strict" →
      readNysiis (.map (a ++ (k, d) :: b)) = readNysiis (.map (a ++ b))) := by
  refine ⟨fun h1 h2 => ?_, fun h1 => ?_, fun h1 => ⟨?_, ?_, ?_⟩, fun h1 => ?_⟩
  · unfold readSoundex; rw [fieldsOf_unknown (by simp [h1, h2])]
  · unfold readRefinedSoundex; rw [fieldsOf_unknown (by simp [h1])]
  · unfold readMetaphone; rw [fieldsOf_unknown (by simp [h1])]
  · unfold readDoubleMetaphone; rw [fieldsOf_unknown (by simp [h1])]
  · unfold readPhonex; rw [fieldsOf_unknown (by simp [h1])]
  · unfold readNysiis; rw [fieldsOf_unknown (by simp [h1])]

/-- An encoder without an entry for the limit is read as one without limit, not as the default;
Phonex, Nysiis and the Soundex encoders are not read at all without their entries. -/
theorem stored_missing (e : List (Str × Data)) :
    (AbsentIn e c!"max_code_length" →
      readMetaphone (.map e) = some (Metaphone.new none) ∧
      readDoubleMetaphone (.map e) = some (DoubleMetaphone.new none) ∧
      readPhonex (.map e) = none) ∧
    (AbsentIn e c!"strict" → readNysiis (.map e) = none) ∧
    (AbsentIn e c!"mapping" → readSoundex (.map e) = none ∧ readRefinedSoundex (.map e) = none) ∧
    (AbsentIn e c!"special_case_h_w" → readSoundex (.map e) = none) := by
  have hno : ∀ {n d}, AbsentIn e n → ¬ OnceIn e n d := by
    rintro n d h ⟨a, b, rfl, -⟩
    exact h (n, d) (by simp) rfl
  refine ⟨fun h => ⟨?_, ?_, ?_⟩, fun h => ?_, fun h => ⟨?_, ?_⟩, fun h => ?_⟩
  · exact (metaphone_read _ _).2 (.inl ⟨rfl, .inl h⟩)
  · exact (double_metaphone_read _ _).2 (.inl ⟨rfl, .inl h⟩)
  · cases hp : readPhonex (.map e) with
    | none => rfl
    | some p => obtain ⟨d, h1, -⟩ := (phonex_read _ _).1 hp; exact absurd h1 (hno h)
  · cases hp : readNysiis (.map e) with
    | none => rfl
    | some p => exact absurd ((nysiis_read _ _).1 hp) (hno h)
  · cases hp : readSoundex (.map e) with
    | none => rfl
    | some p => obtain ⟨⟨d, h1, -⟩, -⟩ := (soundex_read _ _).1 hp; exact absurd h1 (hno h)
  · cases hp : readRefinedSoundex (.map e) with
    | none => rfl
    | some p => obtain ⟨d, h1, -⟩ := (refined_soundex_read _ _).1 hp; exact absurd h1 (hno h)
  · cases hp : readSoundex (.map e) with
    | none => rfl
    | some p => obtain ⟨-, ⟨d, h1, -⟩⟩ := (soundex_read _ _).1 hp; exact absurd h1 (hno h)

/-- Without names, the values are those of the fields in their order, and all of them. -/
theorem stored_positions (l : List Data) :
    (∀ m h, l = [m, h] → readSoundex (.seq l) =
      readSoundex (.map [(c!"mapping", m), (c!"special_case_h_w", h)])) ∧
    (l.length ≠ 2 → readSoundex (.seq l) = none) ∧
    (∀ m, l = [m] → readMetaphone (.seq l) = readMetaphone (.map [(c!"max_code_length", m)])) ∧
    (l.length ≠ 1 → readMetaphone (.seq l) = none) ∧
    (∀ p a m, l = [p, a, m] → readDMResult (.seq l) =
      readDMResult (.map [(c!"primary", p), (c!"alternate", a), (c!"max_length", m)])) ∧
    (l.length ≠ 3 → readDMResult (.seq l) = none) := by
  refine ⟨?_, fun h => ?_, ?_, fun h => ?_, ?_, fun h => ?_⟩
  · rintro m h rfl; rfl
  · simp [readSoundex, fieldsOf, h]
  · rintro m rfl; rfl
  · simp [readMetaphone, fieldsOf, h]
  · rintro p a m rfl; rfl
  · simp [readDMResult, fieldsOf, h]

/-! ## Settings of Beider-Morse -/

/-- A name type is stored under the name by which it is displayed, and is read from exactly the
names from which it is parsed. -/
theorem name_type_stored :
    (∀ t : NameType, storeNameType t = .variant t.display .unit) ∧
    ∀ n t, readNameType (.variant n .unit) = some t ↔ NameType.ofStr n = .ok t := by
  refine ⟨fun t => by cases t <;> rfl, fun n t => ?_⟩
  simp only [readNameType, NameType.ofStr]
  by_cases h1 : n = c!"ash"
  · rw [if_pos h1, if_pos h1]; simp
  rw [if_neg h1, if_neg h1]
  by_cases h2 : n = c!"gen"
  · rw [if_pos h2, if_pos h2]; simp
  rw [if_neg h2, if_neg h2]
  by_cases h3 : n = c!"sep"
  · rw [if_pos h3, if_pos h3]; simp
  rw [if_neg h3, if_neg h3]; simp

/-- The names under which the variants without content are stored, and that nothing else is read
as one: a rule type, and the sets of all and of no languages. -/
theorem settings_stored_names (n : Str) :
    (∀ t, readRuleType (.variant n .unit) = some t ↔
      (n = c!"Approx" ∧ t = .approx) ∨ (n = c!"Exact" ∧ t = .exact)) ∧
    ∀ s, readLanguageSet (.variant n .unit) = some s ↔
      (n = c!"Any" ∧ s = .any) ∨ (n = c!"NoLanguages" ∧ s = .noLanguages) := by
  constructor
  · intro t
    simp only [readRuleType]
    by_cases h1 : n = c!"Approx"
    · subst h1; cases t <;> decide
    · rw [if_neg h1]
      by_cases h2 : n = c!"Exact"
      · subst h2; cases t <;> decide
      · rw [if_neg h2]; simp [h1, h2]
  · intro s
    simp only [readLanguageSet]
    by_cases h1 : n = c!"Any"
    · subst h1
      rw [if_pos rfl]
      exact ⟨fun h => .inl ⟨rfl, (Option.some.inj h).symm⟩, fun h => by
        rcases h with ⟨-, rfl⟩ | ⟨h, -⟩
        · rfl
        · exact absurd h (by decide)⟩
    · rw [if_neg h1]
      by_cases h2 : n = c!"NoLanguages"
      · subst h2
        rw [if_pos rfl]
        exact ⟨fun h => .inr ⟨rfl, (Option.some.inj h).symm⟩, fun h => by
          rcases h with ⟨h, -⟩ | ⟨-, rfl⟩
          · exact absurd h (by decide)
          · rfl⟩
      · rw [if_neg h2]
        by_cases h3 : n = c!"SomeLanguages"
        · subst h3; simp [readSeq]
        · rw [if_neg h3]; simp [h1, h2]

theorem mapM_readStr (l : List Str) : (l.map Data.str).mapM readStr = some l := by
  induction l with
  | nil => rfl
  | cons s ss ih => simp [List.mapM_cons, ih, readStr]

theorem readLanguages (l : List Str) :
    readLanguageSet (.variant c!"SomeLanguages" (.seq (l.map .str))) =
      some (.someLanguages (setOfList strCmp l)) := by
  have h : readSeq readStr (.seq (l.map .str)) = some l := mapM_readStr l
  change (readSeq readStr (.seq (l.map .str))).map _ = _
  rw [h]; rfl

/-- A stored set of languages is read back as the same set, and a list of languages is read as the
set of them: ordered, without repetitions, whatever the order of the list and its repetitions. -/
theorem language_set_stored :
    (∀ s, (∀ l, s = .someLanguages l → StrSetWF l) → readLanguageSet (storeLanguageSet s) = some s) ∧
    (∀ l : List Str, ∃ s, readLanguageSet (.variant c!"SomeLanguages" (.seq (l.map .str))) =
        some (.someLanguages s) ∧ StrSetWF s ∧ ∀ x, x ∈ s ↔ x ∈ l) ∧
    (∀ l l' : List Str, readLanguageSet (.variant c!"SomeLanguages" (.seq (l.map .str))) =
        readLanguageSet (.variant c!"SomeLanguages" (.seq (l'.map .str))) ↔ ∀ x, x ∈ l ↔ x ∈ l') := by
  have hw : ∀ l : List Str, StrSetWF (setOfList strCmp l) :=
    fun l => setOfList_sorted id strCmp (fun _ _ => rfl) l
  have hm : ∀ (l : List Str) x, x ∈ setOfList strCmp l ↔ x ∈ l := fun l x => by
    simpa using setOfList_keys id strCmp (fun _ _ => rfl) l x
  refine ⟨fun s hs => ?_, fun l => ⟨_, readLanguages l, hw l, hm l⟩, fun l l' => ?_⟩
  · cases s with
    | any => rfl
    | noLanguages => rfl
    | someLanguages l =>
      refine (readLanguages l).trans ?_
      rw [strSet_ext (hw l) (hs l rfl) (hm l)]
  · rw [readLanguages, readLanguages]
    constructor
    · intro h x
      have h' : setOfList strCmp l = setOfList strCmp l' := by simpa using h
      rw [← hm l, h', hm l']
    · intro h
      rw [strSet_ext (hw l) (hw l') fun x => by rw [hm, hm, h]]

/-- A stored `CharSequence` is not checked: the length read is the one written, whatever the text. -/
theorem char_sequence_stored :
    (∀ s : Str, s.length < 2 ^ 64 →
      readCharSequence (storeCharSequence (CharSequence.ofStr s)) = some (CharSequence.ofStr s)) ∧
    ∀ (s : Str) (n : Nat), n < 2 ^ 64 → ∃ c,
      readCharSequence (.map [(c!"inner", .str s), (c!"len_in_char", .num n)]) = some c ∧
        c.asStr = s ∧ c.len = n :=
  ⟨fun _ h => stored_round_trip.2.2.2.2.2.2.2.2.1 _ h,
    fun s n h => ⟨⟨s, n⟩, stored_round_trip.2.2.2.2.2.2.2.2.1 ⟨s, n⟩ h, rfl, rfl⟩⟩

/-! ## Concrete cases -/

/-- The default Soundex, from a map in the other order with an entry that is no field. -/
example : readSoundex (.map [(c!"special_case_h_w", .bool true), (c!"version", .num 3),
    (c!"mapping", .seq (c!"01230120022455012623010202".map .char))]) =
      some ⟨defaultMapping, true⟩ := by rfl

/-- A field written twice is an error. -/
example : readNysiis (.map [(c!"strict", .bool true), (c!"strict", .bool true)]) = none := by rfl

/-- 25 characters are not a mapping. -/
example : readRefinedSoundex (.map [(c!"mapping", .seq (c!"0123012002245501262301020".map .char))]) =
    none := by rfl

/-- The limit. -/
example : readMetaphone (.map [(c!"max_code_length", .some (.num 4))]) = some Metaphone.default ∧
    readMetaphone (.map []) = some ⟨none⟩ ∧
    readMetaphone (.map [(c!"max_code_length", .some (.num (2 ^ 64)))]) = none := by
  refine ⟨by rfl, by rfl, by decide⟩

/-- Languages in the wrong order, one of them twice; and none. -/
example : readLanguageSet (.variant c!"SomeLanguages" (.seq [.str c!"german", .str c!"english", .str c!"german"])) =
      some (.someLanguages [c!"english", c!"german"]) ∧
    readLanguageSet (.variant c!"SomeLanguages" (.seq [])) = some (.someLanguages []) := by
  refine ⟨by rfl, by rfl⟩

/-- A length that is not that of the text. -/
example : ∃ c, readCharSequence (.map [(c!"inner", .str c!"abc"), (c!"len_in_char", .num 7)]) = some c ∧
    c.asStr = c!"abc" ∧ c.len = 7 := char_sequence_stored.2 _ _ (by decide)

end Verif.Props
