import Verif.Proofs.BMConfigIff
/-!
# Loading rules with another regular-expression engine and other Unicode tables

Rules that load with ASCII file names and an engine load, to the same rules, with any tables and any engine that
accepts the same expressions.
-/

set_option linter.unusedSimpArgs false

namespace Verif.BMProofs
open BM Spec ParserProofs

/-- Only ASCII letters and digits are alphanumeric. -/
def asciiTables : Unicode :=
  { Unicode.latin1 with
    isAlphabetic := isAsciiAlpha
    isNumeric := isAsciiDigit
    isAlphabetic_ascii := fun _ _ => rfl
    isNumeric_ascii := fun _ _ => rfl }

theorem alnum_transfer (U : Unicode) {c : Char} (h : asciiTables.isAlphanumeric c = true) : U.isAlphanumeric c = true := by
  have ha : isAscii c = true := by
    have h : (isAsciiAlpha c || isAsciiDigit c) = true := h
    simp only [isAsciiAlpha, isAsciiUpper, isAsciiLower, isAsciiDigit, isAscii, Bool.or_eq_true, Bool.and_eq_true,
      decide_eq_true_eq, Char.le_def, UInt32.le_iff_toNat_le] at *
    have e1 : ('Z'.val.toNat = 90) := rfl
    have e2 : ('z'.val.toNat = 122) := rfl
    have e3 : ('9'.val.toNat = 57) := rfl
    have e4 : c.toNat = c.val.toNat := rfl
    omega
  unfold Unicode.isAlphanumeric
  rw [U.isAlphabetic_ascii c ha, U.isNumeric_ascii c ha]
  exact h

theorem include_transfer (U : Unicode) {s a r : Str} (h : Parser.includeDirective asciiTables s = some (a, r)) :
    Parser.includeDirective U s = some (a, r) := by
  obtain ⟨t, h1, h2, h3, rfl⟩ := include_some h
  apply include_print h1 _ h3
  intro c hc
  have := h2 c hc
  simp only [Bool.or_eq_true] at this ⊢
  rcases this with (h | h) | h
  · exact .inl (.inl (alnum_transfer U h))
  · exact .inl (.inr h)
  · exact .inr h

/-- `R` accepts the expressions that `R₀` accepts. -/
def Accepts (R₀ R : RegexEngine) : Prop := ∀ p, R₀.error p = none → R.error p = none

theorem parseContext_transfer {R₀ R : RegexEngine} (hR : Accepts R₀ R) {text : Str} {c : Context}
    (h : parseContext R₀ text = .ok (.ok c)) : parseContext R text = .ok (.ok c) := by
  rw [parseContext_iff] at h ⊢
  rcases h with h | ⟨h1, h2, h3⟩
  · exact .inl h
  · exact .inr ⟨h1, hR _ h2, h3⟩

theorem parseQuadruplet_transfer {R₀ R : RegexEngine} (hR : Accepts R₀ R) {fn : Str} {ln : Nat}
    {q : Str × Str × Str × Str} {r : Rule} (h : parseQuadruplet R₀ fn ln q = .ok (.ok r)) :
    parseQuadruplet R fn ln q = .ok (.ok r) := by
  obtain ⟨p, l, rc, ph⟩ := q
  rw [parseQuadruplet_iff] at h ⊢
  have key : ∀ {text c}, ContextReads R₀ text c → ContextReads R text c := by
    intro text c h
    exact (parseContext_iff R text c).mp (parseContext_transfer hR ((parseContext_iff R₀ text c).mpr h))
  exact ⟨h.1, h.2, h.3, h.4, key h.5, key h.6, h.7⟩

theorem multiline_head {s r : Str} {n : Nat} (h : Parser.multilineComment s = some (n, r)) : s.head? = some '/' := by
  obtain ⟨text, t, h⟩ := multilineComment_some h
  obtain rfl := h.2.2.2
  rfl

theorem ruleLoop_transfer {R₀ R : RegexEngine} (U : Unicode) (hR : Accepts R₀ R)
    {load load' : Str → Res (Except PhoneticError RuleMap)} {fn : Str}
    (hl : ∀ name x, load name = .ok (.ok x) → load' name = .ok (.ok x)) {f : Nat} {s : Str} {ln : Nat} {m x : RuleMap}
    (h : ruleLoop asciiTables R₀ load fn f s ln m = .ok (.ok x)) :
    ruleLoop U R load' fn f s ln m = .ok (.ok x) := by
  induction f generalizing s ln m with
  | zero => cases h
  | succ f ih =>
    unfold ruleLoop at h ⊢
    by_cases hs : s = []
    · subst hs; exact h
    rw [if_neg (by simpa using hs)] at h ⊢
    simp only at h ⊢
    cases hq : Parser.quadruplet s with
    | some y =>
      obtain ⟨q, rm⟩ := y
      rw [hq] at h
      simp only [bind, Except.bind] at h ⊢
      cases hp : parseQuadruplet R₀ fn (ln + 1) q with
      | error e => rw [hp] at h; cases h
      | ok y =>
        rw [hp] at h
        cases y with
        | error e => cases h
        | ok rule =>
          rw [parseQuadruplet_transfer hR hp]
          simp only at h ⊢
          cases hpat : rule.pattern with
          | nil => rw [hpat] at h; cases h
          | cons c cs =>
            rw [hpat] at h
            exact ih h
    | none =>
      rw [hq] at h
      simp only at h ⊢
      cases he : Parser.endOfLine s with
      | some y => rw [he] at h; exact ih h
      | none =>
        rw [he] at h
        simp only at h ⊢
        cases hi : Parser.includeDirective asciiTables s with
        | some y =>
          obtain ⟨name, rm⟩ := y
          rw [hi] at h
          rw [include_transfer U hi]
          simp only [bind, Except.bind] at h ⊢
          cases hn : load name with
          | error e => rw [hn] at h; cases h
          | ok y =>
            rw [hn] at h
            cases y with
            | error e => cases h
            | ok rules =>
              rw [hl _ _ hn]
              exact ih h
        | none =>
          rw [hi] at h
          simp only at h
          cases hm : Parser.multilineComment s with
          | some y =>
            rw [hm] at h
            rw [include_none_of (by rw [multiline_head (n := y.1) (r := y.2) hm]; decide)]
            exact ih h
          | none => rw [hm] at h; cases h

theorem parseRule_transfer {R₀ R : RegexEngine} (U : Unicode) (hR : Accepts R₀ R) {resolver : Resolver} {depth : Nat}
    {fn : Str} {m : RuleMap} (h : parseRule asciiTables R₀ resolver depth fn = .ok (.ok m)) :
    parseRule U R resolver depth fn = .ok (.ok m) := by
  induction depth generalizing fn m with
  | zero => cases h
  | succ depth ih =>
    cases hc : resolver fn with
    | error e => simp only [parseRule, hc] at h ⊢; exact h
    | ok content =>
      rw [parseRule_succ hc] at h ⊢
      exact ruleLoop_transfer U hR (fun name y hy => ih hy) h

/-- Rules that load from some files load from files with the same contents. -/
theorem loadFiles_of {U₀ U : Unicode} {R₀ R : RegexEngine} {resolver : Resolver} {depth depth' : Nat}
    (hf : ∀ fn m, parseRule U₀ R₀ resolver depth fn = .ok (.ok m) → parseRule U R resolver depth' fn = .ok (.ok m))
    {files : List (Str × (NameType × PrivateRuleType × Str))} {rules rules' : Rules}
    (h : loadFiles U₀ R₀ resolver depth files rules = .ok (.ok rules')) :
    loadFiles U R resolver depth' files rules = .ok (.ok rules') := by
  induction files generalizing rules with
  | nil => exact h
  | cons f fs ih =>
    obtain ⟨fn, key⟩ := f
    simp only [loadFiles, bind, Except.bind] at h ⊢
    cases hp : parseRule U₀ R₀ resolver depth fn with
    | error e => rw [hp] at h; cases h
    | ok x =>
      rw [hp] at h
      cases x with
      | error e => cases h
      | ok r =>
        rw [hf _ _ hp]
        exact ih h

theorem rulesLoop_of {U₀ U : Unicode} {R₀ R : RegexEngine} {resolver : Resolver} {depth depth' : Nat}
    (hf : ∀ fn m, parseRule U₀ R₀ resolver depth fn = .ok (.ok m) → parseRule U R resolver depth' fn = .ok (.ok m))
    {languages : Languages} {nts : List NameType} {rules rules' : Rules}
    (h : rulesLoop U₀ R₀ resolver depth languages nts rules = .ok (.ok rules')) :
    rulesLoop U R resolver depth' languages nts rules = .ok (.ok rules') := by
  induction nts generalizing rules with
  | nil => exact h
  | cons nt nts ih =>
    simp only [rulesLoop] at h ⊢
    cases hl : languages.get? nt with
    | none => rw [hl] at h; cases h
    | some l =>
      rw [hl] at h
      simp only [bind, Except.bind] at h ⊢
      cases hf' : loadFiles U₀ R₀ resolver depth (PrivateRuleType.all.flatMap (ruleFiles nt l)) rules with
      | error e => rw [hf'] at h; cases h
      | ok x =>
        rw [hf'] at h
        cases x with
        | error e => cases h
        | ok r =>
          rw [loadFiles_of hf hf']
          exact ih h

theorem buildRules_transfer {R₀ R : RegexEngine} (U : Unicode) (hR : Accepts R₀ R) {resolver : Resolver}
    {depth depth' : Nat} (hd : depth ≤ depth') {languages : Languages} {rules : Rules}
    (h : buildRules asciiTables R₀ resolver depth languages = .ok (.ok rules)) :
    buildRules U R resolver depth' languages = .ok (.ok rules) :=
  rulesLoop_of (fun _ _ hp => parseRule_le hd (parseRule_transfer U hR hp)) h

theorem buildRules_le {U : Unicode} {R : RegexEngine} {resolver : Resolver}
    {depth depth' : Nat} (hd : depth ≤ depth') {languages : Languages} {rules : Rules}
    (h : buildRules U R resolver depth languages = .ok (.ok rules)) :
    buildRules U R resolver depth' languages = .ok (.ok rules) :=
  rulesLoop_of (fun _ _ hp => parseRule_le hd hp) h

end Verif.BMProofs
