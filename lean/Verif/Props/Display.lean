import Verif.Model.Display
import Verif.Props.DoubleMetaphone
import Verif.Props.DaitchMokotoff
/-!
# Printed results and messages: C80
-/

set_option linter.unusedSimpArgs false

namespace Verif.Props
open Verif.DMProofs Verif.Spec Verif.BM Verif.DaitchMokotoff Verif.DMKProofs

/-- Two texts that agree up to a separator they do not contain. -/
theorem before_sep {p : Char → Prop} {c : Char} (hc : ¬ p c) : ∀ {x y r r' : Str}, (∀ d ∈ x, p d) → (∀ d ∈ y, p d) →
    x ++ c :: r = y ++ c :: r' → x = y ∧ r = r'
  | [], [], r, r', _, _, h => by injection h with _ h; exact ⟨rfl, h⟩
  | [], d :: y, r, r', _, hy, h => by injection h with h1; exact absurd (hy d (by simp)) (h1 ▸ hc)
  | d :: x, [], r, r', hx, _, h => by injection h with h1; exact absurd (hx d (by simp)) (h1 ▸ hc)
  | d :: x, e :: y, r, r', hx, hy, h => by
    injection h with h1 h2
    obtain ⟨h3, h4⟩ := before_sep hc (fun d hd => hx d (by simp [hd])) (fun d hd => hy d (by simp [hd])) h2
    exact ⟨by rw [h1, h3], h4⟩

/-- C80. What is printed of two Double Metaphone results, whatever the texts, limits and case tables they come from, is
equal exactly when both codes are. -/
theorem double_metaphone_display (U V : Unicode) (m n : Option Nat) (s t : Str) (r q : DMResult)
    (h : (DoubleMetaphone.new m).doubleMetaphone U s = .ok r) (h' : (DoubleMetaphone.new n).doubleMetaphone V t = .ok q) :
    r.display = q.display ↔ r.getPrimary = q.getPrimary ∧ r.getAlternate = q.getAlternate := by
  have key : ∀ (U : Unicode) (m : Option Nat) (s : Str) (r : DMResult), (DoubleMetaphone.new m).doubleMetaphone U s = .ok r →
      ∀ d ∈ r.primary, d ≠ ',' := by
    intro U m s r h d hd
    obtain ⟨i, hi⟩ := List.getElem?_of_mem hd
    rcases (double_metaphone_alphabet U m s r h).1 i d hi with h1 | ⟨-, rfl⟩
    · rintro rfl; revert h1; decide
    · decide
  constructor
  · intro e
    unfold DMResult.display at e
    simp only [List.append_assoc, List.append_cancel_left_eq] at e
    obtain ⟨e1, e2⟩ := before_sep (p := fun d => d ≠ ',') (by simp) (key U m s r h) (key V n t q h') e
    have e3 : c!" alternate=" ++ (r.alternate ++ c!"]") = c!" alternate=" ++ (q.alternate ++ c!"]") := e2
    exact ⟨e1, List.append_cancel_right (List.append_cancel_left e3)⟩
  · rintro ⟨h1, h2⟩
    unfold DMResult.display
    unfold DMResult.getPrimary at h1
    unfold DMResult.getAlternate at h2
    rw [h1, h2]

/-- C80. The message of a Daitch-Mokotoff builder: the text around the number of the line and the line; two messages are
equal exactly when number and line are. -/
theorem dm_error_message (b b' : Builder) (e e' : ParseError) (h : b.build = .ok (.error e)) (h' : b'.build = .ok (.error e')) :
    (PhoneticError.parseRuleError e).display = c!"Error parsing rule file Unknown:" ++ usizeDisplay e.lineNumber ++
      c!" Can't recognize line : " ++ e.lineContent ∧
    ((PhoneticError.parseRuleError e).display = (PhoneticError.parseRuleError e').display ↔
      e.lineNumber = e'.lineNumber ∧ e.lineContent = e'.lineContent) := by
  have key : ∀ (b : Builder) (e : ParseError), b.build = .ok (.error e) →
      (PhoneticError.parseRuleError e).display = c!"Error parsing rule file Unknown:" ++ usizeDisplay e.lineNumber ++
      c!" Can't recognize line : " ++ e.lineContent := by
    intro b e h
    unfold Builder.build at h
    rw [buildLoop_eq (Nat.lt_succ_self _)] at h
    rcases buildFrom_outcome b.rules.length b.rules (Nat.le_refl _) 0 ([], []) with
      ⟨items, -, -, -, h4⟩ | ⟨items, bad, h1, h2, h3, h4⟩ | ⟨items, b1, x, b2, v, b3, o, tl, rest, h1, -, h4⟩
    · rw [h4] at h; injection h with h; cases h
    · rw [h4] at h
      injection h with h
      injection h with h
      subst h
      simp [PhoneticError.display, ParseError.display, buildError]
    · rw [h4] at h; cases h
  refine ⟨key b e h, ?_⟩
  rw [key b e h, key b' e' h']
  constructor
  · intro e1
    simp only [List.append_assoc, List.append_cancel_left_eq] at e1
    have hd : ∀ n, ∀ d ∈ usizeDisplay n, d ≠ ' ' := by
      rintro n d hd rfl
      have := Nat.isDigit_of_mem_toDigits (by omega) (by omega) hd
      revert this
      decide
    obtain ⟨e2, e3⟩ := before_sep (p := fun d => d ≠ ' ') (by simp) (hd _) (hd _) e1
    have e4 : c!"Can't recognize line : " ++ e.lineContent = c!"Can't recognize line : " ++ e'.lineContent := e3
    refine ⟨?_, List.append_cancel_left e4⟩
    have := congrArg (fun l => Nat.ofDigitChars 10 l 0) e2
    simpa only [usizeDisplay, Nat.ofDigitChars_ten_toDigits] using this
  · rintro ⟨h1, h2⟩
    rw [h1, h2]

theorem joinWith_inj : ∀ {l l' : List Str}, (∀ x ∈ l, x ≠ [] ∧ ∀ d ∈ x, d ≠ ',') → (∀ x ∈ l', x ≠ [] ∧ ∀ d ∈ x, d ≠ ',') →
    joinWith c!"," l = joinWith c!"," l' → l = l'
  | [], [], _, _, _ => rfl
  | [], [x], _, h', h => absurd h.symm (h' x (by simp)).1
  | [], x :: y :: l', _, h', h => by simp [joinWith] at h
  | [x], [], h', _, h => absurd h (h' x (by simp)).1
  | x :: y :: l, [], _, _, h => by simp [joinWith] at h
  | [x], [y], _, _, h => by simp only [joinWith] at h; rw [h]
  | [x], y :: z :: l', h1, _, h => by
    simp only [joinWith] at h
    exact absurd rfl ((h1 x (by simp)).2 ',' (by rw [h]; simp))
  | x :: z :: l, [y], _, h1, h => by
    simp only [joinWith] at h
    exact absurd rfl ((h1 y (by simp)).2 ',' (by rw [← h]; simp))
  | x :: z :: l, y :: w :: l', h1, h2, h => by
    simp only [joinWith, List.append_assoc, List.cons_append, List.nil_append] at h
    obtain ⟨e1, e2⟩ := before_sep (p := fun d => d ≠ ',') (by simp) (h1 x (by simp)).2 (h2 y (by simp)).2 h
    rw [e1, joinWith_inj (fun x hx => h1 x (by simp [List.mem_cons.mp hx])) (fun x hx => h2 x (by simp [List.mem_cons.mp hx])) e2]

/-- The languages of a set are named by non-empty words without comma that are not the two reserved words. -/
def PlainlyNamed : LanguageSet → Prop
  | .someLanguages ls => ∀ l ∈ ls, l ≠ [] ∧ l ≠ c!"ANY_LANGUAGE" ∧ l ≠ c!"NO_LANGUAGES" ∧ ',' ∉ l
  | _ => True

/-- C80. The printed form of a language set determines it, if the languages are plainly named. -/
theorem languageSet_display (a b : LanguageSet) (ha : PlainlyNamed a) (hb : PlainlyNamed b) :
    a.display = b.display ↔ a = b := by
  refine ⟨fun h => ?_, fun h => by rw [h]⟩
  have single : ∀ (w : Str) (ls : StrSet), PlainlyNamed (.someLanguages ls) → (∀ d ∈ w, d ≠ ',') → w ≠ [] →
      w = joinWith c!"," ls → w ∈ ls := by
    intro w ls hl hw hn e
    have := joinWith_inj (l := [w]) (l' := ls) (fun x hx => by
        simp only [List.mem_singleton] at hx; subst hx; exact ⟨hn, hw⟩)
      (fun x hx => ⟨(hl x hx).1, fun d hd => by rintro rfl; exact (hl x hx).2.2.2 hd⟩) e
    rw [← this]; simp
  cases a with
  | any =>
    cases b with
    | any => rfl
    | noLanguages => revert h; decide
    | someLanguages ls => exact absurd rfl (hb _ (single _ ls hb (by decide) (by decide) h)).2.1
  | noLanguages =>
    cases b with
    | any => revert h; decide
    | noLanguages => rfl
    | someLanguages ls => exact absurd rfl (hb _ (single _ ls hb (by decide) (by decide) h)).2.2.1
  | someLanguages ls =>
    cases b with
    | any => exact absurd rfl (ha _ (single _ ls ha (by decide) (by decide) h.symm)).2.1
    | noLanguages => exact absurd rfl (ha _ (single _ ls ha (by decide) (by decide) h.symm)).2.2.1
    | someLanguages ls' =>
      rw [joinWith_inj (fun x hx => ⟨(ha x hx).1, fun d hd => by rintro rfl; exact (ha x hx).2.2.2 hd⟩)
        (fun x hx => ⟨(hb x hx).1, fun d hd => by rintro rfl; exact (hb x hx).2.2.2 hd⟩) h]

/-- C80, the hypothesis is needed: a language with a comma in its name prints like two languages. -/
theorem languageSet_display_comma : (LanguageSet.someLanguages [c!"a,b"]).display = (LanguageSet.someLanguages [c!"a", c!"b"]).display := by
  decide

/-- C80, not vacuous. -/
example : (DoubleMetaphone.default.doubleMetaphone .latin1 c!"Schmidt").toOption.map DMResult.display =
      some c!"[primary=XMT, alternate=SMT]" ∧
    (Builder.build ⟨c!"// words\n\"a\" \"0\" \"1\"\nnext", false⟩).toOption.map (fun e => match e with
      | .error e => (PhoneticError.parseRuleError e).display
      | .ok _ => []) = some c!"Error parsing rule file Unknown:2 Can't recognize line : \"a\" \"0\" \"1\"" ∧
    PlainlyNamed (.someLanguages [c!"english", c!"french"]) ∧
    (LanguageSet.someLanguages [c!"english", c!"french"]).display = c!"english,french" := by
  refine ⟨by decide +kernel, by decide +kernel, ?_, by decide +kernel⟩
  intro l hl
  simp only [List.mem_cons, List.not_mem_nil, or_false] at hl
  rcases hl with rfl | rfl <;> decide

end Verif.Props
