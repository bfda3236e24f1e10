import Verif.Proofs.BMConfig
import Verif.Props.BMRegex
/-!
# Phoneme expressions
-/

set_option linter.unusedSimpArgs false
set_option linter.unusedVariables false

namespace Verif.BMProofs
open BM Spec Props

theorem last_bracket (x z : Str) (y c : Char) : (x ++ y :: (z ++ [c])).getLast? = some c := by
  have : x ++ y :: (z ++ [c]) = (x ++ y :: z) ++ [c] := by simp
  rw [this]; exact List.getLast?_concat

theorem parsePhoneme_plain {t : Str} (h : '[' ∉ t) : parsePhoneme t = .ok (.ok ⟨t, .any⟩) := by
  unfold parsePhoneme
  rw [if_neg (by simpa using h)]

theorem parsePhoneme_bracket {text ls : Str} (h : '[' ∉ text) :
    parsePhoneme (text ++ '[' :: (ls ++ [']'])) =
      .ok (.ok ⟨text, .someLanguages (setOfList strCmp (splitOnChar '+' ls))⟩) := by
  unfold parsePhoneme
  rw [if_pos (by simp)]
  have hend : endsWith (text ++ '[' :: (ls ++ [']'])) c!"]" = true := by
    rw [endsWith_char, last_bracket]; rfl
  rw [if_neg (by simp [hend])]
  have htake : (text ++ '[' :: (ls ++ [']'])).takeWhile (· != '[') = text := by
    apply (ParserProofs.span_append (p := (· != '[')) _ _).1
    · intro c hc
      have : c ≠ '[' := fun e => h (e ▸ hc)
      simpa using this
    · intro c hc; simp at hc; subst hc; rfl
  rw [htake]
  simp only [bind, Except.bind, sliceTo_append]
  have hlen : byteLen (text ++ '[' :: (ls ++ [']'])) = byteLen text + 1 + byteLen ls + 1 := by
    rw [byteLen_append]
    have : byteLen ('[' :: (ls ++ [']'])) = 1 + byteLen (ls ++ [']']) := rfl
    rw [this, byteLen_append]
    have : byteLen [']'] = 1 := rfl
    omega
  have hsub : usub (byteLen (text ++ '[' :: (ls ++ [']']))) 1 = .ok (byteLen text + 1 + byteLen ls) := by
    rw [hlen]; simp [usub]
  rw [hsub]
  simp only
  have hslice : slice (text ++ '[' :: (ls ++ [']'])) (byteLen text + 1) (byteLen text + 1 + byteLen ls) = .ok ls := by
    unfold slice
    rw [if_pos (by omega)]
    have e : text ++ '[' :: (ls ++ [']']) = (text ++ ['[']) ++ (ls ++ [']']) := by simp
    have hb : byteLen (text ++ ['[']) = byteLen text + 1 := by rw [byteLen_append]; rfl
    rw [e, ← hb, splitAtByte_append]
    simp only
    rw [show byteLen (text ++ ['[']) + byteLen ls - byteLen (text ++ ['[']) = byteLen ls by omega]
    simpa using sliceTo_append ls [']']
  rw [hslice]
  rfl

theorem split_bracket {t : Str} (h : '[' ∈ t) : ∃ a b, t = a ++ '[' :: b ∧ '[' ∉ a := by
  induction t with
  | nil => cases h
  | cons c t ih =>
    by_cases hc : c = '['
    · subst hc; exact ⟨[], t, rfl, by simp⟩
    · rcases List.mem_cons.mp h with h | h
      · exact absurd h.symm hc
      · obtain ⟨a, b, e, ha⟩ := ih h
        refine ⟨c :: a, b, by rw [e]; rfl, ?_⟩
        intro hm
        rcases List.mem_cons.mp hm with hm | hm
        · exact hc hm.symm
        · exact ha hm

theorem parsePhoneme_cases (t : Str) :
    (∃ p, parsePhoneme t = .ok (.ok p) ∧ PhonemeReads t p) ∨
    ((∃ m, parsePhoneme t = .ok (.error (.wrongPhoneme m))) ∧ ∀ p, ¬ PhonemeReads t p) := by
  by_cases h : '[' ∈ t
  · obtain ⟨a, b, rfl, ha⟩ := split_bracket h
    cases hl : b.getLast? with
    | none =>
      have : b = [] := List.getLast?_eq_none_iff.mp hl
      subst this
      right
      constructor
      · unfold parsePhoneme
        rw [if_pos (by simp), if_pos (by rw [endsWith_char]; simp)]
        exact ⟨_, rfl⟩
      · rintro p (⟨hp, -⟩ | ⟨text, ls, S, e, -⟩)
        · exact hp (by simp)
        · have := congrArg List.getLast? e
          rw [last_bracket, List.getLast?_concat] at this
          cases this
    | some c =>
      obtain ⟨ls, rfl⟩ := List.getLast?_eq_some_iff.mp hl
      by_cases hc : c = ']'
      · subst hc
        left
        exact ⟨_, parsePhoneme_bracket ha, .inr ⟨a, ls, _, rfl, ha, rfl,
          setOfList_sorted id strCmp (fun _ _ => rfl) _,
          fun l => by simpa using setOfList_keys id strCmp (fun _ _ => rfl) (splitOnChar '+' ls) l⟩⟩
      · right
        have hne : endsWith (a ++ '[' :: (ls ++ [c])) c!"]" = false := by
          rw [endsWith_char, last_bracket]; simpa using hc
        constructor
        · unfold parsePhoneme
          rw [if_pos (by simp), if_pos (by rw [hne]; rfl)]
          exact ⟨_, rfl⟩
        · rintro p (⟨hp, -⟩ | ⟨text, ls', S, e, -⟩)
          · exact hp (by simp)
          · have := congrArg List.getLast? e
            rw [last_bracket, last_bracket] at this
            exact hc (by simpa using this)
  · left
    exact ⟨_, parsePhoneme_plain h, .inl ⟨h, rfl⟩⟩

theorem append_bracket_inj {a b a' b' : Str} (h : a ++ '[' :: b = a' ++ '[' :: b') (ha : '[' ∉ a) (ha' : '[' ∉ a') :
    a = a' ∧ b = b' := by
  induction a generalizing a' with
  | nil =>
    cases a' with
    | nil => exact ⟨rfl, (List.cons.inj h).2⟩
    | cons c a' => exact absurd ((List.cons.inj h).1 ▸ List.mem_cons_self) ha'
  | cons c a ih =>
    cases a' with
    | nil => exact absurd ((List.cons.inj h).1 ▸ List.mem_cons_self) ha
    | cons c' a' =>
      obtain ⟨h1, h2⟩ := List.cons.inj h
      obtain ⟨e1, e2⟩ := ih h2 (fun h => ha (List.mem_cons_of_mem _ h)) (fun h => ha' (List.mem_cons_of_mem _ h))
      exact ⟨by rw [h1, e1], e2⟩

theorem strSet_ext {s t : StrSet} (hs : StrSetWF s) (ht : StrSetWF t) (h : ∀ l, l ∈ s ↔ l ∈ t) : s = t :=
  sorted_ext (key := id) hs ht h

theorem phonemeReads_unique {t : Str} {p q : Phoneme} (hp : PhonemeReads t p) (hq : PhonemeReads t q) : p = q := by
  rcases hp with ⟨h1, rfl⟩ | ⟨text, ls, S, e, ht, rfl, hw, hm⟩
  · rcases hq with ⟨-, rfl⟩ | ⟨text', ls', S', e', -⟩
    · rfl
    · exact absurd (by rw [e']; simp) h1
  · rcases hq with ⟨h1, -⟩ | ⟨text', ls', S', e', ht', rfl, hw', hm'⟩
    · exact absurd (by rw [e]; simp) h1
    · obtain ⟨e1, e2⟩ := append_bracket_inj (e.symm.trans e') ht ht'
      have e3 : ls = ls' := List.append_cancel_right e2
      subst e1; subst e3
      rw [strSet_ext hw hw' fun l => (hm l).trans (hm' l).symm]

/-- Reading a phoneme. -/
theorem parsePhoneme_iff (t : Str) (p : Phoneme) : parsePhoneme t = .ok (.ok p) ↔ PhonemeReads t p := by
  rcases parsePhoneme_cases t with ⟨q, h1, h2⟩ | ⟨⟨m, h1⟩, h2⟩
  · rw [h1]
    simp only [Except.ok.injEq]
    exact ⟨fun h => h ▸ h2, fun h => phonemeReads_unique h2 h⟩
  · rw [h1]
    exact ⟨fun h => by simp at h, fun h => absurd h (h2 p)⟩

theorem parsePhonemes_iff (parts : List Str) (acc ps : List Phoneme) :
    parsePhonemes parts acc = .ok (.ok ps) ↔
      ∃ alts, alts.length = parts.length ∧ (∀ x ∈ parts.zip alts, PhonemeReads x.1 x.2) ∧ ps = acc ++ alts := by
  induction parts generalizing acc with
  | nil =>
    simp only [parsePhonemes, Except.ok.injEq, List.length_nil, List.length_eq_zero_iff]
    constructor
    · rintro rfl; exact ⟨[], rfl, by simp, by simp⟩
    · rintro ⟨_, rfl, -, rfl⟩; simp
  | cons t parts ih =>
    simp only [parsePhonemes, bind, Except.bind]
    constructor
    · intro h
      rcases parsePhoneme_cases t with ⟨q, h1, h2⟩ | ⟨⟨m, h1⟩, h2⟩
      · rw [h1] at h
        simp only at h
        obtain ⟨alts, a1, a2, rfl⟩ := (ih _).mp h
        refine ⟨q :: alts, by simp [a1], ?_, by simp⟩
        intro x hx
        rcases List.mem_cons.mp hx with rfl | hx
        · exact h2
        · exact a2 x hx
      · rw [h1] at h; cases h
    · rintro ⟨alts, a1, a2, rfl⟩
      cases alts with
      | nil => cases a1
      | cons q alts =>
        have h1 := (parsePhoneme_iff t q).mpr (a2 (t, q) List.mem_cons_self)
        rw [h1]
        simp only
        refine (ih _).mpr ⟨alts, by simpa using a1, fun x hx => a2 x (List.mem_cons_of_mem _ hx), by simp⟩

theorem parsePhonemes_total (parts : List Str) (acc : List Phoneme) :
    (∃ ps, parsePhonemes parts acc = .ok (.ok ps)) ∨ ∃ m, parsePhonemes parts acc = .ok (.error (.wrongPhoneme m)) := by
  induction parts generalizing acc with
  | nil => exact .inl ⟨acc, rfl⟩
  | cons t parts ih =>
    simp only [parsePhonemes, bind, Except.bind]
    rcases parsePhoneme_cases t with ⟨q, h1, h2⟩ | ⟨⟨m, h1⟩, h2⟩
    · rw [h1]; exact ih _
    · rw [h1]; exact .inr ⟨m, rfl⟩

/-! ## The split at bars -/

theorem bars_cons {t : Str} {ts : List Str} (h : ts ≠ []) : bars (t :: ts) = t ++ '|' :: bars ts := by
  cases ts with
  | nil => exact absurd rfl h
  | cons u us => rfl

theorem splitOnChar_spec (s : Str) :
    splitOnChar '|' s ≠ [] ∧ (∀ t ∈ splitOnChar '|' s, '|' ∉ t) ∧ bars (splitOnChar '|' s) = s := by
  induction s with
  | nil => exact ⟨by simp [splitOnChar], by simp [splitOnChar], rfl⟩
  | cons c s ih =>
    obtain ⟨h1, h2, h3⟩ := ih
    simp only [splitOnChar]
    by_cases hc : c = '|'
    · subst hc
      rw [if_pos rfl]
      refine ⟨by simp, ?_, ?_⟩
      · intro t ht
        rcases List.mem_cons.mp ht with rfl | ht
        · simp
        · exact h2 t ht
      · rw [bars_cons h1, h3]; rfl
    · rw [if_neg hc]
      cases hs : splitOnChar '|' s with
      | nil => exact absurd hs h1
      | cons t ts =>
        rw [hs] at h2 h3
        refine ⟨by simp, ?_, ?_⟩
        · intro u hu
          rcases List.mem_cons.mp hu with rfl | hu
          · intro hm
            rcases List.mem_cons.mp hm with hm | hm
            · exact hc hm.symm
            · exact h2 t List.mem_cons_self hm
          · exact h2 u (List.mem_cons_of_mem _ hu)
        · cases ts with
          | nil => simp only [bars] at h3 ⊢; rw [h3]
          | cons u us => rw [bars_cons (by simp)] at h3 ⊢; rw [← h3]; rfl

theorem bars_ends {parts : List Str} (hne : parts ≠ []) (h : ∀ t ∈ parts, '|' ∉ t) :
    (startsWith (bars parts) c!"|" || endsWith (bars parts) c!"|") = true ↔
      1 < parts.length ∧ (parts.head? = some [] ∨ parts.getLast? = some []) := by
  rw [startsWith_char, endsWith_char]
  cases parts with
  | nil => exact absurd rfl hne
  | cons t ts =>
    by_cases hts : ts = []
    · subst hts
      have ht := h t List.mem_cons_self
      simp only [bars, List.length_singleton, Bool.or_eq_true, beq_iff_eq]
      constructor
      · rintro (e | e)
        · obtain ⟨x, rfl⟩ := List.head?_eq_some_iff.mp e; exact absurd List.mem_cons_self ht
        · obtain ⟨x, rfl⟩ := List.getLast?_eq_some_iff.mp e; exact absurd (by simp) ht
      · intro ⟨h, _⟩; omega
    · have hlen : 1 < (t :: ts).length := by
        have := List.length_pos_iff.mpr hts
        simp only [List.length_cons]; omega
      have hfirst : (bars (t :: ts)).head? = some '|' ↔ t = [] := by
        rw [bars_cons hts]
        cases t with
        | nil => simp
        | cons c t =>
          simp only [List.cons_append, List.head?_cons, Option.some.injEq, reduceCtorEq, iff_false]
          rintro rfl
          exact h _ List.mem_cons_self List.mem_cons_self
      have hlast : ∀ parts : List Str, (∀ t ∈ parts, '|' ∉ t) → 1 < parts.length →
          ((bars parts).getLast? = some '|' ↔ parts.getLast? = some []) := by
        intro parts
        induction parts with
        | nil => intro _ hl; simp at hl
        | cons t ts ih =>
          intro h hl
          have hts : ts ≠ [] := by rintro rfl; simp at hl
          rw [bars_cons hts]
          rw [List.getLast?_append]
          have hc : ('|' :: bars ts).getLast? = some ((bars ts).getLast?.getD '|') := by
            rw [List.getLast?_cons]
          rw [hc]
          simp only [Option.some_or]
          rw [List.getLast?_cons]
          by_cases hl2 : 1 < ts.length
          · have := ih (fun t ht => h t (List.mem_cons_of_mem _ ht)) hl2
            have hb : bars ts ≠ [] := by
              cases ts with
              | nil => exact absurd rfl hts
              | cons u us =>
                have : us ≠ [] := by rintro rfl; simp at hl2
                rw [bars_cons this]; simp
            obtain ⟨x, hx⟩ := Option.isSome_iff_exists.mp (List.getLast?_isSome.mpr hb)
            obtain ⟨y, hy⟩ := Option.isSome_iff_exists.mp (List.getLast?_isSome.mpr hts)
            rw [hx, hy] at this
            rw [hx, hy]
            simpa using this
          · cases ts with
            | nil => exact absurd rfl hts
            | cons u us =>
              have : us = [] := by
                cases us with
                | nil => rfl
                | cons _ _ => simp at hl2
              subst this
              simp only [bars, List.getLast?_singleton, Option.getD_some, Option.some.injEq]
              constructor
              · intro hh
                cases hu : u.getLast? with
                | none => exact List.getLast?_eq_none_iff.mp hu
                | some x =>
                  rw [hu] at hh
                  simp only [Option.getD_some] at hh
                  subst hh
                  obtain ⟨y, rfl⟩ := List.getLast?_eq_some_iff.mp hu
                  exact absurd (by simp) (h (y ++ ['|']) (by simp))
              · rintro rfl; rfl
      simp only [Bool.or_eq_true, beq_iff_eq]
      rw [hfirst, hlast _ h hlen]
      simp [hlen]
      intro _
      exact List.length_pos_iff.mpr hts

theorem bars_inj {ps qs : List Str} (hp : ps ≠ []) (hq : qs ≠ []) (h1 : ∀ t ∈ ps, '|' ∉ t) (h2 : ∀ t ∈ qs, '|' ∉ t)
    (h : bars ps = bars qs) : ps = qs := by
  rw [← splitOnChar_bars ps hp h1, ← splitOnChar_bars qs hq h2, h]

theorem parsePhonemeExpr_paren (inner : Str) :
    parsePhonemeExpr ('(' :: (inner ++ [')'])) =
      (parsePhonemes (splitOnChar '|' inner) []).map fun x => x.map fun phs =>
        phs ++ if startsWith inner c!"|" || endsWith inner c!"|" then [⟨[], .any⟩] else [] := by
  unfold parsePhonemeExpr
  rw [if_pos (by rw [startsWith_char]; rfl), if_neg (by rw [endsWith_char]; simp [List.getLast?_cons])]
  obtain ⟨h1, h2⟩ := slice_middle '(' inner ')' (by decide) (by decide)
  rw [List.cons_append] at h1 h2
  simp only [bind, Except.bind, h1, h2]
  cases parsePhonemes (splitOnChar '|' inner) [] with
  | error e => rfl
  | ok x =>
    cases x with
    | error e => rfl
    | ok phs =>
      simp only [Except.map]
      split <;> simp [pure, Except.pure, *]

theorem expr_shape (e : Str) : e.head? ≠ some '(' ∨ (∃ inner, e = '(' :: (inner ++ [')'])) ∨
    (e.head? = some '(' ∧ endsWith e c!")" = false) := by
  by_cases h : e.head? = some '('
  · right
    obtain ⟨s, rfl⟩ := List.head?_eq_some_iff.mp h
    by_cases hs : (('(' :: s).getLast? == some ')') = true
    · left
      rw [beq_iff_eq, List.getLast?_cons] at hs
      cases hl : s.getLast? with
      | none => rw [hl] at hs; simp at hs
      | some c =>
        rw [hl] at hs
        simp only [Option.getD_some, Option.some.injEq] at hs
        subst hs
        obtain ⟨inner, rfl⟩ := List.getLast?_eq_some_iff.mp hl
        exact ⟨inner, rfl⟩
    · right
      exact ⟨rfl, by rw [endsWith_char]; simpa using hs⟩
  · exact .inl h

/-- Reading the alternatives of a rule. -/
theorem parsePhonemeExpr_iff (e : Str) (ps : List Phoneme) :
    parsePhonemeExpr e = .ok (.ok ps) ↔ ExprReads e ps := by
  rcases expr_shape e with h | ⟨inner, rfl⟩ | ⟨h1, h2⟩
  · have hs : startsWith e c!"(" = false := by rw [startsWith_char]; simpa using h
    unfold parsePhonemeExpr
    rw [if_neg (by simp [hs])]
    simp only [bind, Except.bind]
    constructor
    · intro hp
      rcases parsePhoneme_cases e with ⟨q, h1, h2⟩ | ⟨⟨m, h1⟩, h2⟩
      · rw [h1] at hp
        simp only [pure, Except.pure, Except.ok.injEq] at hp
        exact .inl ⟨h, q, hp.symm, h2⟩
      · rw [h1] at hp; cases hp
    · rintro (⟨-, p, rfl, hp⟩ | ⟨parts, alts, -, -, rfl, -⟩)
      · rw [(parsePhoneme_iff e p).mpr hp]; rfl
      · exact absurd rfl h
  · rw [parsePhonemeExpr_paren]
    obtain ⟨s1, s2, s3⟩ := splitOnChar_spec inner
    have hends := bars_ends s1 s2
    rw [s3] at hends
    constructor
    · intro hp
      cases hx : parsePhonemes (splitOnChar '|' inner) [] with
      | error e => rw [hx] at hp; cases hp
      | ok x =>
        rw [hx] at hp
        cases x with
        | error e => cases hp
        | ok phs =>
          simp only [Except.map, Except.ok.injEq] at hp
          obtain ⟨alts, a1, a2, a3⟩ := (parsePhonemes_iff _ _ _).mp hx
          refine .inr ⟨_, alts, s1, s2, by rw [s3], a1, a2, ?_⟩
          rw [← hp, a3, List.nil_append]
          congr 1
          by_cases hc : (startsWith inner c!"|" || endsWith inner c!"|") = true
          · rw [if_pos hc, if_pos (hends.mp hc)]
          · rw [if_neg hc, if_neg fun h => hc (hends.mpr h)]
    · rintro (⟨h, -⟩ | ⟨parts, alts, p1, p2, p3, p4, p5, rfl⟩)
      · exact absurd rfl h
      · have e1 : inner = bars parts := by
          have := (List.cons.inj p3).2
          exact List.append_cancel_right this
        have e2 : splitOnChar '|' inner = parts := by rw [e1]; exact splitOnChar_bars parts p1 p2
        rw [e2] at hends ⊢
        rw [(parsePhonemes_iff parts [] alts).mpr ⟨alts, p4, p5, by simp⟩]
        simp only [Except.map, Except.ok.injEq]
        congr 1
        by_cases hc : (startsWith inner c!"|" || endsWith inner c!"|") = true
        · rw [if_pos hc, if_pos (hends.mp hc)]
        · rw [if_neg hc, if_neg fun h => hc (hends.mpr h)]
  · unfold parsePhonemeExpr
    rw [if_pos (by rw [startsWith_char]; simpa using h1), if_pos (by simp [h2])]
    constructor
    · intro h; cases h
    · rintro (⟨h, -⟩ | ⟨parts, alts, -, -, rfl, -⟩)
      · exact absurd h1 h
      · rw [endsWith_char] at h2
        simp [List.getLast?_cons] at h2

theorem parsePhonemeExpr_total (e : Str) :
    (∃ ps, parsePhonemeExpr e = .ok (.ok ps)) ∨ ∃ m, parsePhonemeExpr e = .ok (.error (.wrongPhoneme m)) := by
  rcases expr_shape e with h | ⟨inner, rfl⟩ | ⟨h1, h2⟩
  · have hs : startsWith e c!"(" = false := by rw [startsWith_char]; simpa using h
    unfold parsePhonemeExpr
    rw [if_neg (by simp [hs])]
    simp only [bind, Except.bind]
    rcases parsePhoneme_cases e with ⟨q, h1, h2⟩ | ⟨⟨m, h1⟩, h2⟩
    · rw [h1]; exact .inl ⟨_, rfl⟩
    · rw [h1]; exact .inr ⟨_, rfl⟩
  · rw [parsePhonemeExpr_paren]
    rcases parsePhonemes_total (splitOnChar '|' inner) [] with ⟨ps, h⟩ | ⟨m, h⟩
    · rw [h]; exact .inl ⟨_, rfl⟩
    · rw [h]; exact .inr ⟨_, rfl⟩
  · unfold parsePhonemeExpr
    rw [if_pos (by rw [startsWith_char]; simpa using h1), if_pos (by simp [h2])]
    exact .inr ⟨_, rfl⟩

end Verif.BMProofs
