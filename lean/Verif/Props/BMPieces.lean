import Verif.Props.BMText
import Verif.Props.BMEmbedded
import Verif.Spec.BMPieces
/-!
# Taking Beider-Morse codes apart (C89)
-/

set_option linter.unusedSimpArgs false

namespace Verif.Props
open BM Spec BMProofs

namespace PieceProofs

theorem pieces_ne_nil (n : Nat) (s : Str) : pieces n s ≠ [] := by
  cases s with
  | nil => simp [pieces]
  | cons c s =>
    unfold pieces
    split
    · simp
    · unfold consHead; split <;> simp

theorem consHead_append (c : Char) {a : List Str} (b : List Str) (h : a ≠ []) :
    consHead c (a ++ b) = consHead c a ++ b := by
  cases a with
  | nil => exact absurd rfl h
  | cons x a => rfl

/-- A hyphen outside parentheses. -/
theorem pieces_hyphen {a : Str} {n : Nat} (h : parens n a = some 0) (b : Str) :
    pieces n (a ++ '-' :: b) = pieces n a ++ pieces 0 b := by
  induction a generalizing n with
  | nil =>
    simp only [parens, Option.some.injEq] at h
    subst h
    simp [pieces]
  | cons c a ih =>
    simp only [List.cons_append]
    by_cases hh : n = 0 ∧ c = '-'
    · obtain ⟨rfl, rfl⟩ := hh
      simp only [parens, opened] at h
      simp [pieces, ih h]
    · have h' : ∃ m, opened n c = some m ∧ parens m a = some 0 := by
        simp only [parens] at h
        cases ho : opened n c with
        | none => rw [ho] at h; cases h
        | some m => rw [ho] at h; exact ⟨m, rfl, h⟩
      obtain ⟨m, ho, hm⟩ := h'
      rw [pieces, if_neg hh, pieces, if_neg hh, ho]
      simp only [Option.getD_some]
      rw [ih hm, consHead_append _ _ (pieces_ne_nil _ _)]

theorem opened_succ {n m : Nat} {c : Char} (h : opened n c = some m) : opened (n + 1) c = some (m + 1) := by
  unfold opened at h ⊢
  split at h
  · rw [if_pos (by assumption)]; simp only [Option.some.injEq] at h; subst h; rfl
  · rw [if_neg (by assumption)]
    split at h
    · rw [if_pos (by assumption)]
      cases n with
      | zero => cases h
      | succ n => simp only [Option.some.injEq] at h; subst h; rfl
    · rw [if_neg (by assumption)]; simp only [Option.some.injEq] at h; subst h; rfl

/-- Inside parentheses nothing is taken apart. -/
theorem pieces_inside {a : Str} {n m : Nat} (h : parens n a = some m) (t : Str) :
    pieces (n + 1) (a ++ t) = prepend a (pieces (m + 1) t) := by
  induction a generalizing n with
  | nil =>
    simp only [parens, Option.some.injEq] at h
    subst h
    cases hp : pieces (n + 1) t with
    | nil => exact absurd hp (pieces_ne_nil _ _)
    | cons x xs => simp [prepend, hp]
  | cons c a ih =>
    simp only [parens] at h
    cases ho : opened n c with
    | none => rw [ho] at h; cases h
    | some k =>
      rw [ho] at h
      simp only [List.cons_append]
      rw [pieces, if_neg (by simp), opened_succ ho]
      simp only [Option.getD_some]
      rw [ih h]
      cases hp : pieces (m + 1) t with
      | nil => exact absurd hp (pieces_ne_nil _ _)
      | cons x xs => rfl

theorem pieces_parenthesised {a : Str} (h : parens 0 a = some 0) :
    pieces 0 (c!"(" ++ a ++ c!")") = [c!"(" ++ a ++ c!")"] := by
  have h1 : pieces 0 ('(' :: (a ++ [')'])) = consHead '(' (pieces 1 (a ++ [')'])) := rfl
  have h2 := pieces_inside h [')']
  simp only [List.cons_append, List.nil_append]
  rw [h1]
  rw [show (0 + 1 : Nat) = 1 from rfl] at h2
  rw [h2]
  rfl

theorem parens_append {a : Str} {n m : Nat} (h : parens n a = some m) (b : Str) : parens n (a ++ b) = parens m b := by
  induction a generalizing n with
  | nil => simp only [parens, Option.some.injEq] at h; subst h; rfl
  | cons c a ih =>
    simp only [parens, List.cons_append] at h ⊢
    cases ho : opened n c with
    | none => rw [ho] at h; cases h
    | some k => rw [ho] at h; exact ih h

theorem parens_succ {a : Str} {n m : Nat} (h : parens n a = some m) : parens (n + 1) a = some (m + 1) := by
  induction a generalizing n with
  | nil => simp only [parens, Option.some.injEq] at h; subst h; rfl
  | cons c a ih =>
    simp only [parens] at h ⊢
    cases ho : opened n c with
    | none => rw [ho] at h; cases h
    | some k => rw [ho] at h; rw [opened_succ ho]; exact ih h

theorem parens_parenthesised {a : Str} (h : parens 0 a = some 0) : parens 0 (c!"(" ++ a ++ c!")") = some 0 := by
  have : parens 0 (c!"(" ++ a ++ c!")") = parens 1 (a ++ [')']) := rfl
  rw [this, parens_append (parens_succ h)]
  rfl

theorem parens_flat {s : Str} (h : ∀ c ∈ s, c ≠ '(' ∧ c ≠ ')') (n : Nat) : parens n s = some n := by
  induction s with
  | nil => rfl
  | cons c s ih =>
    have hc := h c List.mem_cons_self
    simp only [parens, opened, if_neg hc.1, if_neg hc.2]
    exact ih fun x hx => h x (List.mem_cons_of_mem _ hx)

theorem pieces_flat {s : Str} (h : ∀ c ∈ s, c ≠ '(' ∧ c ≠ ')' ∧ c ≠ '-') : pieces 0 s = [s] := by
  induction s with
  | nil => rfl
  | cons c s ih =>
    have hc := h c List.mem_cons_self
    rw [pieces, if_neg fun hh => hc.2.2 hh.2]
    simp only [opened, if_neg hc.1, if_neg hc.2.1, Option.getD_some]
    rw [ih fun x hx => h x (List.mem_cons_of_mem _ hx)]
    rfl

theorem parens_separated {ts : List Str} (h : ∀ t ∈ ts, parens 0 t = some 0) : parens 0 (separated c!"-" ts) = some 0 := by
  induction ts with
  | nil => rfl
  | cons t ts ih =>
    have ht := h t List.mem_cons_self
    have := ih fun u hu => h u (List.mem_cons_of_mem _ hu)
    cases ts with
    | nil => exact ht
    | cons u ts =>
      simp only [separated, List.append_assoc]
      rw [parens_append ht]
      exact this

theorem pieces_separated {ts : List Str} (h : ∀ t ∈ ts, parens 0 t = some 0) (hne : ts ≠ []) :
    pieces 0 (separated c!"-" ts) = ts.flatMap (pieces 0) := by
  induction ts with
  | nil => exact absurd rfl hne
  | cons t ts ih =>
    have ht := h t List.mem_cons_self
    cases ts with
    | nil => simp [separated]
    | cons u ts =>
      have := ih (fun u hu => h u (List.mem_cons_of_mem _ hu)) (by simp)
      rw [List.flatMap_cons, ← this]
      simp only [separated, List.append_assoc]
      exact pieces_hyphen ht _

theorem bars_flat {ts : List Str} (h : ∀ t ∈ ts, ∀ x ∈ t, x ∉ c!"|()-") :
    ∀ c ∈ bars ts, c ≠ '(' ∧ c ≠ ')' ∧ c ≠ '-' := by
  have key : ∀ x, x ∉ c!"|()-" → x ≠ '(' ∧ x ≠ ')' ∧ x ≠ '-' := by
    intro x hx
    refine ⟨?_, ?_, ?_⟩ <;> (rintro rfl; exact hx (by decide))
  induction ts with
  | nil => intro x hx; cases hx
  | cons t ts ih =>
    have ht := h t List.mem_cons_self
    have := ih fun u hu => h u (List.mem_cons_of_mem _ hu)
    cases ts with
    | nil => intro x hx; exact key x (ht x hx)
    | cons u ts =>
      intro x hx
      simp only [bars, List.mem_append, List.mem_cons] at hx
      rcases hx with hx | rfl | hx
      · exact key x (ht x hx)
      · decide
      · exact this x hx

theorem noSeparators_text {R : RegexEngine} {e : Engine} (hb : NoSeparators e) (ls : LanguageSet) (text : Str) :
    ∀ t ∈ (textPhonemes R e ls text).map Phoneme.text, ∀ x ∈ t, x ∉ c!"|()-" := by
  have key : ∀ rt l, ∀ c, ∀ r ∈ rulesFor (rulesOf e rt l) c, ∀ p ∈ r.phoneme, ∀ x ∈ p.text, x ∉ c!"|()-" := by
    intro rt l c r hr p hp x hx
    unfold rulesOf at hr
    cases hm : e.rules.get? (e.nameType, rt, l) with
    | none => rw [hm] at hr; exact absurd hr (by simp [rulesFor, Assoc.get?])
    | some m =>
      rw [hm] at hr
      exact hb _ m hm c r hr p hp x hx
  refine phonemesOf_all (Q := fun x => x ∉ c!"|()-") ?_
  rintro m (rfl | rfl | rfl)
  · exact key _ _
  · exact key _ _
  · exact key _ _

end PieceProofs
open PieceProofs

/-- C89: the parentheses of a code are balanced. -/
theorem bm_code_balanced (U : Unicode) (R : RegexEngine) (o : Origin) (e : Engine) (h : BuiltFrom U R o e)
    (hany : Offers o e.nameType c!"any") (hs : NoSeparators e) (s code : Str) (hc : e.encode U R s = .ok code) :
    Balanced code := by
  induction hn : (U.strLower s).length using Nat.strongRecOn generalizing s code with
  | ind n ih =>
    obtain ⟨ws, hws⟩ := words_exist U (cleaned U s)
    have hfix := fixed_cleaned U s
    have ih' : ∀ x code, Fixed U x → x.length < (cleaned U s).length → e.encode U R x = .ok code → Balanced code := by
      intro x code hx hl hcode
      exact ih x.length (by rw [cleaned_length] at hl; omega) x code hcode (by rw [strLower_fixed hx])
    by_cases hp : e.nameType = .generic ∧ ∃ p r, NamePrefix (cleaned U s) p r
    · obtain ⟨hg, p, r, hp⟩ := hp
      obtain ⟨a, b, ha, hb, hab⟩ := bm_encode_prefix U R o e h hany s p r hg hp
      rw [hc] at hab
      simp only [Except.ok.injEq] at hab
      obtain ⟨h1, h2, h3, h4⟩ := namePrefix_facts hp
      have ba := ih' r a (hfix.subset (by first | exact h4 | exact h3)) (by first | exact h2 | exact h1) ha
      have bb := ih' (p ++ r) b (hfix.subset (by first | exact h3 | exact h4)) (by first | exact h1 | exact h2) hb
      rw [hab]
      have e1 : c!"(" ++ a ++ c!")-(" ++ b ++ c!")" = (c!"(" ++ a ++ c!")") ++ ('-' :: (c!"(" ++ b ++ c!")")) := by simp
      unfold Balanced
      rw [e1, parens_append (parens_parenthesised ba)]
      exact parens_parenthesised bb
    · have hp' : e.nameType = .generic → ∀ p r, ¬ NamePrefix (cleaned U s) p r :=
        fun hn p r h => hp ⟨hn, p, r, h⟩
      by_cases hcc : e.concat = true ∨ ws.length = 1
      · rw [bm_encode_text U R o e h hany s ws hp' hws hcc] at hc
        simp only [Except.ok.injEq] at hc
        rw [← hc]
        exact parens_flat (fun c hx => ⟨(bars_flat (noSeparators_text hs _ _) c hx).1,
          (bars_flat (noSeparators_text hs _ _) c hx).2.1⟩) 0
      · have hc1 : e.concat = false := by
          cases hcc' : e.concat with
          | true => exact absurd (.inl hcc') hcc
          | false => rfl
        have hc2 : ws.length ≠ 1 := fun h => hcc (.inr h)
        obtain ⟨codes, h1, h2⟩ := bm_encode_words U R o e h hany s ws hp' hc1 hws hc2
        rw [hc] at h2
        simp only [Except.ok.injEq] at h2
        rw [h2]
        apply parens_separated
        intro t ht
        have : Except.ok t ∈ ws.map (e.encode U R) := by rw [h1]; exact List.mem_map_of_mem ht
        obtain ⟨w, hw', he⟩ := List.mem_map.mp this
        exact ih' w t (hfix.subset (words_subset hws w hw')) (words_shorter hws hc2 w hw') he

/-- C89: a generic name with a prefix: the two pieces of its code are the two codes, in parentheses. -/
theorem bm_pieces_prefix (U : Unicode) (R : RegexEngine) (o : Origin) (e : Engine) (h : BuiltFrom U R o e)
    (hany : Offers o e.nameType c!"any") (hs : NoSeparators e) (s p rest : Str) (hg : e.nameType = .generic)
    (hp : NamePrefix (cleaned U s) p rest) :
    ∃ a b code, e.encode U R rest = .ok a ∧ e.encode U R (p ++ rest) = .ok b ∧ e.encode U R s = .ok code ∧
      pieces 0 code = [c!"(" ++ a ++ c!")", c!"(" ++ b ++ c!")"] := by
  obtain ⟨a, b, ha, hb, hab⟩ := bm_encode_prefix U R o e h hany s p rest hg hp
  have ba := bm_code_balanced U R o e h hany hs rest a ha
  have bb := bm_code_balanced U R o e h hany hs (p ++ rest) b hb
  refine ⟨a, b, _, ha, hb, hab, ?_⟩
  have e1 : c!"(" ++ a ++ c!")-(" ++ b ++ c!")" = (c!"(" ++ a ++ c!")") ++ ('-' :: (c!"(" ++ b ++ c!")")) := by simp
  rw [e1, pieces_hyphen (parens_parenthesised ba), pieces_parenthesised ba, pieces_parenthesised bb]
  rfl

/-- C89: words taken separately: the pieces of the code are the pieces of the codes of the words, in their order. -/
theorem bm_pieces_words (U : Unicode) (R : RegexEngine) (o : Origin) (e : Engine) (h : BuiltFrom U R o e)
    (hany : Offers o e.nameType c!"any") (hs : NoSeparators e) (s : Str) (ws : List Str)
    (hp : e.nameType = .generic → ∀ p r, ¬ NamePrefix (cleaned U s) p r) (hc : e.concat = false)
    (hw : Words U (cleaned U s) ws) (hl : 2 ≤ ws.length) :
    ∃ (codes : List Str) (code : Str), ws.map (e.encode U R) = codes.map .ok ∧ e.encode U R s = .ok code ∧
      pieces 0 code = codes.flatMap (pieces 0) := by
  obtain ⟨codes, h1, h2⟩ := bm_encode_words U R o e h hany s ws hp hc hw (by omega)
  refine ⟨codes, _, h1, h2, pieces_separated ?_ ?_⟩
  · intro t ht
    have : Except.ok t ∈ ws.map (e.encode U R) := by rw [h1]; exact List.mem_map_of_mem ht
    obtain ⟨w, _, he⟩ := List.mem_map.mp this
    exact bm_code_balanced U R o e h hany hs w t he
  · rintro rfl
    simp only [List.map_nil, List.map_eq_nil_iff] at h1
    subst h1
    simp at hl

/-- C89: a single text: its code is one piece without parentheses. -/
theorem bm_pieces_text (U : Unicode) (R : RegexEngine) (o : Origin) (e : Engine) (h : BuiltFrom U R o e)
    (hany : Offers o e.nameType c!"any") (hs : NoSeparators e) (s : Str) (ws : List Str)
    (hp : e.nameType = .generic → ∀ p r, ¬ NamePrefix (cleaned U s) p r)
    (hw : Words U (cleaned U s) ws) (hc : e.concat = true ∨ ws.length = 1) :
    ∃ code, e.encode U R s = .ok code ∧ pieces 0 code = [code] ∧ '(' ∉ code := by
  refine ⟨_, bm_encode_text U R o e h hany s ws hp hw hc, ?_, ?_⟩
  · exact pieces_flat (bars_flat (noSeparators_text hs _ _))
  · intro hx
    exact (bars_flat (noSeparators_text hs _ _) _ hx).1 rfl

/-- C89: the embedded rules have no separators in their phonemes. -/
theorem bm_embedded_no_separators (U : Unicode) (R : RegexEngine) (hR : AcceptsEmbedded R) (e : Engine)
    (h : BuiltFrom U R .embedded e) : NoSeparators e := by
  intro k m hk c r hr p hp x hx hb
  have := embedded_okRules h hR k m hk c r hr
  simp only [okRule, Bool.and_eq_true] at this
  have := List.all_eq_true.mp (List.all_eq_true.mp this.2 p hp) x hx
  have key : ∀ x ∈ c!"|()-", phoneticAlphabet.contains x = false := by decide
  rw [key x hb] at this
  cases this

/-- C89, not vacuous: the code of "de la ab" (see `bm_encode_structure_example`), and of words. -/
example : pieces 0 c!"(aab|aob|oab|oob)-((ab|ob)-(aab|aob|oab|oob))" =
      [c!"(aab|aob|oab|oob)", c!"((ab|ob)-(aab|aob|oab|oob))"] ∧
    pieces 0 c!"(ab|ob)-(aab|aob)" = [c!"(ab|ob)", c!"(aab|aob)"] ∧
    pieces 0 c!"ab|ob-bb-(ab)-(dab)" = [c!"ab|ob", c!"bb", c!"(ab)", c!"(dab)"] ∧
    Balanced c!"(aab|aob)-((ab|ob)-(aab|aob))" ∧ ¬ Balanced c!"(ab" ∧ ¬ Balanced c!")(" := by decide

end Verif.Props
