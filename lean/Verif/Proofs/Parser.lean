import Verif.Proofs.Str
import Verif.Model.RulesParser
import Verif.Spec.Rules
/-!
# The parsers read exactly the grammar
-/

set_option linter.unusedSimpArgs false

namespace Verif
namespace ParserProofs
open Parser Spec

theorem bind_eq {α β : Type} (p : Parser α) (f : α → Parser β) (s : Str) :
    (p >>= f) s = (p s).bind fun r => f r.1 r.2 := rfl

theorem pure_eq {α : Type} (a : α) (s : Str) : (pure a : Parser α) s = some (a, s) := rfl

theorem bind_some {α β : Type} {p : Parser α} {f : α → Parser β} {s : Str} {b : β} {r : Str}
    (h : (p >>= f) s = some (b, r)) : ∃ a s', p s = some (a, s') ∧ f a s' = some (b, r) := by
  rw [bind_eq] at h
  cases hp : p s with
  | none => rw [hp] at h; cases h
  | some x => rw [hp] at h; exact ⟨x.1, x.2, rfl, h⟩

theorem bind_of {α β : Type} {p : Parser α} (f : α → Parser β) {s : Str} {a : α} {r : Str}
    (h : p s = some (a, r)) : (p >>= f) s = f a r := by
  rw [bind_eq, h]; rfl

/-! ## Elementary parsers -/

theorem tag_some {t s a r : Str} (h : tag t s = some (a, r)) : a = t ∧ s = t ++ r := by
  unfold tag at h
  split at h
  · next hp =>
    cases h
    rw [List.isPrefixOf_iff_prefix] at hp
    obtain ⟨u, rfl⟩ := hp
    simp
  · cases h

theorem tag_append (t r : Str) : tag t (t ++ r) = some (t, r) := by
  unfold tag
  rw [if_pos (by rw [List.isPrefixOf_iff_prefix]; exact List.prefix_append _ _)]
  simp

theorem char_some {c a : Char} {s r : Str} (h : char c s = some (a, r)) : a = c ∧ s = c :: r := by
  cases s with
  | nil => cases h
  | cons x xs =>
    simp only [char] at h
    by_cases hx : x = c
    · rw [if_pos hx] at h
      cases h
      exact ⟨rfl, by rw [hx]⟩
    · rw [if_neg hx] at h
      cases h

theorem char_cons (c : Char) (r : Str) : char c (c :: r) = some (c, r) := by simp [char]

theorem anychar_some {a : Char} {s r : Str} (h : anychar s = some (a, r)) : s = a :: r := by
  cases s with
  | nil => cases h
  | cons x xs => cases h; rfl

theorem dropWhile_head {p : Char → Bool} {s : Str} {c : Char} (h : (s.dropWhile p).head? = some c) :
    p c = false := by
  induction s with
  | nil => cases h
  | cons x xs ih =>
    rw [List.dropWhile_cons] at h
    split at h
    · exact ih h
    · next hx => simp at h; subst h; simpa using hx

theorem takeWhile_all {p : Char → Bool} {s : Str} : ∀ c ∈ s.takeWhile p, p c = true := by
  induction s with
  | nil => simp
  | cons x xs ih =>
    intro c hc
    rw [List.takeWhile_cons] at hc
    split at hc
    · next hx =>
      rcases List.mem_cons.mp hc with rfl | h
      · exact hx
      · exact ih c h
    · cases hc

theorem span_append {p : Char → Bool} {a r : Str} (ha : ∀ c ∈ a, p c = true)
    (hr : ∀ c, r.head? = some c → p c = false) :
    (a ++ r).takeWhile p = a ∧ (a ++ r).dropWhile p = r := by
  induction a with
  | nil =>
    cases r with
    | nil => simp
    | cons c r => simp [List.takeWhile_cons, List.dropWhile_cons, hr c rfl]
  | cons x xs ih =>
    have hx := ha x (List.mem_cons_self ..)
    have := ih fun c hc => ha c (List.mem_cons_of_mem _ hc)
    simp [List.takeWhile_cons, List.dropWhile_cons, hx, this]

theorem takeWhile1_some {p : Char → Bool} {s a r : Str} (h : takeWhile1 p s = some (a, r)) :
    s = a ++ r ∧ a ≠ [] ∧ (∀ c ∈ a, p c = true) ∧ ∀ c, r.head? = some c → p c = false := by
  unfold takeWhile1 at h
  split at h
  · cases h
  · next hne =>
    cases h
    exact ⟨(List.takeWhile_append_dropWhile ..).symm, hne, takeWhile_all, fun c hc => dropWhile_head hc⟩

theorem takeWhile1_append {p : Char → Bool} {a r : Str} (hne : a ≠ []) (ha : ∀ c ∈ a, p c = true)
    (hr : ∀ c, r.head? = some c → p c = false) : takeWhile1 p (a ++ r) = some (a, r) := by
  obtain ⟨h1, h2⟩ := span_append ha hr
  unfold takeWhile1
  rw [h1, h2, if_neg hne]

theorem takeUntil_some {t s a r : Str} (ht : t ≠ []) (h : takeUntil t s = some (a, r)) :
    s = a ++ r ∧ t <+: r ∧ ¬ t <:+: a := by
  induction s generalizing a with
  | nil =>
    unfold takeUntil at h
    cases t with
    | nil => exact absurd rfl ht
    | cons x xs => simp at h
  | cons c s ih =>
    unfold takeUntil at h
    split at h
    · next hp =>
      cases h
      rw [List.isPrefixOf_iff_prefix] at hp
      exact ⟨rfl, hp, fun hi => ht (List.eq_nil_of_infix_nil hi)⟩
    · next hp =>
      rw [List.isPrefixOf_iff_prefix] at hp
      cases hr : takeUntil t s with
      | none => rw [hr] at h; cases h
      | some x =>
        rw [hr] at h
        cases h
        obtain ⟨h1, h2, h3⟩ := ih hr
        refine ⟨by rw [h1]; rfl, h2, fun hi => ?_⟩
        rcases List.infix_cons_iff.mp hi with hi | hi
        · apply hp
          have : c :: s = (c :: x.1) ++ x.2 := by rw [List.cons_append, ← h1]
          rw [this]
          exact hi.trans (List.prefix_append _ _)
        · exact h3 hi

theorem takeUntil_append {t a r : Str} (ht : t ≠ [])
    (ha : ∀ u v, a = u ++ v → v ≠ [] → ¬ t <+: v ++ (t ++ r)) :
    takeUntil t (a ++ (t ++ r)) = some (a, t ++ r) := by
  induction a with
  | nil =>
    cases t with
    | nil => exact absurd rfl ht
    | cons x xs =>
      show takeUntil (x :: xs) (x :: (xs ++ r)) = _
      unfold takeUntil
      rw [if_pos (by rw [List.isPrefixOf_iff_prefix]; exact List.prefix_append (x :: xs) r)]
      rfl
  | cons c a ih =>
    rw [List.cons_append, takeUntil, if_neg, ih]
    · rfl
    · intro u v h1 h2
      exact ha (c :: u) v (by rw [h1]; rfl) h2
    · intro h
      rw [List.isPrefixOf_iff_prefix] at h
      exact ha [] (c :: a) rfl (List.cons_ne_nil _ _) h

theorem takeUntil_quote {a r : Str} (ha : '"' ∉ a) :
    takeUntil ['"'] (a ++ '"' :: r) = some (a, '"' :: r) := by
  refine takeUntil_append (t := ['"']) (by simp) fun u v h1 h2 hp => ?_
  cases v with
  | nil => exact h2 rfl
  | cons x v =>
    rw [List.cons_append, List.cons_prefix_cons] at hp
    apply ha
    rw [h1, ← hp.1]
    simp

theorem takeUntil_star {a r : Str} (ha : ¬ ['*', '/'] <:+: a) :
    takeUntil ['*', '/'] (a ++ '*' :: '/' :: r) = some (a, '*' :: '/' :: r) := by
  refine takeUntil_append (t := ['*', '/']) (by simp) fun u v h1 h2 hp => ?_
  cases v with
  | nil => exact h2 rfl
  | cons x v =>
    rw [List.cons_append, List.cons_prefix_cons] at hp
    cases v with
    | nil =>
      have := hp.2
      simp [List.cons_prefix_cons] at this
    | cons y v =>
      rw [List.cons_append, List.cons_prefix_cons] at hp
      apply ha
      rw [h1, ← hp.1, ← hp.2.1]
      exact ⟨u, v, by simp⟩

/-! ## Ends of lines -/

/-- The text after the blanks. -/
def afterBlanks (s : Str) : Str := s.dropWhile isSpaceTab

/-- The text after a comment. -/
def afterComment : Str → Str
  | '/' :: '/' :: r => r.dropWhile (· != '\n')
  | s => s

/-- The text after a line ending. -/
def afterEnding : Str → Option (Unit × Str)
  | [] => some ((), [])
  | '\n' :: r => some ((), r)
  | '\r' :: '\n' :: r => some ((), r)
  | _ => none

theorem opt_space1 (s : Str) : ∃ o, opt space1 s = some (o, afterBlanks s) := by
  unfold opt space1 takeWhile1
  by_cases h : s.takeWhile (fun c => c == ' ' || c == '\t') = []
  · simp only [h, if_true]
    refine ⟨none, ?_⟩
    have := List.takeWhile_append_dropWhile (p := fun c => c == ' ' || c == '\t') (l := s)
    rw [h] at this
    rw [show afterBlanks s = s from this]
  · simp only [h, if_false]
    exact ⟨_, rfl⟩

theorem opt_comment (s : Str) : ∃ o, opt eolComment s = some (o, afterComment s) := by
  have key : ∀ r, ∃ o, opt (takeWhile1 fun c => c != '\n') r = some (o, r.dropWhile (· != '\n')) := by
    intro r
    unfold opt takeWhile1
    by_cases h : r.takeWhile (fun c => c != '\n') = []
    · simp only [h, if_true]
      refine ⟨none, ?_⟩
      have := List.takeWhile_append_dropWhile (p := fun c => c != '\n') (l := r)
      rw [h] at this
      rw [show r.dropWhile (· != '\n') = r from this]
    · simp only [h, if_false]
      exact ⟨_, rfl⟩
  unfold afterComment
  split
  · next r =>
    obtain ⟨o, ho⟩ := key r
    refine ⟨some (), ?_⟩
    have : eolComment ('/' :: '/' :: r) = some ((), r.dropWhile (· != '\n')) := by
      unfold eolComment
      have ht : tag ['/', '/'] ('/' :: '/' :: r) = some (['/', '/'], r) := tag_append ['/', '/'] r
      rw [bind_of _ ht, bind_of _ ho]
      rfl
    rw [opt, this]
  · next hne =>
    refine ⟨none, ?_⟩
    have : eolComment s = none := by
      unfold eolComment
      rw [bind_eq]
      cases ht : tag ['/', '/'] s with
      | none => rfl
      | some x =>
        have := (tag_some (a := x.1) (r := x.2) ht).2
        exact absurd this (hne x.2)
    rw [opt, this]

theorem ending_eq (s : Str) :
    ((orElse eof (orElse (tag ['\n']) crlf)) >>= fun _ => (pure () : Parser Unit)) s = afterEnding s := by
  rw [bind_eq]
  unfold afterEnding
  split
  · rfl
  · next r => simp [orElse, eof, tag, pure_eq]
  · next r => simp [orElse, eof, tag, crlf, pure_eq]
  · next h1 h2 h3 =>
    have : orElse eof (orElse (tag ['\n']) crlf) s = none := by
      unfold orElse
      cases s with
      | nil => exact absurd rfl h1
      | cons c s =>
        simp only [eof]
        cases ht : tag ['\n'] (c :: s) with
        | some x => exact absurd (tag_some (a := x.1) (r := x.2) ht).2 (h2 x.2)
        | none =>
          simp only
          cases ht : crlf (c :: s) with
          | some x => exact absurd (tag_some (a := x.1) (r := x.2) ht).2 (h3 x.2)
          | none => rfl
    rw [this]
    rfl

theorem endOfLine_eq (s : Str) : endOfLine s = afterEnding (afterComment (afterBlanks s)) := by
  obtain ⟨o, h1⟩ := opt_space1 s
  obtain ⟨o', h2⟩ := opt_comment (afterBlanks s)
  unfold endOfLine
  rw [bind_of _ h1, bind_of _ h2]
  exact ending_eq _

theorem afterEnding_some {s r : Str} (h : afterEnding s = some ((), r)) :
    ∃ e, s = e ++ r ∧ (e = ['\n'] ∨ e = ['\r', '\n'] ∨ (e = [] ∧ r = [])) := by
  unfold afterEnding at h
  split at h
  · cases h; exact ⟨[], rfl, .inr (.inr ⟨rfl, rfl⟩)⟩
  · cases h; exact ⟨['\n'], rfl, .inl rfl⟩
  · cases h; exact ⟨['\r', '\n'], rfl, .inr (.inl rfl)⟩
  · cases h

theorem afterEnding_append {e r : Str} (h : e = ['\n'] ∨ e = ['\r', '\n'] ∨ (e = [] ∧ r = [])) :
    afterEnding (e ++ r) = some ((), r) := by
  rcases h with rfl | rfl | ⟨rfl, rfl⟩ <;> rfl

/-- `end_of_line` only accepts tails. -/
theorem endOfLine_some {s r : Str} {u : Unit} (h : endOfLine s = some (u, r)) :
    ∃ t : Tail, t.WF r ∧ s = t.print ++ r := by
  rw [endOfLine_eq] at h
  have hb : s = s.takeWhile isSpaceTab ++ afterBlanks s := (List.takeWhile_append_dropWhile ..).symm
  by_cases hc : ∃ q, afterBlanks s = '/' :: '/' :: q
  · obtain ⟨q, hq⟩ := hc
    rw [hq] at h
    simp only [afterComment] at h
    obtain ⟨e, h1, h2⟩ := afterEnding_some h
    have hq' : q = q.takeWhile (· != '\n') ++ q.dropWhile (· != '\n') :=
      (List.takeWhile_append_dropWhile ..).symm
    have hcr : e ≠ ['\r', '\n'] := by
      intro he
      have := dropWhile_head (p := (· != '\n')) (s := q) (c := '\r') (by rw [h1, he]; rfl)
      simp at this
    refine ⟨⟨s.takeWhile isSpaceTab, some (q.takeWhile (· != '\n')), e⟩, ⟨?_, ?_, h2⟩, ?_⟩
    · exact takeWhile_all
    · intro c hcc
      cases hcc
      refine ⟨fun hm => ?_, hcr⟩
      have := takeWhile_all '\n' hm
      simp at this
    · refine hb.trans ?_
      rw [hq]
      simp only [Tail.print, List.append_assoc, ← h1, List.cons_append, ← hq']
  · have : afterComment (afterBlanks s) = afterBlanks s := by
      unfold afterComment
      split
      · next q hq => exact absurd ⟨q, hq⟩ hc
      · rfl
    rw [this] at h
    obtain ⟨e, h1, h2⟩ := afterEnding_some h
    refine ⟨⟨s.takeWhile isSpaceTab, none, e⟩, ⟨takeWhile_all, fun c hc => (by cases hc), h2⟩, ?_⟩
    refine hb.trans ?_
    simp only [Tail.print, List.append_assoc, ← h1, List.nil_append]

/-- `end_of_line` accepts every tail. -/
theorem endOfLine_print {t : Tail} {r : Str} (h : t.WF r) : endOfLine (t.print ++ r) = some ((), r) := by
  obtain ⟨blanks, comment, ending⟩ := t
  obtain ⟨h1, h2, h3⟩ := h
  simp only at h1 h2 h3
  rw [endOfLine_eq]
  have hend : ∀ c, (ending ++ r).head? = some c → c = '\n' ∨ c = '\r' := by
    intro c hc
    rcases h3 with rfl | rfl | ⟨rfl, rfl⟩
    · simp at hc; exact .inl hc.symm
    · simp at hc; exact .inr hc.symm
    · cases hc
  cases comment with
  | none =>
    have e1 : afterBlanks (Tail.print ⟨blanks, none, ending⟩ ++ r) = ending ++ r := by
      simp only [Tail.print, List.append_nil, List.append_assoc, afterBlanks]
      refine (span_append h1 fun c hc => ?_).2
      rcases hend c hc with rfl | rfl <;> rfl
    rw [e1]
    have e2 : afterComment (ending ++ r) = ending ++ r := by
      unfold afterComment
      split
      · next q hq =>
        have := hend '/' (by rw [hq]; rfl)
        simp at this
      · rfl
    rw [e2]
    exact afterEnding_append h3
  | some c =>
    obtain ⟨hn, hcr⟩ := h2 c rfl
    have e1 : afterBlanks (Tail.print ⟨blanks, some c, ending⟩ ++ r) =
        '/' :: '/' :: (c ++ (ending ++ r)) := by
      have : Tail.print ⟨blanks, some c, ending⟩ ++ r = blanks ++ ('/' :: '/' :: (c ++ (ending ++ r))) := by
        simp [Tail.print]
      rw [this]
      refine (span_append h1 fun x hx => ?_).2
      simp at hx
      subst hx
      rfl
    rw [e1]
    have e2 : afterComment ('/' :: '/' :: (c ++ (ending ++ r))) = ending ++ r := by
      simp only [afterComment]
      refine (span_append (fun x hx => ?_) fun x hx => ?_).2
      · simp only [bne_iff_ne, ne_eq]
        rintro rfl
        exact hn hx
      · rcases h3 with rfl | rfl | ⟨rfl, rfl⟩
        · simp at hx; subst hx; rfl
        · exact absurd rfl hcr
        · cases hx
    rw [e2]
    exact afterEnding_append h3

/-! ## Parts -/

theorem part_some {s a r : Str} (h : part s = some (a, r)) : PartWF a ∧ s = quoted a ++ r := by
  unfold part at h
  obtain ⟨c, s1, h1, h⟩ := bind_some h
  obtain ⟨a', s2, h2, h⟩ := bind_some h
  obtain ⟨c', s3, h3, h⟩ := bind_some h
  cases h
  obtain ⟨-, rfl⟩ := char_some h1
  obtain ⟨-, rfl⟩ := char_some h3
  unfold orElse at h2
  split at h2
  · next x hx =>
    cases h2
    obtain ⟨rfl, rfl⟩ := tag_some (a := a) hx
    exact ⟨.inl rfl, by simp [quoted]⟩
  · next hx =>
    obtain ⟨rfl, hp, hi⟩ := takeUntil_some (by simp) h2
    refine ⟨.inr ⟨fun hm => hi ?_, fun ha => ?_⟩, by simp [quoted]⟩
    · obtain ⟨u, v, rfl⟩ := List.append_of_mem hm
      exact ⟨u, v, by simp⟩
    · subst ha
      rw [show ['\\'] ++ '"' :: r = ['\\', '"'] ++ r from rfl, tag_append] at hx
      cases hx

theorem part_print {a r : Str} (h : PartWF a) : part (quoted a ++ r) = some (a, r) := by
  unfold part
  have e : quoted a ++ r = '"' :: (a ++ '"' :: r) := by simp [quoted]
  rw [e, bind_of _ (char_cons _ _)]
  have : orElse (tag ['\\', '"']) (takeUntil ['"']) (a ++ '"' :: r) = some (a, '"' :: r) := by
    unfold orElse
    rcases h with rfl | ⟨h1, h2⟩
    · rw [tag_append]
    · cases ht : tag ['\\', '"'] (a ++ '"' :: r) with
      | none => exact takeUntil_quote h1
      | some x =>
        exfalso
        have hx := (tag_some (a := x.1) (r := x.2) ht).2
        cases a with
        | nil => simp at hx
        | cons y a =>
          cases a with
          | nil => simp at hx; exact h2 (by rw [hx.1])
          | cons z a => simp at hx; exact h1 (by rw [hx.2.1]; simp)
  rw [bind_of _ this, bind_of _ (char_cons _ _)]
  rfl

/-! ## Lines -/

theorem terminated_some {α β : Type} {p : Parser α} {q : Parser β} {s r : Str} {a : α}
    (h : terminated p q s = some (a, r)) : ∃ s' b, p s = some (a, s') ∧ q s' = some (b, r) := by
  unfold terminated at h
  obtain ⟨a', s1, h1, h⟩ := bind_some h
  obtain ⟨b, s2, h2, h⟩ := bind_some h
  cases h
  exact ⟨s1, b, h1, h2⟩

theorem terminated_of {α β : Type} {p : Parser α} {q : Parser β} {s s' r : Str} {a : α} {b : β}
    (h1 : p s = some (a, s')) (h2 : q s' = some (b, r)) : terminated p q s = some (a, r) := by
  unfold terminated
  rw [bind_of _ h1, bind_of _ h2]
  rfl

theorem space1_some {s a r : Str} (h : space1 s = some (a, r)) : BlanksWF a ∧ s = a ++ r := by
  obtain ⟨h1, h2, h3, -⟩ := takeWhile1_some h
  exact ⟨⟨h2, h3⟩, h1⟩

theorem space1_print {b p r : Str} (h : BlanksWF b) :
    space1 (b ++ (quoted p ++ r)) = some (b, quoted p ++ r) := by
  refine takeWhile1_append h.1 h.2 fun c hc => ?_
  simp [quoted] at hc
  subst hc
  rfl

theorem quadruplet_some {s r a b c d : Str} (h : quadruplet s = some ((a, b, c, d), r)) :
    ∃ b1 b2 b3, ∃ t : Tail, PartWF a ∧ BlanksWF b1 ∧ PartWF b ∧ BlanksWF b2 ∧ PartWF c ∧ BlanksWF b3 ∧
      PartWF d ∧ t.WF r ∧
      s = quoted a ++ (b1 ++ (quoted b ++ (b2 ++ (quoted c ++ (b3 ++ (quoted d ++ t.print)))))) ++ r := by
  unfold quadruplet at h
  obtain ⟨a', s1, h1, h⟩ := bind_some h
  obtain ⟨b', s2, h2, h⟩ := bind_some h
  obtain ⟨c', s3, h3, h⟩ := bind_some h
  obtain ⟨d', s4, h4, h⟩ := bind_some h
  cases h
  obtain ⟨u1, x1, p1, q1⟩ := terminated_some h1
  obtain ⟨u2, x2, p2, q2⟩ := terminated_some h2
  obtain ⟨u3, x3, p3, q3⟩ := terminated_some h3
  obtain ⟨u4, x4, p4, q4⟩ := terminated_some h4
  obtain ⟨w1, rfl⟩ := part_some p1
  obtain ⟨w2, rfl⟩ := part_some p2
  obtain ⟨w3, rfl⟩ := part_some p3
  obtain ⟨w4, rfl⟩ := part_some p4
  obtain ⟨v1, rfl⟩ := space1_some q1
  obtain ⟨v2, rfl⟩ := space1_some q2
  obtain ⟨v3, rfl⟩ := space1_some q3
  obtain ⟨t, ht, rfl⟩ := endOfLine_some q4
  exact ⟨x1, x2, x3, t, w1, v1, w2, v2, w3, v3, w4, ht, by simp⟩

theorem quadruplet_print {a b c d b1 b2 b3 r : Str} {t : Tail} (w1 : PartWF a) (v1 : BlanksWF b1)
    (w2 : PartWF b) (v2 : BlanksWF b2) (w3 : PartWF c) (v3 : BlanksWF b3) (w4 : PartWF d)
    (ht : t.WF r) :
    quadruplet (quoted a ++ (b1 ++ (quoted b ++ (b2 ++ (quoted c ++ (b3 ++ (quoted d ++ t.print)))))) ++ r) =
      some ((a, b, c, d), r) := by
  unfold quadruplet
  have e : quoted a ++ (b1 ++ (quoted b ++ (b2 ++ (quoted c ++ (b3 ++ (quoted d ++ t.print)))))) ++ r =
      quoted a ++ (b1 ++ (quoted b ++ (b2 ++ (quoted c ++ (b3 ++ (quoted d ++ (t.print ++ r))))))) := by
    simp
  rw [e, bind_of _ (terminated_of (part_print w1) (space1_print v1)),
    bind_of _ (terminated_of (part_print w2) (space1_print v2)),
    bind_of _ (terminated_of (part_print w3) (space1_print v3)),
    bind_of _ (terminated_of (part_print w4) (endOfLine_print ht))]
  rfl

theorem quadruplet_none {s : Str} (h : s.head? ≠ some '"') : quadruplet s = none := by
  cases hq : quadruplet s with
  | none => rfl
  | some x =>
    obtain ⟨⟨a, b, c, d⟩, r⟩ := x
    obtain ⟨b1, b2, b3, t, -, -, -, -, -, -, -, -, rfl⟩ := quadruplet_some hq
    exact absurd (by simp [quoted]) h

theorem folding_some {s r : Str} {a b : Char} (h : folding s = some ((a, b), r)) :
    ∃ t : Tail, t.WF r ∧ s = a :: '=' :: b :: t.print ++ r := by
  obtain ⟨s', u, h1, h2⟩ := terminated_some h
  obtain ⟨a', s1, h3, h1⟩ := bind_some h1
  obtain ⟨e, s2, h4, h1⟩ := bind_some h1
  obtain ⟨b', s3, h5, h1⟩ := bind_some h1
  cases h1
  have := anychar_some h3
  subst this
  obtain ⟨-, rfl⟩ := char_some h4
  have := anychar_some h5
  subst this
  obtain ⟨t, ht, rfl⟩ := endOfLine_some h2
  exact ⟨t, ht, by simp⟩

theorem folding_print {r : Str} {a b : Char} {t : Tail} (h : t.WF r) :
    folding (a :: '=' :: b :: t.print ++ r) = some ((a, b), r) := by
  refine terminated_of (s' := t.print ++ r) ?_ (endOfLine_print h)
  rfl

theorem folding_none {s : Str} (h : s[1]? ≠ some '=') : folding s = none := by
  cases hq : folding s with
  | none => rfl
  | some x =>
    obtain ⟨⟨a, b⟩, r⟩ := x
    obtain ⟨t, -, rfl⟩ := folding_some hq
    exact absurd (by simp) h

theorem splitChar_length (c : Char) (s : Str) : (splitChar c s).length = s.count c + 1 := by
  induction s with
  | nil => rfl
  | cons x s ih =>
    unfold splitChar
    by_cases h : x = c
    · rw [if_pos h, List.length_cons, ih, h, List.count_cons_self]
    · rw [if_neg h, List.count_cons_of_ne (Ne.symm (Ne.symm h))]
      split
      · next hs => rw [hs] at ih; simp at ih
      · next hd tl hs => rw [hs] at ih; simpa using ih

theorem multilineComment_some {s r : Str} {n : Nat} (h : multilineComment s = some (n, r)) :
    ∃ text, ∃ t : Tail, ¬ ['*', '/'] <:+: text ∧ t.WF r ∧ n = newlines text + 1 ∧
      s = '/' :: '*' :: text ++ ('*' :: '/' :: t.print) ++ r := by
  obtain ⟨s', u, h1, h2⟩ := terminated_some h
  obtain ⟨x1, s1, h3, h1⟩ := bind_some h1
  obtain ⟨text, s2, h4, h1⟩ := bind_some h1
  obtain ⟨x3, s3, h5, h1⟩ := bind_some h1
  cases h1
  obtain ⟨-, rfl⟩ := tag_some h3
  obtain ⟨rfl, -, hi⟩ := takeUntil_some (by simp) h4
  obtain ⟨-, rfl⟩ := tag_some h5
  obtain ⟨t, ht, rfl⟩ := endOfLine_some h2
  exact ⟨text, t, hi, ht, by rw [splitChar_length]; rfl, by simp⟩

theorem multilineComment_print {text r : Str} {t : Tail} (hi : ¬ ['*', '/'] <:+: text) (ht : t.WF r) :
    multilineComment ('/' :: '*' :: text ++ ('*' :: '/' :: t.print) ++ r) =
      some (newlines text + 1, r) := by
  refine terminated_of (s' := t.print ++ r) ?_ (endOfLine_print ht)
  have e : '/' :: '*' :: text ++ ('*' :: '/' :: t.print) ++ r =
      ['/', '*'] ++ (text ++ '*' :: '/' :: (t.print ++ r)) := by simp
  rw [e, bind_of _ (tag_append _ _), bind_of _ (takeUntil_star hi)]
  rw [show '*' :: '/' :: (t.print ++ r) = ['*', '/'] ++ (t.print ++ r) from rfl,
    bind_of _ (tag_append _ _), splitChar_length]
  rfl

/-! ## Other lines -/

theorem tail_head {t : Tail} {r : Str} (ht : t.WF r) {c : Char} (h : (t.print ++ r).head? = some c) :
    c ∈ [' ', '\t', '/', '\n', '\r'] := by
  obtain ⟨blanks, comment, ending⟩ := t
  unfold Tail.print at h
  cases blanks with
  | cons b bs =>
    have := ht.blanks b (by simp)
    simp at h
    subst h
    simp only [isSpaceTab, Bool.or_eq_true, beq_iff_eq] at this
    rcases this with rfl | rfl <;> simp
  | nil =>
    cases comment with
    | some x => simp at h; subst h; simp
    | none =>
      rcases ht.ending with e | e | ⟨e, e'⟩ <;> simp only at e <;> subst e
      · simp at h; subst h; simp
      · simp at h; subst h; simp
      · subst e'; simp at h

theorem boolean_some {s r : Str} {b : Bool} (h : boolean s = some (b, r)) :
    s = (if b then c!"true" else c!"false") ++ r := by
  unfold boolean orElse at h
  split at h
  · next x hx =>
    cases h
    obtain ⟨y, s1, h1, h2⟩ := bind_some hx
    cases h2
    exact (tag_some h1).2
  · obtain ⟨y, s1, h1, h2⟩ := bind_some h
    cases h2
    exact (tag_some h1).2

theorem boolean_print (b : Bool) (r : Str) :
    boolean ((if b then c!"true" else c!"false") ++ r) = some (b, r) := by
  cases b <;> rfl

theorem lang_some {s r a b : Str} {c : Bool} (h : lang s = some ((a, b, c), r)) :
    ∃ t : Tail, a ≠ [] ∧ ' ' ∉ a ∧ b ≠ [] ∧ ' ' ∉ b ∧ t.WF r ∧
      s = a ++ ' ' :: (b ++ ' ' :: ((if c then c!"true" else c!"false") ++ t.print)) ++ r := by
  unfold lang at h
  obtain ⟨a', s1, h1, h⟩ := bind_some h
  obtain ⟨b', s2, h2, h⟩ := bind_some h
  obtain ⟨c', s3, h3, h⟩ := bind_some h
  cases h
  obtain ⟨s4, x, h4, h5⟩ := terminated_some h1
  obtain ⟨s5, y, h6, h7⟩ := terminated_some h2
  obtain ⟨s6, u, h8, h9⟩ := terminated_some h3
  obtain ⟨rfl, n1, m1, -⟩ := takeWhile1_some h4
  obtain ⟨-, rfl⟩ := char_some h5
  obtain ⟨rfl, n2, m2, -⟩ := takeWhile1_some h6
  obtain ⟨-, rfl⟩ := char_some h7
  have := boolean_some h8
  obtain ⟨t, ht, rfl⟩ := endOfLine_some h9
  subst this
  exact ⟨t, n1, fun hm => by simpa using m1 _ hm, n2, fun hm => by simpa using m2 _ hm, ht, by simp⟩

theorem lang_print {r a b : Str} {c : Bool} {t : Tail} (n1 : a ≠ []) (m1 : ' ' ∉ a) (n2 : b ≠ [])
    (m2 : ' ' ∉ b) (ht : t.WF r) :
    lang (a ++ ' ' :: (b ++ ' ' :: ((if c then c!"true" else c!"false") ++ t.print)) ++ r) =
      some ((a, b, c), r) := by
  have e : a ++ ' ' :: (b ++ ' ' :: ((if c then c!"true" else c!"false") ++ t.print)) ++ r =
      a ++ ' ' :: (b ++ ' ' :: ((if c then c!"true" else c!"false") ++ (t.print ++ r))) := by simp
  have hd : ∀ x s, ∀ y, (' ' :: s : Str).head? = some y → (x != ' ') = (x != ' ') ∧ (y != ' ') = false := by
    intro x s y hy
    simp at hy
    subst hy
    simp
  have w : ∀ (a : Str) (s : Str), a ≠ [] → ' ' ∉ a →
      terminated (takeWhile1 fun c => c != ' ') (char ' ') (a ++ ' ' :: s) = some (a, s) := by
    intro a s h1 h2
    refine terminated_of (takeWhile1_append h1 ?_ ?_) (char_cons _ _)
    · intro x hx
      have : x ≠ ' ' := fun h => h2 (h ▸ hx)
      simpa using this
    · intro y hy
      simp at hy
      subst hy
      rfl
  unfold lang
  rw [e, bind_of _ (w a _ n1 m1), bind_of _ (w b _ n2 m2),
    bind_of _ (terminated_of (boolean_print c _) (endOfLine_print ht))]
  rfl

theorem language_some {s r a : Str} (h : language s = some (a, r)) :
    ∃ t : Tail, a ≠ [] ∧ (∀ c ∈ a, isAsciiAlpha c = true) ∧ t.WF r ∧ s = a ++ t.print ++ r := by
  obtain ⟨s1, u, h1, h2⟩ := terminated_some h
  obtain ⟨rfl, n, m, -⟩ := takeWhile1_some h1
  obtain ⟨t, ht, rfl⟩ := endOfLine_some h2
  exact ⟨t, n, m, ht, by simp⟩

theorem language_print {r a : Str} {t : Tail} (n : a ≠ []) (m : ∀ c ∈ a, isAsciiAlpha c = true)
    (ht : t.WF r) : language (a ++ t.print ++ r) = some (a, r) := by
  rw [List.append_assoc]
  refine terminated_of (takeWhile1_append n m ?_) (endOfLine_print ht)
  intro c hc
  have := tail_head ht hc
  clear hc
  revert c
  decide

theorem include_some {U : Unicode} {s r a : Str} (h : includeDirective U s = some (a, r)) :
    ∃ t : Tail, a ≠ [] ∧ (∀ c ∈ a, (U.isAlphanumeric c || c == '-' || c == '_') = true) ∧ t.WF r ∧
      s = c!"#include " ++ a ++ t.print ++ r := by
  obtain ⟨s1, u, h1, h2⟩ := terminated_some h
  obtain ⟨x, s2, h3, h1⟩ := bind_some h1
  obtain ⟨-, rfl⟩ := tag_some h3
  obtain ⟨rfl, n, m, -⟩ := takeWhile1_some h1
  obtain ⟨t, ht, rfl⟩ := endOfLine_some h2
  exact ⟨t, n, m, ht, by simp⟩

theorem include_print {U : Unicode} {r a : Str} {t : Tail} (n : a ≠ [])
    (m : ∀ c ∈ a, (U.isAlphanumeric c || c == '-' || c == '_') = true) (ht : t.WF r) :
    includeDirective U (c!"#include " ++ a ++ t.print ++ r) = some (a, r) := by
  rw [List.append_assoc, List.append_assoc]
  unfold includeDirective
  refine terminated_of (s' := t.print ++ r) ?_ (endOfLine_print ht)
  rw [bind_of _ (tag_append _ _)]
  refine takeWhile1_append n m ?_
  intro c hc
  have hm := tail_head ht hc
  clear hc
  have hasc : isAscii c = true := by revert c; decide
  unfold Unicode.isAlphanumeric
  rw [U.isAlphabetic_ascii c hasc, U.isNumeric_ascii c hasc]
  revert c
  decide

end ParserProofs
end Verif
