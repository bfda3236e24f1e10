import Verif.Proofs.BMEngine
import Verif.Proofs.Replace
import Verif.Props.BMLanguages
import Verif.Spec.BMEncode

set_option linter.unusedSimpArgs false
set_option linter.unusedVariables false

namespace Verif.BMProofs
open BM Spec

/-! ## Lower case -/

/-- All letters are in lower case. -/
def Fixed (U : Unicode) (s : Str) : Prop := ∀ c ∈ s, U.toLower c = [c]

theorem strLowerAux_fixed (U : Unicode) (pre s : Str) (h : Fixed U s) : U.strLowerAux pre s = s := by
  induction s generalizing pre with
  | nil => rfl
  | cons c cs ih =>
    have hc := h c List.mem_cons_self
    have hne : c ≠ 'Σ' := by
      rintro rfl
      rw [U.toLower_sigma.1] at hc
      exact absurd hc (by decide)
    simp only [Unicode.strLowerAux, if_neg hne, hc]
    rw [ih _ fun d hd => h d (List.mem_cons_of_mem _ hd)]
    rfl

theorem strLower_fixed {U : Unicode} {s : Str} (h : Fixed U s) : U.strLower s = s := strLowerAux_fixed U [] s h

theorem fixed_strLowerAux (U : Unicode) (pre s : Str) : Fixed U (U.strLowerAux pre s) := by
  induction s generalizing pre with
  | nil => intro c hc; exact absurd hc List.not_mem_nil
  | cons c cs ih =>
    intro d hd
    simp only [Unicode.strLowerAux, List.mem_append] at hd
    rcases hd with hd | hd
    · split at hd
      · split at hd
        · rw [List.mem_singleton.mp hd]; exact U.toLower_sigma.2
        · exact U.toLower_idem 'Σ' d (by rw [U.toLower_sigma.1]; exact hd)
      · exact U.toLower_idem c d hd
    · exact ih _ d hd

theorem fixed_strLower (U : Unicode) (s : Str) : Fixed U (U.strLower s) := fixed_strLowerAux U [] s

theorem fixed_cleaned (U : Unicode) (s : Str) : Fixed U (cleaned U s) := by
  intro c hc
  obtain ⟨d, hd, rfl⟩ := List.mem_map.mp hc
  split
  · rw [U.toLower_ascii ' ' (by decide)]; decide
  · exact fixed_strLower U s d hd

theorem cleaned_length (U : Unicode) (s : Str) : (cleaned U s).length = (U.strLower s).length := by
  simp [cleaned]

theorem cleaned_eq (U : Unicode) (s : Str) : replaceAll (U.strLower s) c!"-" c!" " = cleaned U s :=
  replaceAll_single_char _ _ _

theorem Fixed.subset {U : Unicode} {s t : Str} (h : Fixed U s) (hs : t ⊆ s) : Fixed U t :=
  fun c hc => h c (hs hc)

/-! ## Prefixes -/

theorem stripPrefix_some {s p r : Str} : stripPrefix s p = some r ↔ s = p ++ r := by
  unfold stripPrefix
  constructor
  · intro h
    split at h
    · rename_i hp
      obtain ⟨t, rfl⟩ := List.isPrefixOf_iff_prefix.mp hp
      simp only [List.drop_left, Option.some.injEq] at h
      rw [h]
    · cases h
  · rintro rfl
    simp [List.isPrefixOf_iff_prefix]

theorem findPrefix_some {s : Str} {ps : List Str} {p r : Str} (h : Engine.findPrefix s ps = some (p, r)) :
    p ∈ ps ∧ s = p ++ ' ' :: r := by
  induction ps with
  | nil => cases h
  | cons q qs ih =>
    simp only [Engine.findPrefix] at h
    cases hq : stripPrefix s (q ++ c!" ") with
    | some r' =>
      rw [hq] at h
      simp only [Option.some.injEq, Prod.mk.injEq] at h
      obtain ⟨rfl, rfl⟩ := h
      refine ⟨List.mem_cons_self, ?_⟩
      rw [stripPrefix_some] at hq
      rw [hq]; simp
    | none =>
      rw [hq] at h
      exact ⟨List.mem_cons_of_mem _ (ih h).1, (ih h).2⟩

theorem findPrefix_none {s : Str} {ps : List Str} (h : Engine.findPrefix s ps = none) :
    ∀ p ∈ ps, ∀ r, s ≠ p ++ ' ' :: r := by
  induction ps with
  | nil => intro p hp; exact absurd hp List.not_mem_nil
  | cons q qs ih =>
    simp only [Engine.findPrefix] at h
    cases hq : stripPrefix s (q ++ c!" ") with
    | some r' => rw [hq] at h; cases h
    | none =>
      rw [hq] at h
      intro p hp r hr
      rcases List.mem_cons.mp hp with rfl | hp
      · have : stripPrefix s (p ++ c!" ") = some r := by rw [stripPrefix_some, hr]; simp
        rw [hq] at this; cases this
      · exact ih h p hp r hr

theorem prefix_unique {p q r t : Str} (hp : ' ' ∉ p) (hq : ' ' ∉ q) (h : p ++ ' ' :: r = q ++ ' ' :: t) :
    p = q ∧ r = t := by
  induction p generalizing q with
  | nil =>
    cases q with
    | nil => simpa using h
    | cons c cs =>
      simp only [List.nil_append, List.cons_append, List.cons.injEq] at h
      exact absurd (h.1 ▸ List.mem_cons_self) hq
  | cons a as ih =>
    cases q with
    | nil =>
      simp only [List.nil_append, List.cons_append, List.cons.injEq] at h
      exact absurd (h.1.symm ▸ List.mem_cons_self) hp
    | cons c cs =>
      simp only [List.cons_append, List.cons.injEq] at h
      obtain ⟨h1, h2⟩ := ih (fun hh => hp (List.mem_cons_of_mem _ hh)) (fun hh => hq (List.mem_cons_of_mem _ hh)) h.2
      exact ⟨by rw [h.1, h1], h2⟩

theorem genericPrefixes_no_space : ∀ p ∈ genericPrefixes, ' ' ∉ p := by decide

theorem d_not_listed : ∀ p ∈ genericPrefixes, ∀ r t : Str, c!"d'" ++ r ≠ p ++ ' ' :: t := by
  simp [genericPrefixes]

theorem namePrefix_unique {s p r q t : Str} (h1 : NamePrefix s p r) (h2 : NamePrefix s q t) : p = q ∧ r = t := by
  rcases h1 with ⟨rfl, h1⟩ | ⟨hp, h1⟩ <;> rcases h2 with ⟨rfl, h2⟩ | ⟨hq, h2⟩
  · rw [h1] at h2; simpa using h2
  · exfalso
    rw [h1] at h2
    exact d_not_listed q hq r t h2
  · exfalso
    rw [h2] at h1
    exact d_not_listed p hp t r h1
  · exact prefix_unique (genericPrefixes_no_space p hp) (genericPrefixes_no_space q hq) (h1 ▸ h2)

/-- The prefix that the encoder finds in a generic name. -/
def foundPrefix (s : Str) : Option (Str × Str) :=
  match stripPrefix s c!"d'" with
  | some r => some (c!"d", r)
  | none => Engine.findPrefix s (namePrefixes .generic)

theorem foundPrefix_some {s p r : Str} : foundPrefix s = some (p, r) ↔ NamePrefix s p r := by
  constructor
  · intro h
    unfold foundPrefix at h
    cases hd : stripPrefix s c!"d'" with
    | some r' =>
      rw [hd] at h
      simp only [Option.some.injEq, Prod.mk.injEq] at h
      obtain ⟨rfl, rfl⟩ := h
      exact .inl ⟨rfl, stripPrefix_some.mp hd⟩
    | none =>
      rw [hd] at h
      simp only at h
      obtain ⟨hp, hs⟩ := findPrefix_some h
      refine .inr ⟨?_, hs⟩
      by_cases hdl : p = c!"de la"
      · exfalso
        subst hdl hs
        simp [namePrefixes, Engine.findPrefix, stripPrefix, List.isPrefixOf] at h
      · have hall : ∀ q ∈ namePrefixes .generic, q = c!"de la" ∨ q ∈ genericPrefixes := by decide
        exact (hall p hp).resolve_left hdl
  · intro h
    cases hf : foundPrefix s with
    | none =>
      exfalso
      unfold foundPrefix at hf
      rcases h with ⟨rfl, rfl⟩ | ⟨hp, hs⟩
      · simp [stripPrefix] at hf
      · cases hd : stripPrefix s c!"d'" with
        | some r' => rw [hd] at hf; cases hf
        | none =>
          rw [hd] at hf
          have hsub : ∀ q ∈ genericPrefixes, q ∈ namePrefixes .generic := by decide
          exact findPrefix_none hf p (hsub p hp) r hs
    | some x =>
      obtain ⟨q, t⟩ := x
      have hq : NamePrefix s q t := by
        clear h
        unfold foundPrefix at hf
        cases hd : stripPrefix s c!"d'" with
        | some r' =>
          rw [hd] at hf
          simp only [Option.some.injEq, Prod.mk.injEq] at hf
          obtain ⟨rfl, rfl⟩ := hf
          exact .inl ⟨rfl, stripPrefix_some.mp hd⟩
        | none =>
          rw [hd] at hf
          simp only at hf
          obtain ⟨hp, hs⟩ := findPrefix_some hf
          refine .inr ⟨?_, hs⟩
          by_cases hdl : q = c!"de la"
          · exfalso
            subst hdl hs
            simp [namePrefixes, Engine.findPrefix, stripPrefix, List.isPrefixOf] at hf
          · have hall : ∀ q ∈ namePrefixes .generic, q = c!"de la" ∨ q ∈ genericPrefixes := by decide
            exact (hall q hp).resolve_left hdl
      obtain ⟨rfl, rfl⟩ := namePrefix_unique h hq
      rfl

theorem foundPrefix_none {s : Str} : foundPrefix s = none ↔ ∀ p r, ¬ NamePrefix s p r := by
  constructor
  · intro h p r hp
    rw [foundPrefix_some.mpr hp] at h; cases h
  · intro h
    cases hf : foundPrefix s with
    | none => rfl
    | some x => exact absurd (foundPrefix_some.mp hf) (h x.1 x.2)

/-! ## Words -/

theorem splitAux_word (U : Unicode) (word w s : Str) (hw : ∀ c ∈ w, U.isWhitespace c = false) :
    splitWhitespaceAux U word (w ++ s) = splitWhitespaceAux U (w.reverse ++ word) s := by
  induction w generalizing word with
  | nil => rfl
  | cons c cs ih =>
    simp only [List.cons_append, splitWhitespaceAux, hw c List.mem_cons_self, Bool.false_eq_true, if_false]
    rw [ih _ fun d hd => hw d (List.mem_cons_of_mem _ hd)]
    simp

theorem splitAux_end (U : Unicode) (word s : Str) (hw : word ≠ [])
    (hs : ∀ c, s.head? = some c → U.isWhitespace c = true) :
    splitWhitespaceAux U word s = word.reverse :: splitWhitespaceAux U [] s := by
  have hw' : word.isEmpty = false := by cases word <;> simp_all
  cases s with
  | nil => simp [splitWhitespaceAux, hw']
  | cons c cs =>
    have hc := hs c rfl
    simp [splitWhitespaceAux, hc, hw']

theorem words_eq {U : Unicode} {s : Str} {ws : List Str} (h : Words U s ws) : splitWhitespace U s = ws := by
  induction h with
  | nil => rfl
  | space hc _ ih => simpa [splitWhitespace, splitWhitespaceAux, hc] using ih
  | @word w s ws hne hw hs _ ih =>
    unfold splitWhitespace at *
    rw [splitAux_word U [] w s hw, List.append_nil, splitAux_end U _ s (by simpa using hne) hs, ih]
    simp

theorem words_exist (U : Unicode) (s : Str) : ∃ ws, Words U s ws := by
  induction hn : s.length using Nat.strongRecOn generalizing s with
  | ind n ih =>
    cases s with
    | nil => exact ⟨[], .nil⟩
    | cons c cs =>
      by_cases hc : U.isWhitespace c = true
      · obtain ⟨ws, h⟩ := ih cs.length (by simp at hn; omega) cs rfl
        exact ⟨ws, .space hc h⟩
      · have hc' : U.isWhitespace c = false := by simpa using hc
        let w := (c :: cs).takeWhile fun d => !U.isWhitespace d
        let r := (c :: cs).dropWhile fun d => !U.isWhitespace d
        have hr : r = cs.dropWhile fun d => !U.isWhitespace d := by simp [r, List.dropWhile, hc']
        have hlen : r.length < n := by
          have : r.length ≤ cs.length := by rw [hr]; exact (List.dropWhile_sublist _).length_le
          simp at hn; omega
        obtain ⟨ws, h⟩ := ih r.length hlen r rfl
        refine ⟨w :: ws, ?_⟩
        have e : c :: cs = w ++ r := (List.takeWhile_append_dropWhile).symm
        rw [e]
        refine .word ?_ ?_ ?_ h
        · simp [w, List.takeWhile, hc']
        · intro d hd
          have := List.all_takeWhile (l := c :: cs) (p := fun d => !U.isWhitespace d)
          rw [List.all_eq_true] at this
          simpa using this d hd
        · intro d hd
          have := List.head?_dropWhile_not (fun d => !U.isWhitespace d) (c :: cs)
          have hd' : (List.dropWhile (fun d => !U.isWhitespace d) (c :: cs)).head? = some d := hd
          rw [hd'] at this
          simpa using this

theorem words_split (U : Unicode) (s : Str) : Words U s (splitWhitespace U s) := by
  obtain ⟨ws, h⟩ := words_exist U s
  rw [words_eq h]; exact h

theorem words_subset {U : Unicode} {s : Str} {ws : List Str} (h : Words U s ws) : ∀ w ∈ ws, w ⊆ s := by
  induction h with
  | nil => intro w hw; exact absurd hw List.not_mem_nil
  | space _ _ ih => intro w hw; exact fun c hc => List.mem_cons_of_mem _ (ih w hw hc)
  | word _ _ _ _ ih =>
    intro w hw c hc
    rcases List.mem_cons.mp hw with rfl | hw
    · exact List.mem_append_left _ hc
    · exact List.mem_append_right _ (ih w hw hc)

theorem words_length {U : Unicode} {s : Str} {ws : List Str} (h : Words U s ws) :
    (ws.map List.length).sum + ws.length ≤ s.length + 1 ∧
    ((∀ c, s.head? = some c → U.isWhitespace c = true) → (ws.map List.length).sum + ws.length ≤ s.length) := by
  induction h with
  | nil => simp
  | space _ _ ih =>
    simp only [List.length_cons]
    exact ⟨by omega, fun _ => by omega⟩
  | @word w s ws hne hw hs _ ih =>
    have h2 := ih.2 hs
    simp only [List.map_cons, List.sum_cons, List.length_cons, List.length_append]
    refine ⟨by omega, fun hh => ?_⟩
    exfalso
    cases w with
    | nil => exact hne rfl
    | cons c cs =>
      have h1 := hh c rfl
      rw [hw c List.mem_cons_self] at h1
      cases h1

theorem words_ne_nil {U : Unicode} {s : Str} {ws : List Str} (h : Words U s ws) : ∀ w ∈ ws, w ≠ [] := by
  induction h with
  | nil => intro w hw; exact absurd hw List.not_mem_nil
  | space _ _ ih => exact ih
  | word hne _ _ _ ih =>
    intro w hw
    rcases List.mem_cons.mp hw with rfl | hw
    · exact hne
    · exact ih w hw

theorem words_shorter {U : Unicode} {s : Str} {ws : List Str} (h : Words U s ws) (h2 : ws.length ≠ 1) :
    ∀ w ∈ ws, w.length < s.length := by
  intro w hw
  have hl := (words_length h).1
  have hsum : w.length ≤ (ws.map List.length).sum := by
    have hmem : w.length ∈ ws.map List.length := List.mem_map_of_mem hw
    clear hl h h2
    generalize ws.map List.length = ns at hmem
    induction ns with
    | nil => exact absurd hmem List.not_mem_nil
    | cons n ns ih =>
      rcases List.mem_cons.mp hmem with rfl | hm
      · simp
      · simp only [List.sum_cons]; have := ih hm; omega
  have : ws.length ≥ 1 := List.length_pos_of_mem hw
  omega

/-! ## The recursion -/

theorem encodeTwice_congr {f g : Str → Res Str} {a b : Str} (ha : f a = g a) (hb : f b = g b) :
    Engine.encodeTwice f a b = Engine.encodeTwice g a b := by
  unfold Engine.encodeTwice; rw [ha, hb]

theorem encodeWords_congr {f g : Str → Res Str} {ws : List Str} (h : ∀ w ∈ ws, f w = g w) :
    Engine.encodeWords f ws = Engine.encodeWords g ws := by
  induction ws with
  | nil => rfl
  | cons w ws ih =>
    simp only [Engine.encodeWords]
    rw [h w List.mem_cons_self, ih fun v hv => h v (List.mem_cons_of_mem _ hv)]

/-- What follows the choice of the rules. -/
def encodeRest (U : Unicode) (R : RegexEngine) (e : Engine) (recur : Str → Res Str) (languages : LanguageSet)
    (rules final1 final2 : RuleMap) (name : Str) : Res Str :=
  match if e.nameType = .generic then foundPrefix name else none with
  | some (p, rest) => Engine.encodeTwice recur (p ++ rest) rest
  | none =>
    match e.textOf (splitWhitespace U name) with
    | none => do
      let codes ← Engine.encodeWords recur (splitWhitespace U name)
      return joinWith c!"-" codes
    | some text => do
      let text ← text
      e.encodeText R rules final1 final2 languages text

theorem encodeWith_rest (U : Unicode) (R : RegexEngine) (e : Engine) (recur : Str → Res Str) (s : Str)
    (languages : LanguageSet) :
    e.encodeWith U R recur s languages =
      (Engine.ruleLanguage languages).bind fun l =>
      match e.rules.get? (e.nameType, .rules, l) with
      | none => .error .unwrap
      | some rules =>
        match e.rules.get? (e.nameType, e.ruleType, c!"common") with
        | none => .error .unwrap
        | some final1 =>
          match e.rules.get? (e.nameType, e.ruleType, l) with
          | none => .error .unwrap
          | some final2 => encodeRest U R e recur languages rules final1 final2 (cleaned U s) := by
  unfold Engine.encodeWith
  simp only [bind]
  congr 1
  funext l
  cases e.rules.get? (e.nameType, .rules, l) with
  | none => rfl
  | some rules =>
    cases e.rules.get? (e.nameType, e.ruleType, c!"common") with
    | none => rfl
    | some final1 =>
      cases e.rules.get? (e.nameType, e.ruleType, l) with
      | none => rfl
      | some final2 =>
        simp only [cleaned_eq]
        unfold encodeRest foundPrefix
        by_cases hn : e.nameType = .generic
        · simp only [hn, if_true]
          cases stripPrefix (cleaned U s) c!"d'" with
          | some r => rfl
          | none =>
            simp only
            cases Engine.findPrefix (cleaned U s) (namePrefixes .generic) with
            | some x => rfl
            | none => rfl
        · simp only [hn, if_false]
          rfl

theorem namePrefix_facts {s p r : Str} (h : NamePrefix s p r) :
    (p ++ r).length < s.length ∧ r.length < s.length ∧ p ++ r ⊆ s ∧ r ⊆ s := by
  rcases h with ⟨rfl, rfl⟩ | ⟨_, rfl⟩
  · refine ⟨by simp, by simp; omega, ?_, ?_⟩
    · intro c hc; simp at hc ⊢; exact hc.imp_right .inr
    · intro c hc; simp [hc]
  · refine ⟨by simp, by simp; omega, ?_, ?_⟩
    · intro c hc
      simp only [List.mem_append, List.mem_cons] at hc ⊢
      exact hc.imp_right .inr
    · intro c hc; simp [hc]

theorem encodeRest_congr (U : Unicode) (R : RegexEngine) (e : Engine) (f g : Str → Res Str)
    (languages : LanguageSet) (rules final1 final2 : RuleMap) (name : Str) (hname : Fixed U name)
    (h : ∀ x, Fixed U x → x.length < name.length → f x = g x) :
    encodeRest U R e f languages rules final1 final2 name = encodeRest U R e g languages rules final1 final2 name := by
  unfold encodeRest
  cases hp : (if e.nameType = .generic then foundPrefix name else none) with
  | some x =>
    obtain ⟨p, r⟩ := x
    simp only
    have hp' : foundPrefix name = some (p, r) := by
      split at hp
      · exact hp
      · cases hp
    obtain ⟨h1, h2, h3, h4⟩ := namePrefix_facts (foundPrefix_some.mp hp')
    exact encodeTwice_congr (h _ (hname.subset h3) h1) (h _ (hname.subset h4) h2)
  | none =>
    simp only
    cases ht : e.textOf (splitWhitespace U name) with
    | some t => rfl
    | none =>
      simp only
      rw [encodeWords_congr (f := f) (g := g)]
      intro w hw
      have hw1 := words_split U name
      refine h w (hname.subset (words_subset hw1 w hw)) (words_shorter hw1 ?_ w hw)
      intro h1
      unfold Engine.textOf at ht
      split at ht
      · rename_i hc; simp [h1] at hc
      · split at ht
        · cases ht
        · split at ht <;> cases ht

theorem encodeWith_congr (U : Unicode) (R : RegexEngine) (e : Engine) (f g : Str → Res Str)
    (languages : LanguageSet) (s : Str)
    (h : ∀ x, Fixed U x → x.length < (U.strLower s).length → f x = g x) :
    e.encodeWith U R f s languages = e.encodeWith U R g s languages := by
  rw [encodeWith_rest, encodeWith_rest]
  congr 1
  funext l
  cases e.rules.get? (e.nameType, .rules, l) with
  | none => rfl
  | some rules =>
    cases e.rules.get? (e.nameType, e.ruleType, c!"common") with
    | none => rfl
    | some final1 =>
      cases e.rules.get? (e.nameType, e.ruleType, l) with
      | none => rfl
      | some final2 =>
        exact encodeRest_congr U R e f g languages rules final1 final2 (cleaned U s) (fixed_cleaned U s)
          (by rw [cleaned_length]; exact h)

/-- The depth does not matter when it exceeds the length of the name in lower case. -/
theorem encodeFuel_eq (U : Unicode) (R : RegexEngine) (e : Engine) (n m : Nat) (s : Str)
    (hn : (U.strLower s).length < n) (hm : (U.strLower s).length < m) :
    e.encodeFuel U R n s = e.encodeFuel U R m s := by
  induction n generalizing m s with
  | zero => omega
  | succ n ih =>
    cases m with
    | zero => omega
    | succ m =>
      simp only [Engine.encodeFuel]
      apply encodeWith_congr
      intro x hx hl
      exact ih m x (by rw [strLower_fixed hx]; omega) (by rw [strLower_fixed hx]; omega)

/-- The recursion equation of `encode`. -/
theorem encode_eq (U : Unicode) (R : RegexEngine) (e : Engine) (s : Str) :
    e.encode U R s = e.encodeWith U R (e.encode U R) s (e.lang.guessLanguages U R s) := by
  unfold Engine.encode
  rw [Engine.encodeFuel]
  apply encodeWith_congr
  intro x hx hl
  apply encodeFuel_eq
  · rw [strLower_fixed hx]; omega
  · omega

theorem encodeWithLanguages_eq (U : Unicode) (R : RegexEngine) (e : Engine) (s : Str) (languages : LanguageSet) :
    e.encodeWithLanguages U R s languages = e.encodeWith U R (e.encode U R) s languages := by
  unfold Engine.encodeWithLanguages
  apply encodeWith_congr
  intro x hx hl
  unfold Engine.encode
  apply encodeFuel_eq
  · rw [strLower_fixed hx]; omega
  · omega

/-! ## Splitting -/

theorem splitOnChar_ne_nil (sep : Char) (s : Str) : splitOnChar sep s ≠ [] := by
  cases s with
  | nil => simp [splitOnChar]
  | cons c cs =>
    simp only [splitOnChar]
    split
    · simp
    · split <;> simp

theorem splitOnChar_none {sep : Char} {s : Str} (h : sep ∉ s) : splitOnChar sep s = [s] := by
  induction s with
  | nil => rfl
  | cons c cs ih =>
    have h1 : c ≠ sep := fun e => h (e ▸ List.mem_cons_self)
    simp only [splitOnChar, if_neg h1, ih fun hh => h (List.mem_cons_of_mem _ hh)]

theorem splitOnChar_first {sep : Char} {a : Str} (h : sep ∉ a) (b : Str) :
    splitOnChar sep (a ++ sep :: b) = a :: splitOnChar sep b := by
  induction a with
  | nil => simp [splitOnChar]
  | cons c cs ih =>
    have h1 : c ≠ sep := fun e => h (e ▸ List.mem_cons_self)
    simp only [List.cons_append, splitOnChar, if_neg h1, ih fun hh => h (List.mem_cons_of_mem _ hh)]

theorem splitOnChar_last {sep : Char} (a : Str) {b : Str} (h : sep ∉ b) :
    splitOnChar sep (a ++ sep :: b) = splitOnChar sep a ++ [b] := by
  induction a with
  | nil => simp [splitOnChar, splitOnChar_none h]
  | cons c cs ih =>
    simp only [List.cons_append, splitOnChar, ih]
    split
    · rfl
    · cases hs : splitOnChar sep cs with
      | nil => exact absurd hs (splitOnChar_ne_nil sep cs)
      | cons p ps => rfl

theorem splitOnChar_getLast (sep : Char) (s : Str) :
    (splitOnChar sep s).getLast?.getD [] = (s.reverse.takeWhile (· ≠ sep)).reverse := by
  by_cases h : sep ∈ s
  · have h' : sep ∈ s.reverse := List.mem_reverse.mpr h
    have e : s.reverse = s.reverse.takeWhile (· ≠ sep) ++ s.reverse.dropWhile (· ≠ sep) :=
      List.takeWhile_append_dropWhile.symm
    have hb : sep ∉ s.reverse.takeWhile (· ≠ sep) := by
      intro hh
      have := List.all_takeWhile (l := s.reverse) (p := fun c => decide (c ≠ sep))
      rw [List.all_eq_true] at this
      simpa using this sep hh
    cases hd : s.reverse.dropWhile (· ≠ sep) with
    | nil =>
      rw [hd, List.append_nil] at e
      exact absurd (e ▸ h') hb
    | cons c r =>
      have hc : c = sep := by
        have := List.head?_dropWhile_not (fun c => decide (c ≠ sep)) s.reverse
        rw [hd] at this
        simpa using this
      subst hc
      rw [hd] at e
      have e' : s = r.reverse ++ c :: (s.reverse.takeWhile (· ≠ c)).reverse := by
        have := congrArg List.reverse e
        rw [List.reverse_reverse, List.reverse_append, List.reverse_cons, List.append_assoc] at this
        exact this
      have hb' : c ∉ (s.reverse.takeWhile (· ≠ c)).reverse := by rw [List.mem_reverse]; exact hb
      have := splitOnChar_last r.reverse hb'
      rw [← e'] at this
      rw [this]
      simp
  · rw [splitOnChar_none h]
    have : s.reverse.takeWhile (· ≠ sep) = s.reverse := by
      have hall : ∀ c ∈ s.reverse, c ≠ sep := fun c hc e => h (e ▸ List.mem_reverse.mp hc)
      generalize s.reverse = t at hall
      induction t with
      | nil => rfl
      | cons c cs ih =>
        simp [List.takeWhile, hall c List.mem_cons_self]
        simpa using ih fun d hd => hall d (List.mem_cons_of_mem _ hd)
    rw [this]
    simp

theorem splitOnChar_bars (ts : List Str) (hne : ts ≠ []) (h : ∀ t ∈ ts, '|' ∉ t) :
    splitOnChar '|' (bars ts) = ts := by
  induction ts with
  | nil => exact absurd rfl hne
  | cons t ts ih =>
    cases ts with
    | nil => exact splitOnChar_none (h t List.mem_cons_self)
    | cons u us =>
      simp only [bars]
      rw [splitOnChar_first (h t List.mem_cons_self), ih (by simp) fun v hv => h v (List.mem_cons_of_mem _ hv)]

theorem joinWith_separated (sep : Str) (ts : List Str) : joinWith sep ts = separated sep ts := by
  induction ts with
  | nil => rfl
  | cons t ts ih =>
    cases ts with
    | nil => rfl
    | cons u us => simp only [joinWith, separated, ih]

theorem keptWords_eq (n : NameType) (ws : List Str) : Engine.keptWords n ws = keptWords n ws := by
  cases n with
  | generic => simp [Engine.keptWords, keptWords]
  | ashkenazi =>
    simp only [Engine.keptWords, keptWords]
    simp only [reduceCtorEq, if_false, List.map_id']
    congr 1
    funext w
    simp [namePrefixes]
  | sephardic =>
    simp only [Engine.keptWords, keptWords, if_true, splitOnChar_getLast]
    congr 1
    funext w
    have hm : ∀ x, x ∈ namePrefixes .sephardic ↔ x ∈ [c!"al", c!"el", c!"da", c!"dal", c!"de", c!"del", c!"dela", c!"de la", c!"della",
        c!"des", c!"di", c!"do", c!"dos", c!"du", c!"van", c!"von"] := by
      intro x
      simp only [namePrefixes, List.mem_cons, List.not_mem_nil, or_false]
      constructor <;> intro h <;> (rcases h with h | h | h | h | h | h | h | h | h | h | h | h | h | h | h | h) <;> simp [h]
    have : (namePrefixes .sephardic).contains w = decide (w ∈ [c!"al", c!"el", c!"da", c!"dal", c!"de", c!"del", c!"dela", c!"de la", c!"della",
        c!"des", c!"di", c!"do", c!"dos", c!"du", c!"van", c!"von"]) := by
      rw [Bool.eq_iff_iff, List.contains_iff_mem, hm w, decide_eq_true_eq]
    rw [this]
    simp

/-! ## The encoding of a name -/

theorem ruleLanguage_eq (ls : LanguageSet) : Engine.ruleLanguage ls = .ok (languageOf ls) := by
  cases ls with
  | any => rfl
  | noLanguages => rfl
  | someLanguages l =>
    match l with
    | [] => rfl
    | [a] => rfl
    | a :: b :: r => simp [Engine.ruleLanguage, LanguageSet.isSingleton, languageOf]

theorem languageOf_guess (U : Unicode) (R : RegexEngine) (lang : Lang) (s : Str) :
    languageOf (lang.guessLanguages U R s) = c!"any" ∨ languageOf (lang.guessLanguages U R s) ∈ lang.languages := by
  rw [Props.guess_eq]
  split
  · exact .inl rfl
  · generalize hg : guessLoop R (U.strLower s) lang.languages lang.rules = g
    match g with
    | [] => exact .inl rfl
    | [a] =>
      right
      have : a ∈ guessLoop R (U.strLower s) lang.languages lang.rules := by rw [hg]; simp
      exact ((Props.mem_guessLoop R _ _ _ a).mp this).1
    | a :: b :: r => exact .inl rfl

theorem knows_guess {e : Engine} (h : EngineWF e) (U : Unicode) (R : RegexEngine) (s : Str) :
    Knows e (languageOf (e.lang.guessLanguages U R s)) := by
  rcases languageOf_guess U R e.lang s with h1 | h1
  · rw [h1]; exact h.any
  · exact h.guessed _ h1

theorem encodeWith_known (U : Unicode) (R : RegexEngine) (e : Engine) (recur : Str → Res Str) (s : Str)
    (ls : LanguageSet) (h : EngineWF e) (hk : Knows e (languageOf ls)) :
    e.encodeWith U R recur s ls = encodeRest U R e recur ls (rulesOf e .rules (languageOf ls))
      (rulesOf e e.ruleType c!"common") (rulesOf e e.ruleType (languageOf ls)) (cleaned U s) ∧
    RuleMapWF (rulesOf e .rules (languageOf ls)) ∧ RuleMapWF (rulesOf e e.ruleType c!"common") ∧
    RuleMapWF (rulesOf e e.ruleType (languageOf ls)) := by
  obtain ⟨⟨m, hm, hmw⟩, ⟨m2, hm2, hm2w⟩⟩ := hk
  obtain ⟨m1, hm1, hm1w⟩ := h.common
  rw [encodeWith_rest, ruleLanguage_eq]
  simp only [Except.bind, hm, hm1, hm2, rulesOf, Option.getD_some]
  exact ⟨trivial, hmw, hm1w, hm2w⟩

/-- A prefix. -/
theorem encodeWith_prefix (U : Unicode) (R : RegexEngine) (e : Engine) (recur : Str → Res Str) (s : Str)
    (ls : LanguageSet) (h : EngineWF e) (hk : Knows e (languageOf ls)) (hn : e.nameType = .generic) {p rest : Str}
    (hp : NamePrefix (cleaned U s) p rest) :
    e.encodeWith U R recur s ls = Engine.encodeTwice recur (p ++ rest) rest := by
  rw [(encodeWith_known U R e recur s ls h hk).1]
  unfold encodeRest
  rw [if_pos hn, foundPrefix_some.mpr hp]

theorem no_prefix {e : Engine} {name : Str} (hp : e.nameType = .generic → ∀ p r, ¬ NamePrefix name p r) :
    (if e.nameType = .generic then foundPrefix name else none) = none := by
  split
  · rename_i hn; exact foundPrefix_none.mpr (hp hn)
  · rfl

/-- Several words. -/
theorem encodeWith_words (U : Unicode) (R : RegexEngine) (e : Engine) (recur : Str → Res Str) (s : Str)
    (ls : LanguageSet) (h : EngineWF e) (hk : Knows e (languageOf ls))
    (hp : e.nameType = .generic → ∀ p r, ¬ NamePrefix (cleaned U s) p r) (hc : e.concat = false) {ws : List Str}
    (hw : Words U (cleaned U s) ws) (hl : ws.length ≠ 1) :
    e.encodeWith U R recur s ls = (Engine.encodeWords recur ws).map (separated c!"-") := by
  rw [(encodeWith_known U R e recur s ls h hk).1]
  unfold encodeRest
  rw [no_prefix hp, words_eq hw]
  simp only
  have : e.textOf ws = none := by simp [Engine.textOf, hc, hl]
  rw [this]
  simp only [joinWith_separated]
  rfl

/-- One text. -/
theorem encodeWith_text (U : Unicode) (R : RegexEngine) (e : Engine) (recur : Str → Res Str) (s : Str)
    (ls : LanguageSet) (h : EngineWF e) (hk : Knows e (languageOf ls))
    (hp : e.nameType = .generic → ∀ p r, ¬ NamePrefix (cleaned U s) p r) {ws : List Str}
    (hw : Words U (cleaned U s) ws) (hc : e.concat = true ∨ ws.length = 1) :
    e.encodeWith U R recur s ls = .ok (bars ((textPhonemes R e ls (nameText e ws)).map Phoneme.text)) := by
  obtain ⟨h1, h2, h3, h4⟩ := encodeWith_known U R e recur s ls h hk
  rw [h1]
  unfold encodeRest
  rw [no_prefix hp, words_eq hw]
  simp only
  have : e.textOf ws = some (.ok (nameText e ws)) := by
    unfold Engine.textOf nameText
    cases hcc : e.concat with
    | true => simp [keptWords_eq, joinWith_separated]
    | false =>
      have hl : ws.length = 1 := hc.resolve_left (by simp [hcc])
      match ws, hl with
      | [w], _ => simp
  rw [this]
  simp only [bind, Except.bind]
  exact encodeText_eq R e _ _ _ h2 h3 h4 ls _

theorem encodeWords_ok {recur : Str → Res Str} {ws : List Str} (h : ∀ w ∈ ws, NoPanic (recur w)) :
    ∃ codes, Engine.encodeWords recur ws = .ok codes ∧ ws.map recur = codes.map .ok := by
  induction ws with
  | nil => exact ⟨[], rfl, rfl⟩
  | cons w ws ih =>
    obtain ⟨c, hc⟩ := h w List.mem_cons_self
    obtain ⟨cs, h1, h2⟩ := ih fun v hv => h v (List.mem_cons_of_mem _ hv)
    refine ⟨c :: cs, ?_, ?_⟩
    · simp only [Engine.encodeWords, hc, h1]; rfl
    · simp [hc, h2]

/-- With well-formed rules the encoding of a name is never a panic. -/
theorem encodeWith_ok (U : Unicode) (R : RegexEngine) (e : Engine) (recur : Str → Res Str) (s : Str)
    (ls : LanguageSet) (h : EngineWF e) (hk : Knows e (languageOf ls))
    (hr : ∀ x, Fixed U x → x.length < (cleaned U s).length → NoPanic (recur x)) :
    NoPanic (e.encodeWith U R recur s ls) := by
  obtain ⟨ws, hw⟩ := words_exist U (cleaned U s)
  have hfix := fixed_cleaned U s
  by_cases hp : e.nameType = .generic ∧ ∃ p r, NamePrefix (cleaned U s) p r
  · obtain ⟨hn, p, r, hp⟩ := hp
    rw [encodeWith_prefix U R e recur s ls h hk hn hp]
    obtain ⟨h1, h2, h3, h4⟩ := namePrefix_facts hp
    obtain ⟨a, ha⟩ := hr _ (hfix.subset h3) h1
    obtain ⟨b, hb⟩ := hr _ (hfix.subset h4) h2
    exact ⟨_, by unfold Engine.encodeTwice; rw [ha, hb]; rfl⟩
  · have hp' : e.nameType = .generic → ∀ p r, ¬ NamePrefix (cleaned U s) p r :=
      fun hn p r h => hp ⟨hn, p, r, h⟩
    by_cases hc : e.concat = true ∨ ws.length = 1
    · exact ⟨_, encodeWith_text U R e recur s ls h hk hp' hw hc⟩
    · have hc1 : e.concat = false := by
        cases hcc : e.concat with
        | true => exact absurd (.inl hcc) hc
        | false => rfl
      have hc2 : ws.length ≠ 1 := fun h => hc (.inr h)
      rw [encodeWith_words U R e recur s ls h hk hp' hc1 hw hc2]
      obtain ⟨codes, h1, _⟩ := encodeWords_ok (recur := recur) (ws := ws) fun w hw' =>
        hr w (hfix.subset (words_subset hw w hw')) (words_shorter hw hc2 w hw')
      exact ⟨_, by rw [h1]; rfl⟩

theorem encode_ok (U : Unicode) (R : RegexEngine) (e : Engine) (h : EngineWF e) (s : Str) :
    NoPanic (e.encode U R s) := by
  induction hn : (U.strLower s).length using Nat.strongRecOn generalizing s with
  | ind n ih =>
    rw [encode_eq]
    apply encodeWith_ok U R e _ s _ h (knows_guess h U R s)
    intro x hx hl
    exact ih x.length (by rw [cleaned_length] at hl; omega) x (by rw [strLower_fixed hx])

end Verif.BMProofs
