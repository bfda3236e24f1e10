import Verif.Props.BMText
/-!
# Large values of `max_phonemes` (C85, C86)
-/

set_option linter.unusedSimpArgs false

namespace Verif.BMProofs
open BM Spec

/-- A value that no longer changes from some number on. -/
def Settles {α : Type _} (f : Nat → α) (a : α) : Prop := ∃ N, ∀ n, N ≤ n → f n = a

theorem Settles.const {α : Type _} (a : α) : Settles (fun _ => a) a := ⟨0, fun _ _ => rfl⟩

theorem Settles.comp {α β : Type _} {f : Nat → α} {a : α} {g : Nat → α → β} {b : β} (hf : Settles f a)
    (hg : Settles (fun n => g n a) b) : Settles (fun n => g n (f n)) b := by
  obtain ⟨N, hN⟩ := hf
  obtain ⟨M, hM⟩ := hg
  refine ⟨max N M, fun n hn => ?_⟩
  show g n (f n) = b
  rw [hN n (by omega)]
  exact hM n (by omega)

theorem Settles.foldl {α β : Type _} {step : Nat → β → α → β} {lim : β → α → β} (l : List α)
    (h : ∀ b, ∀ a ∈ l, Settles (fun n => step n b a) (lim b a)) {f : Nat → β} {b : β} (hf : Settles f b) :
    Settles (fun n => l.foldl (step n) (f n)) (l.foldl lim b) := by
  induction l generalizing f b with
  | nil => exact hf
  | cons a l ih =>
    exact ih (f := fun n => step n (f n) a) (fun b x hx => h b x (List.mem_cons_of_mem _ hx))
      (hf.comp (g := fun n b => step n b a) (h b a List.mem_cons_self))

/-! ## Without a maximum -/

/-- All combinations with different texts, sorted. -/
def combineAll (ps alts : List Phoneme) : List Phoneme := sortByText (firstOfEachText (combinations ps alts))

theorem combine_settles (ps alts : List Phoneme) : Settles (fun n => combine n ps alts) (combineAll ps alts) := by
  refine ⟨(firstOfEachText (combinations ps alts)).length, fun n hn => ?_⟩
  show sortByText _ = _
  rw [List.take_of_length_le hn]
  rfl

def mainStepAll (ps : List Phoneme) : Segment → List Phoneme
  | .rule alts => combineAll ps alts
  | .letter _ => ps

def finalStepAll (ps : List Phoneme) : Segment → List Phoneme
  | .rule alts => combineAll ps alts
  | .letter c => sortByText (ps.map fun p => ⟨p.text ++ [c], p.languages⟩)

def refineAll (ls : LanguageSet) (segs : List Segment) : List Phoneme := segs.foldl finalStepAll [⟨[], ls⟩]

def finalAll (R : RegexEngine) (rules : Char → List Rule) (ps : List Phoneme) : List Phoneme :=
  ps.foldl (fun set p => addPhonemes p.languages set (refineAll p.languages (segments R rules [] 0 p.text))) []

/-- The phonemes of a text without a maximum. -/
def phonemesAll (R : RegexEngine) (rules final1 final2 : RuleMap) (languages : LanguageSet) (text : Str) :
    List Phoneme :=
  let final (m : RuleMap) (ps : List Phoneme) := if m.isEmpty then ps else finalAll R (rulesFor m) ps
  final final2 (final final1 ((segments R (rulesFor rules) [] 0 text).foldl mainStepAll [⟨[], languages⟩]))

theorem mainPass_settles (ls : LanguageSet) (segs : List Segment) :
    Settles (fun n => mainPass n ls segs) (segs.foldl mainStepAll [⟨[], ls⟩]) := by
  refine Settles.foldl (step := mainStep) (lim := mainStepAll) segs ?_ (f := fun _ => [⟨[], ls⟩]) (Settles.const _)
  intro b a _
  cases a with
  | rule alts => exact combine_settles b alts
  | letter c => exact Settles.const _

theorem refine_settles (ls : LanguageSet) (segs : List Segment) :
    Settles (fun n => refinePhoneme n ls segs) (refineAll ls segs) := by
  refine Settles.foldl (step := finalStep) (lim := finalStepAll) segs ?_ (f := fun _ => [⟨[], ls⟩]) (Settles.const _)
  intro b a _
  cases a with
  | rule alts => exact combine_settles b alts
  | letter c => exact Settles.const _

theorem finalPass_settles (R : RegexEngine) (rules : Char → List Rule) {f : Nat → List Phoneme} {ps : List Phoneme}
    (hf : Settles f ps) : Settles (fun n => finalPass R n rules (f n)) (finalAll R rules ps) := by
  refine hf.comp (g := fun n ps => finalPass R n rules ps) ?_
  refine Settles.foldl (step := fun n set (p : Phoneme) => addPhonemes p.languages set
    (refinePhoneme n p.languages (segments R rules [] 0 p.text))) ps ?_ (f := fun _ => []) (Settles.const _)
  intro b a _
  exact (refine_settles a.languages (segments R rules [] 0 a.text)).comp
    (g := fun _ new => addPhonemes a.languages b new) (Settles.const _)

theorem phonemesOf_settles (R : RegexEngine) (rules final1 final2 : RuleMap) (ls : LanguageSet) (text : Str) :
    Settles (fun n => phonemesOf R n rules final1 final2 ls text) (phonemesAll R rules final1 final2 ls text) := by
  have step : ∀ (m : RuleMap) {f : Nat → List Phoneme} {ps : List Phoneme}, Settles f ps →
      Settles (fun n => if m.isEmpty then f n else finalPass R n (rulesFor m) (f n))
        (if m.isEmpty then ps else finalAll R (rulesFor m) ps) := by
    intro m f ps hf
    cases hm : m.isEmpty with
    | true => simpa using hf
    | false => simpa using finalPass_settles R (rulesFor m) hf
  exact step final2 (step final1 (mainPass_settles ls _))

/-! ## The encoder -/

theorem engineWF_max {e : Engine} (h : EngineWF e) (n : Nat) : EngineWF { e with maxPhonemes := n } :=
  ⟨h.any, h.guessed, h.common⟩

theorem encodeWords_settles {f : Nat → Str → Res Str} {ws : List Str}
    (h : ∀ w ∈ ws, ∃ c, Settles (fun n => f n w) (.ok c)) :
    ∃ cs, Settles (fun n => Engine.encodeWords (f n) ws) (.ok cs) := by
  induction ws with
  | nil => exact ⟨[], Settles.const _⟩
  | cons w ws ih =>
    obtain ⟨c, N, hc⟩ := h w List.mem_cons_self
    obtain ⟨cs, M, hcs⟩ := ih fun x hx => h x (List.mem_cons_of_mem _ hx)
    refine ⟨c :: cs, max N M, fun n hn => ?_⟩
    have h1 := hc n (by omega)
    have h2 := hcs n (by omega)
    simp only at h1 h2
    simp only [Engine.encodeWords, h1, h2]
    rfl

theorem encodeWith_settles (U : Unicode) (R : RegexEngine) (e : Engine) (h : EngineWF e) (s : Str) (ls : LanguageSet)
    (hk : Knows e (languageOf ls)) {f : Nat → Str → Res Str}
    (hf : ∀ t, (e.nameType = .generic ∧ ∃ p r, NamePrefix (cleaned U s) p r ∧ (t = r ∨ t = p ++ r)) ∨
      (∃ ws, Words U (cleaned U s) ws ∧ ws.length ≠ 1 ∧ t ∈ ws) → ∃ c, Settles (fun n => f n t) (.ok c)) :
    ∃ c, Settles (fun n => ({ e with maxPhonemes := n } : Engine).encodeWith U R (f n) s ls) (.ok c) := by
  by_cases hp : e.nameType = .generic ∧ ∃ p r, NamePrefix (cleaned U s) p r
  · obtain ⟨hn, p, r, hpr⟩ := hp
    obtain ⟨a, N, ha⟩ := hf r (.inl ⟨hn, p, r, hpr, .inl rfl⟩)
    obtain ⟨b, M, hb⟩ := hf (p ++ r) (.inl ⟨hn, p, r, hpr, .inr rfl⟩)
    refine ⟨c!"(" ++ a ++ c!")-(" ++ b ++ c!")", max N M, fun n hm => ?_⟩
    have h1 := ha n (by omega)
    have h2 := hb n (by omega)
    simp only at h1 h2
    simp only
    rw [encodeWith_prefix U R _ _ s ls (engineWF_max h n) hk hn hpr]
    simp only [Engine.encodeTwice, h1, h2]
    rfl
  · have hp' : e.nameType = .generic → ∀ p r, ¬ NamePrefix (cleaned U s) p r :=
      fun hn p r hpr => hp ⟨hn, p, r, hpr⟩
    obtain ⟨ws, hw⟩ := words_exist U (cleaned U s)
    by_cases hc : e.concat = true ∨ ws.length = 1
    · obtain ⟨N, hN⟩ := phonemesOf_settles R (rulesOf e .rules (languageOf ls)) (rulesOf e e.ruleType c!"common")
        (rulesOf e e.ruleType (languageOf ls)) ls (nameText e ws)
      refine ⟨bars ((phonemesAll R (rulesOf e .rules (languageOf ls)) (rulesOf e e.ruleType c!"common")
        (rulesOf e e.ruleType (languageOf ls)) ls (nameText e ws)).map Phoneme.text), N, fun n hn => ?_⟩
      simp only
      rw [encodeWith_text U R _ _ s ls (engineWF_max h n) hk hp' hw hc]
      have := hN n hn
      simp only at this
      show Except.ok (bars (List.map Phoneme.text (phonemesOf R n _ _ _ ls (nameText e ws)))) = _
      exact congrArg (fun x => Except.ok (bars (List.map Phoneme.text x))) this
    · have hc1 : e.concat = false := by cases hcc : e.concat <;> simp_all
      have hc2 : ws.length ≠ 1 := fun h => hc (.inr h)
      obtain ⟨cs, N, hcs⟩ := encodeWords_settles (f := f) (ws := ws) fun w hw' => hf w (.inr ⟨ws, hw, hc2, hw'⟩)
      refine ⟨separated c!"-" cs, N, fun n hn => ?_⟩
      simp only
      rw [encodeWith_words U R _ _ s ls (engineWF_max h n) hk hp' hc1 hw hc2]
      have := hcs n hn
      simp only at this
      rw [this]
      rfl

theorem encode_settles (U : Unicode) (R : RegexEngine) (e : Engine) (h : EngineWF e) (s : Str) :
    ∃ c, Settles (fun n => ({ e with maxPhonemes := n } : Engine).encode U R s) (.ok c) := by
  induction hn : (U.strLower s).length using Nat.strongRecOn generalizing s with
  | ind n ih =>
    have hfix := fixed_cleaned U s
    have key := encodeWith_settles U R e h s (e.lang.guessLanguages U R s) (knows_guess h U R s)
      (f := fun n => ({ e with maxPhonemes := n } : Engine).encode U R) (by
        intro t ht
        have ⟨h1, h2⟩ : Fixed U t ∧ t.length < (cleaned U s).length := by
          rcases ht with ⟨_, p, r, hpr, rfl | rfl⟩ | ⟨ws, hw, hl, hm⟩
          · obtain ⟨_, h2, _, h4⟩ := namePrefix_facts hpr
            exact ⟨hfix.subset h4, h2⟩
          · obtain ⟨h1, _, h3, _⟩ := namePrefix_facts hpr
            exact ⟨hfix.subset h3, h1⟩
          · exact ⟨hfix.subset (words_subset hw t hm), words_shorter hw hl t hm⟩
        exact ih t.length (by rw [cleaned_length] at h2; omega) t (by rw [strLower_fixed h1]))
    obtain ⟨c, N, hN⟩ := key
    refine ⟨c, N, fun n hn => ?_⟩
    simp only
    rw [encode_eq]
    exact hN n hn

/-! ## Without language tags nothing is lost -/

theorem mem_combineAll {ps alts : List Phoneme} {ls : LanguageSet} (hls : ls.isEmpty = false)
    (hp : ∀ p ∈ ps, p.languages = ls) (ha : ∀ a ∈ alts, a.languages = .any) :
    (∀ x ∈ combineAll ps alts, x.languages = ls) ∧
    ∀ t, t ∈ (combineAll ps alts).map Phoneme.text ↔ ∃ p ∈ ps, ∃ a ∈ alts, t = p.text ++ a.text := by
  have hc : ∀ x, x ∈ combinations ps alts ↔ ∃ p ∈ ps, ∃ a ∈ alts, x = ⟨p.text ++ a.text, ls⟩ := by
    intro x
    simp only [combinations, List.mem_flatMap, List.mem_filterMap]
    constructor
    · rintro ⟨p, h1, a, h2, h3⟩
      rw [hp p h1, ha a h2, restrictTo_any, hls] at h3
      simp only [Bool.false_eq_true, if_false, Option.some.injEq] at h3
      exact ⟨p, h1, a, h2, h3.symm⟩
    · rintro ⟨p, h1, a, h2, rfl⟩
      refine ⟨p, h1, a, h2, ?_⟩
      rw [hp p h1, ha a h2, restrictTo_any, hls]
      rfl
  constructor
  · intro x hx
    obtain ⟨p, _, a, _, rfl⟩ := (hc x).mp (mem_firstOfEachText (mem_sortByText.mp hx))
    rfl
  · intro t
    constructor
    · intro h
      obtain ⟨x, hx, rfl⟩ := List.mem_map.mp h
      obtain ⟨p, h1, a, h2, rfl⟩ := (hc x).mp (mem_firstOfEachText (mem_sortByText.mp hx))
      exact ⟨p, h1, a, h2, rfl⟩
    · rintro ⟨p, h1, a, h2, rfl⟩
      obtain ⟨q, h3, h4⟩ := text_mem_firstOfEachText ((hc _).mpr ⟨p, h1, a, h2, rfl⟩)
      exact List.mem_map.mpr ⟨q, mem_sortByText.mpr h3, h4⟩

theorem foldl_choices {keep : Bool} {step : List Phoneme → Segment → List Phoneme} {ls : LanguageSet}
    (hstep : ∀ ps s, (∀ p ∈ ps, p.languages = ls) → (∀ alts, s = .rule alts → ∀ a ∈ alts, a.languages = .any) →
      (∀ x ∈ step ps s, x.languages = ls) ∧
      ∀ t, t ∈ (step ps s).map Phoneme.text ↔ ∃ p ∈ ps, ∃ a, Choice keep [s] a ∧ t = p.text ++ choiceText a)
    (segs : List Segment) (hs : ∀ alts, Segment.rule alts ∈ segs → ∀ a ∈ alts, a.languages = .any)
    {ps : List Phoneme} (hp : ∀ p ∈ ps, p.languages = ls) :
    (∀ x ∈ segs.foldl step ps, x.languages = ls) ∧
    ∀ t, t ∈ (segs.foldl step ps).map Phoneme.text ↔ ∃ p ∈ ps, ∃ a, Choice keep segs a ∧ t = p.text ++ choiceText a := by
  induction segs generalizing ps with
  | nil =>
    refine ⟨hp, fun t => ?_⟩
    constructor
    · intro h
      obtain ⟨p, h1, rfl⟩ := List.mem_map.mp h
      exact ⟨p, h1, [], .nil, by simp [choiceText]⟩
    · rintro ⟨p, h1, a, h2, rfl⟩
      cases h2
      exact List.mem_map.mpr ⟨p, h1, by simp [choiceText]⟩
  | cons s segs ih =>
    obtain ⟨g1, g2⟩ := hstep ps s hp fun alts h => hs alts (h ▸ List.mem_cons_self)
    obtain ⟨i1, i2⟩ := ih (fun alts h => hs alts (List.mem_cons_of_mem _ h)) g1
    refine ⟨i1, fun t => ?_⟩
    rw [List.foldl_cons, i2]
    constructor
    · rintro ⟨x, hx, a, ha, rfl⟩
      obtain ⟨p, hp', b, hb, h3⟩ := (g2 x.text).mp (List.mem_map_of_mem hx)
      refine ⟨p, hp', b ++ a, choice_cons hb ha, ?_⟩
      rw [h3]; simp [choiceText]
    · rintro ⟨p, hp', a, ha, rfl⟩
      obtain ⟨b, d, rfl, hb, hd⟩ : ∃ b d, a = b ++ d ∧ Choice keep [s] b ∧ Choice keep segs d := by
        cases ha with
        | rule h h' => exact ⟨[_], _, rfl, .rule h .nil, h'⟩
        | letter h' =>
          cases keep with
          | true => exact ⟨[_], _, rfl, Choice.letter .nil, h'⟩
          | false => exact ⟨[], _, rfl, Choice.letter .nil, h'⟩
      obtain ⟨x, hx, hxt⟩ := List.mem_map.mp ((g2 (p.text ++ choiceText b)).mpr ⟨p, hp', b, hb, rfl⟩)
      refine ⟨x, hx, d, hd, ?_⟩
      rw [hxt]; simp [choiceText]

theorem step_rule {ls : LanguageSet} (hls : ls.isEmpty = false) (keep : Bool) (ps alts : List Phoneme)
    (hp : ∀ p ∈ ps, p.languages = ls) (ha : ∀ a ∈ alts, a.languages = .any) :
    (∀ x ∈ combineAll ps alts, x.languages = ls) ∧
      ∀ t, t ∈ (combineAll ps alts).map Phoneme.text ↔
        ∃ p ∈ ps, ∃ a, Choice keep [.rule alts] a ∧ t = p.text ++ choiceText a := by
  obtain ⟨h1, h2⟩ := mem_combineAll hls hp ha
  refine ⟨h1, fun t => (h2 t).trans ⟨?_, ?_⟩⟩
  · rintro ⟨p, hp', a, ha', rfl⟩
    exact ⟨p, hp', [a], .rule ha' .nil, by simp [choiceText]⟩
  · rintro ⟨p, hp', a, ha', rfl⟩
    cases ha' with
    | rule h h' => cases h'; exact ⟨p, hp', _, h, by simp [choiceText]⟩

theorem untagged_segments {R : RegexEngine} {m : RuleMap} (hm : Untagged m) (before : Str) (k : Nat) (t : Str) :
    ∀ alts, Segment.rule alts ∈ segments R (rulesFor m) before k t → ∀ a ∈ alts, a.languages = .any := by
  intro alts h
  obtain ⟨c, r, hr, rfl⟩ := mem_segments.1 alts h
  exact hm c r hr

theorem mainAll_choices (R : RegexEngine) {m : RuleMap} (hm : Untagged m) {ls : LanguageSet}
    (hls : ls.isEmpty = false) (text : Str) :
    (∀ x ∈ (segments R (rulesFor m) [] 0 text).foldl mainStepAll [⟨[], ls⟩], x.languages = ls) ∧
    ∀ t, t ∈ ((segments R (rulesFor m) [] 0 text).foldl mainStepAll [⟨[], ls⟩]).map Phoneme.text ↔
      ∃ a, Choice false (segments R (rulesFor m) [] 0 text) a ∧ t = choiceText a := by
  have := foldl_choices (keep := false) (step := mainStepAll) (ls := ls) ?_ (segments R (rulesFor m) [] 0 text)
    (untagged_segments hm _ _ _) (ps := [⟨[], ls⟩]) (by intro p hp; rw [List.mem_singleton.mp hp])
  · refine ⟨this.1, fun t => (this.2 t).trans ?_⟩
    simp
  · intro ps s hp ha
    cases s with
    | rule alts => exact step_rule hls false ps alts hp (ha alts rfl)
    | letter c =>
      refine ⟨hp, fun t => ?_⟩
      constructor
      · intro h
        obtain ⟨p, hp', rfl⟩ := List.mem_map.mp h
        exact ⟨p, hp', [], Choice.letter .nil, by simp [choiceText]⟩
      · rintro ⟨p, hp', a, ha', rfl⟩
        cases ha' with
        | letter h' => cases h'; exact List.mem_map.mpr ⟨p, hp', by simp [choiceText]⟩

theorem refineAll_choices (R : RegexEngine) {m : RuleMap} (hm : Untagged m) {ls : LanguageSet}
    (hls : ls.isEmpty = false) (text : Str) :
    (∀ x ∈ refineAll ls (segments R (rulesFor m) [] 0 text), x.languages = ls) ∧
    ∀ t, t ∈ (refineAll ls (segments R (rulesFor m) [] 0 text)).map Phoneme.text ↔
      ∃ a, Choice true (segments R (rulesFor m) [] 0 text) a ∧ t = choiceText a := by
  have := foldl_choices (keep := true) (step := finalStepAll) (ls := ls) ?_ (segments R (rulesFor m) [] 0 text)
    (untagged_segments hm _ _ _) (ps := [⟨[], ls⟩]) (by intro p hp; rw [List.mem_singleton.mp hp])
  · refine ⟨this.1, fun t => (this.2 t).trans ?_⟩
    simp
  · intro ps s hp ha
    cases s with
    | rule alts => exact step_rule hls true ps alts hp (ha alts rfl)
    | letter c =>
      refine ⟨?_, fun t => ?_⟩
      · intro x hx
        obtain ⟨p, hp', rfl⟩ := List.mem_map.mp (mem_sortByText.mp hx)
        exact hp p hp'
      constructor
      · intro h
        obtain ⟨x, hx, rfl⟩ := List.mem_map.mp h
        obtain ⟨p, hp', rfl⟩ := List.mem_map.mp (mem_sortByText.mp hx)
        exact ⟨p, hp', [⟨[c], .any⟩], Choice.letter .nil, by simp [choiceText]⟩
      · rintro ⟨p, hp', a, ha', rfl⟩
        cases ha' with
        | letter h' =>
          cases h'
          exact List.mem_map.mpr ⟨_, mem_sortByText.mpr (List.mem_map_of_mem hp'), by simp [choiceText]⟩

theorem finalAll_text (R : RegexEngine) (rules : Char → List Rule) (ps : List Phoneme) (t : Str) :
    t ∈ (finalAll R rules ps).map Phoneme.text ↔
      ∃ p ∈ ps, t ∈ (refineAll p.languages (segments R rules [] 0 p.text)).map Phoneme.text := by
  have key : ∀ (ps set : List Phoneme),
      t ∈ (ps.foldl (fun set p => addPhonemes p.languages set
        (refineAll p.languages (segments R rules [] 0 p.text))) set).map Phoneme.text ↔
      t ∈ set.map Phoneme.text ∨
        ∃ p ∈ ps, t ∈ (refineAll p.languages (segments R rules [] 0 p.text)).map Phoneme.text := by
    intro ps
    induction ps with
    | nil => intro set; simp
    | cons p ps ih =>
      intro set
      rw [List.foldl_cons, ih, addPhonemes_text]
      simp only [List.mem_cons, exists_eq_or_imp, or_assoc]
  unfold finalAll
  rw [key]
  simp

theorem merge_nonempty {a b : LanguageSet} (ha : a.isEmpty = false) :
    (a.merge b).isEmpty = false := by
  obtain ⟨l, hl⟩ := Props.nonempty_denotes ha
  cases h : (a.merge b).isEmpty with
  | false => rfl
  | true => exact absurd ((Props.languageSet_merge a b l).mpr (.inl hl)) ((Props.languageSet_isEmpty _).mp h l)

theorem finalAll_nonempty (R : RegexEngine) {m : RuleMap} (hm : Untagged m) (ps : List Phoneme)
    (hp : ∀ p ∈ ps, p.languages.isEmpty = false) :
    ∀ x ∈ finalAll R (rulesFor m) ps, x.languages.isEmpty = false := by
  have key : ∀ (ps set : List Phoneme), (∀ p ∈ ps, p.languages.isEmpty = false) →
      (∀ p ∈ set, p.languages.isEmpty = false) →
      ∀ x ∈ (ps.foldl (fun set p => addPhonemes p.languages set
        (refineAll p.languages (segments R (rulesFor m) [] 0 p.text))) set), x.languages.isEmpty = false := by
    intro ps
    induction ps with
    | nil => intro set _ h; exact h
    | cons p ps ih =>
      intro set h1 h2
      rw [List.foldl_cons]
      refine ih _ (fun q hq => h1 q (List.mem_cons_of_mem _ hq)) ?_
      intro x hx
      have hpe := h1 p List.mem_cons_self
      rcases List.mem_append.mp (mem_sortByText.mp hx) with hx | hx
      · obtain ⟨q, hq, rfl⟩ := List.mem_map.mp hx
        split
        · exact merge_nonempty (h2 q hq)
        · exact h2 q hq
      · have := (refineAll_choices R hm hpe p.text).1 x (List.mem_filter.mp hx).1
        rw [this]; exact hpe
  exact key ps [] hp (by simp)

theorem phonemesAll_choices (R : RegexEngine) {rules final1 final2 : RuleMap} (h0 : Untagged rules)
    (h1 : Untagged final1) (h2 : Untagged final2) {ls : LanguageSet} (hls : ls.isEmpty = false) (text t : Str) :
    t ∈ (phonemesAll R rules final1 final2 ls text).map Phoneme.text ↔
      ∃ choice, Choice false (segments R (rulesFor rules) [] 0 text) choice ∧
        ∃ b, RefinedBy R final1 (choiceText choice) b ∧ RefinedBy R final2 b t := by
  have step : ∀ (m : RuleMap), Untagged m → ∀ ps : List Phoneme, (∀ p ∈ ps, p.languages.isEmpty = false) →
      (∀ x ∈ (if m.isEmpty then ps else finalAll R (rulesFor m) ps), x.languages.isEmpty = false) ∧
      ∀ u, u ∈ (if m.isEmpty then ps else finalAll R (rulesFor m) ps).map Phoneme.text ↔
        ∃ a ∈ ps.map Phoneme.text, RefinedBy R m a u := by
    intro m hm ps hps
    unfold RefinedBy
    by_cases he : m.isEmpty = true
    · simp only [he, if_true]
      exact ⟨hps, fun u => ⟨fun h => ⟨u, h, rfl⟩, fun ⟨a, h, e⟩ => e ▸ h⟩⟩
    · simp only [he]
      refine ⟨finalAll_nonempty R hm ps hps, fun u => ?_⟩
      show u ∈ (finalAll R (rulesFor m) ps).map Phoneme.text ↔ _
      rw [finalAll_text]
      constructor
      · rintro ⟨p, hp, hu⟩
        refine ⟨p.text, List.mem_map_of_mem hp, ?_⟩
        exact ((refineAll_choices R hm (hps p hp) p.text).2 u).mp hu
      · rintro ⟨a, ha, hu⟩
        obtain ⟨p, hp, rfl⟩ := List.mem_map.mp ha
        exact ⟨p, hp, ((refineAll_choices R hm (hps p hp) p.text).2 u).mpr hu⟩
  obtain ⟨m1, m2⟩ := mainAll_choices R h0 hls text
  obtain ⟨f1, f2⟩ := step final1 h1 _ (fun p hp => by rw [m1 p hp]; exact hls)
  obtain ⟨-, g2⟩ := step final2 h2 _ f1
  unfold phonemesAll
  dsimp only
  rw [g2]
  constructor
  · rintro ⟨b, hb, hr⟩
    obtain ⟨a, ha, hr1⟩ := (f2 b).mp hb
    obtain ⟨choice, hc, rfl⟩ := (m2 a).mp ha
    exact ⟨choice, hc, b, hr1, hr⟩
  · rintro ⟨choice, hc, b, hr1, hr⟩
    exact ⟨b, (f2 b).mpr ⟨_, (m2 _).mpr ⟨choice, hc, rfl⟩, hr1⟩, hr⟩

end Verif.BMProofs

namespace Verif.Props
open BM Spec BMProofs

/-! ## C85 -/

/-- The settings of a builder apply to the encoder: the maximum is the only thing that changes. -/
theorem bm_build_max (b : Builder) (e : Engine) (h : b.build = .ok e) (n : Nat) :
    (b.withMaxPhonemes n).build = .ok { e with maxPhonemes := n } := by
  unfold Builder.build Builder.withMaxPhonemes at *
  simp only at *
  split at h
  · cases h
  · rename_i lang hl
    injection h with h
    subst h
    rfl

/-- C85: for every name there is a number from which on `max_phonemes` makes no difference. -/
theorem bm_max_settles (U : Unicode) (R : RegexEngine) (o : Origin) (e : Engine) (h : BuiltFrom U R o e)
    (hany : Offers o e.nameType c!"any") (s : Str) :
    ∃ N code, ∀ n, N ≤ n → ({ e with maxPhonemes := n } : Engine).encode U R s = .ok code := by
  obtain ⟨c, N, hN⟩ := encode_settles U R e (engineWF_of_built h hany) s
  exact ⟨N, c, hN⟩

/-- C85: the same for given languages. -/
theorem bm_max_settles_languages (U : Unicode) (R : RegexEngine) (o : Origin) (e : Engine) (h : BuiltFrom U R o e)
    (hany : Offers o e.nameType c!"any") (s : Str) (ls : LanguageSet)
    (hl : ∀ l, ls = .someLanguages [l] → Offers o e.nameType l) :
    ∃ N code, ∀ n, N ≤ n → ({ e with maxPhonemes := n } : Engine).encodeWithLanguages U R s ls = .ok code := by
  have hw := engineWF_of_built h hany
  obtain ⟨c, N, hN⟩ := encodeWith_settles U R e hw s ls (knows_given h hany hl)
    (f := fun n => ({ e with maxPhonemes := n } : Engine).encode U R) fun t _ => encode_settles U R e hw t
  refine ⟨N, c, fun n hn => ?_⟩
  rw [encodeWithLanguages_eq]
  exact hN n hn

/-! ## C86 -/

/-- C86: without language tags, and with a maximum that is large enough, the code of a name that is encoded at
once lists exactly the texts that come from one alternative for each segment that a main rule covers, refined by
the common final rules and then by those of the language. -/
theorem bm_all_choices (U : Unicode) (R : RegexEngine) (o : Origin) (e : Engine) (h : BuiltFrom U R o e)
    (hany : Offers o e.nameType c!"any") (s : Str) (ws : List Str) (ls : LanguageSet)
    (hls : ls = e.lang.guessLanguages U R s)
    (hp : e.nameType = .generic → ∀ p r, ¬ NamePrefix (cleaned U s) p r)
    (hw : Words U (cleaned U s) ws) (hc : e.concat = true ∨ ws.length = 1)
    (h0 : Untagged (rulesOf e .rules (languageOf ls))) (h1 : Untagged (rulesOf e e.ruleType c!"common"))
    (h2 : Untagged (rulesOf e e.ruleType (languageOf ls))) :
    ∃ (N : Nat) (ts : List Str), (∀ n, N ≤ n → ({ e with maxPhonemes := n } : Engine).encode U R s = .ok (bars ts)) ∧
      ts.Pairwise (· < ·) ∧
      ∀ t, t ∈ ts ↔ ∃ choice,
        Choice false (segments R (rulesFor (rulesOf e .rules (languageOf ls))) [] 0 (nameText e ws)) choice ∧
        ∃ b, RefinedBy R (rulesOf e e.ruleType c!"common") (choiceText choice) b ∧
          RefinedBy R (rulesOf e e.ruleType (languageOf ls)) b t := by
  have hwf := engineWF_of_built h hany
  have hne : ls.isEmpty = false := by rw [hls]; exact guess_nonempty U R e.lang s
  obtain ⟨N, hN⟩ := phonemesOf_settles R (rulesOf e .rules (languageOf ls)) (rulesOf e e.ruleType c!"common")
    (rulesOf e e.ruleType (languageOf ls)) ls (nameText e ws)
  simp only at hN
  refine ⟨N, _, fun n hn => ?_, ?_, phonemesAll_choices R h0 h1 h2 hne (nameText e ws)⟩
  · rw [encode_eq, encodeWith_text U R { e with maxPhonemes := n } _ s _ (engineWF_max hwf n)
      (knows_guess (engineWF_max hwf n) U R s) hp hw hc]
    rw [← hN n hn, hls]
    rfl
  · rw [← hN N (Nat.le_refl N), List.pairwise_map]
    exact phonemesOf_sorted R N _ _ _ ls _

/-! ## Examples -/

namespace SampleMax

/-- Rules without language tags. -/
def dir : Directory where
  entries := [c!"gen_languages.txt", c!"ash_languages.txt", c!"sep_languages.txt"]
  read name :=
    if endsWith name c!"_languages.txt" then some c!"any\n"
    else if endsWith name c!"_rules_any.txt" then
      some c!"\"p\" \"\" \"\" \"(z|a)\"\n\"q\" \"\" \"\" \"x\"\n\"r\" \"\" \"\" \"(x|y)\"\n"
    else if endsWith name c!"_approx_common.txt" then some c!"\"z\" \"\" \"\" \"(s|z)\"\n"
    else if endsWith name c!".txt" then some []
    else none
  ioError name := name

def config : Res (Except PhoneticError ConfigFiles) := ConfigFiles.new .latin1 SampleBM.regex 3 dir

/-- An encoder with the given settings. -/
def encoder (rt : RuleType) (max : Nat) : Option Engine :=
  match config with
  | .ok (.ok cfg) => ((Builder.new cfg).withRuleType rt).withMaxPhonemes max |>.build |>.toOption
  | _ => none

theorem built {rt : RuleType} {max : Nat} {e : Engine} (h : encoder rt max = some e) :
    BuiltFrom .latin1 SampleBM.regex (.directory dir) e ∧ e.nameType = .generic ∧
      e.ruleType = .ofRuleType rt ∧ e.concat = true ∧ e.maxPhonemes = max := by
  have key : (match config with | .ok (.ok _) => true | _ => false) = true := by decide +kernel
  unfold encoder at h
  cases hc : config with
  | error x => rw [hc] at key; cases key
  | ok x =>
    cases x with
    | error x => rw [hc] at key; cases key
    | ok cfg =>
      rw [hc] at h
      simp only at h
      have h3 : (((Builder.new cfg).withRuleType rt).withMaxPhonemes max).build = .ok e := by
        unfold Except.toOption at h
        split at h
        · rename_i x hx; cases h; exact hx
        · cases h
      obtain ⟨_, _, _, _, g4, g5, g6, g7⟩ := build_spec h3
      exact ⟨⟨3, cfg, _, hc, rfl, h3⟩, g4, g5, g6, g7⟩

theorem lists (nt : NameType) : Lists dir nt c!"any" := by
  have hr : dir.read nt.languageFilename = some c!"any\n" := by cases nt <;> decide +kernel
  have hp : parseList c!"any\n" = .ok (.ok [c!"any"]) := by decide +kernel
  obtain ⟨items, tail, h2, h3⟩ := (mem_parseList hp c!"any").mp (by simp)
  exact ⟨_, items, tail, hr, h2, h3⟩

theorem untagged {rt : RuleType} {max : Nat} {e : Engine} (h : encoder rt max = some e) (t : PrivateRuleType)
    (l : Str) : Untagged (rulesOf e t l) := by
  have key : (match config with
    | .ok (.ok cfg) => cfg.rules.all fun km => km.2.all fun cr => cr.2.all fun r => r.phoneme.all fun p =>
        decide (p.languages = .any)
    | _ => false) = true := by decide +kernel
  unfold encoder at h
  cases hc : config with
  | error x => rw [hc] at key; cases key
  | ok x =>
    cases x with
    | error x => rw [hc] at key; cases key
    | ok cfg =>
      rw [hc] at h key
      simp only at h key
      have h3 : (((Builder.new cfg).withRuleType rt).withMaxPhonemes max).build = .ok e := by
        unfold Except.toOption at h
        split at h
        · rename_i x hx; cases h; exact hx
        · cases h
      have hr : e.rules = cfg.rules := by
        unfold Builder.build at h3
        split at h3
        · cases h3
        · injection h3 with h3; subst h3; rfl
      intro c r hr' a ha
      unfold rulesOf at hr'
      rw [hr] at hr'
      cases hm : cfg.rules.get? (e.nameType, t, l) with
      | none => rw [hm] at hr'; cases hr'
      | some m =>
        rw [hm] at hr'
        unfold rulesFor at hr'
        simp only [Option.getD_some] at hr'
        cases hg : m.get? c with
        | none => rw [hg] at hr'; cases hr'
        | some rs =>
          rw [hg] at hr'
          have a1 := List.all_eq_true.mp key _ (get?_mem hm)
          have a2 := List.all_eq_true.mp a1 _ (get?_mem hg)
          have a3 := List.all_eq_true.mp (List.all_eq_true.mp a2 r hr') a ha
          simpa using a3

/-- The code with the given settings. -/
def code (rt : RuleType) (max : Nat) (s : Str) : Option Str :=
  (encoder rt max).bind fun e => (e.encode .latin1 SampleBM.regex s).toOption

theorem code_some {rt : RuleType} {max : Nat} {s c : Str} (h : code rt max s = some c) :
    ∃ e, encoder rt max = some e ∧ e.encode .latin1 SampleBM.regex s = .ok c := by
  unfold code at h
  cases he : encoder rt max with
  | none => rw [he] at h; cases h
  | some e =>
    rw [he] at h
    simp only [Option.bind_some] at h
    refine ⟨e, rfl, ?_⟩
    unfold Except.toOption at h
    split at h
    · rename_i x hx; cases h; exact hx
    · cases h

end SampleMax

/-- A larger maximum may lose a phoneme: the only phoneme with the maximum 1 is none of those with the maximum 2.
From 4 on all are there. -/
theorem bm_max_not_monotone :
    SampleMax.code .exact 1 c!"pqr" = some c!"zxx" ∧ SampleMax.code .exact 2 c!"pqr" = some c!"axx|axy" ∧
    SampleMax.code .exact 4 c!"pqr" = some c!"axx|axy|zxx|zxy" ∧
    SampleMax.code .exact 1000 c!"pqr" = some c!"axx|axy|zxx|zxy" := by decide +kernel

/-- The hypotheses of `bm_max_settles` and `bm_all_choices` hold of a name with six choices. -/
theorem bm_all_choices_example : ∃ e, BuiltFrom .latin1 SampleBM.regex (.directory SampleMax.dir) e ∧
    Offers (.directory SampleMax.dir) e.nameType c!"any" ∧ e.concat = true ∧
    (∀ p r, ¬ NamePrefix (cleaned .latin1 c!"Pqr") p r) ∧ Words .latin1 (cleaned .latin1 c!"Pqr") [c!"pqr"] ∧
    (∀ t l, Untagged (rulesOf e t l)) ∧
    e.encode .latin1 SampleBM.regex c!"Pqr" = .ok c!"axx|axy|sxx|sxy|zxx|zxy" := by
  have h : SampleMax.code .approx 20 c!"Pqr" = some c!"axx|axy|sxx|sxy|zxx|zxy" := by decide +kernel
  obtain ⟨e, he, hc⟩ := SampleMax.code_some h
  obtain ⟨h1, h2, h3, h4, h5⟩ := SampleMax.built he
  refine ⟨e, h1, SampleMax.lists _, h4, ?_, ?_, SampleMax.untagged he, hc⟩
  · exact foundPrefix_none.mp (by decide +kernel)
  · have := words_split .latin1 (cleaned .latin1 c!"Pqr")
    rwa [show splitWhitespace .latin1 (cleaned .latin1 c!"Pqr") = [c!"pqr"] from by decide +kernel] at this

end Verif.Props
