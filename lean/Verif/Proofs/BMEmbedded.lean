import Verif.Proofs.BMTransfer
import Verif.Proofs.BMPhonemes
import Verif.Spec.BMConfig
import Verif.Spec.BMEmbedded
import Verif.Spec.BMEmbeddedTable
/-!
# The embedded Beider-Morse rules
-/

set_option linter.unusedSimpArgs false

namespace Verif.BMProofs
open BM Spec ParserProofs

/-- Whether a piece matches a character. -/
def pieceMatches : Piece → Char → Bool
  | .letter c, x => x == c
  | .oneOf chars, x => chars.contains x
  | .noneOf chars, x => !chars.contains x

theorem pieceMatches_iff (p : Piece) (c : Char) : pieceMatches p c = true ↔ p.Matches c := by
  cases p <;> simp [pieceMatches, Piece.Matches]

/-- Whether a text starts with pieces. -/
def piecesPrefix : List Piece → Str → Bool
  | [], _ => true
  | _ :: _, [] => false
  | p :: ps, c :: s => pieceMatches p c && piecesPrefix ps s

theorem piecesPrefix_iff (ps : List Piece) (s : Str) :
    piecesPrefix ps s = true ↔ ∃ found after, s = found ++ after ∧ MatchesAll ps found := by
  induction ps generalizing s with
  | nil => exact ⟨fun _ => ⟨[], s, rfl, .nil⟩, fun _ => by cases s <;> rfl⟩
  | cons p ps ih =>
    cases s with
    | nil =>
      refine ⟨fun h => (by cases h), ?_⟩
      rintro ⟨found, after, h, hm⟩
      cases hm; cases h
    | cons c s =>
      simp only [piecesPrefix, Bool.and_eq_true, pieceMatches_iff, ih]
      constructor
      · rintro ⟨h, found, after, rfl, hm⟩
        exact ⟨c :: found, after, rfl, .cons h hm⟩
      · rintro ⟨found, after, h, hm⟩
        cases hm with
        | cons h1 h2 =>
          simp only [List.cons_append, List.cons.injEq] at h
          obtain ⟨rfl, rfl⟩ := h
          exact ⟨h1, _, _, rfl, h2⟩

theorem matchesAll_append {ps qs : List Piece} {s t : Str} (h1 : MatchesAll ps s) (h2 : MatchesAll qs t) :
    MatchesAll (ps ++ qs) (s ++ t) := by
  induction h1 with
  | nil => exact h2
  | cons h _ ih => exact .cons h ih

theorem matchesAll_reverse {ps : List Piece} {s : Str} (h : MatchesAll ps s) : MatchesAll ps.reverse s.reverse := by
  induction h with
  | nil => exact .nil
  | cons h _ ih =>
    rw [List.reverse_cons, List.reverse_cons]
    exact matchesAll_append ih (.cons h .nil)

/-- Whether an expression is found in a text. -/
def expressionMatches : Expression → Str → Bool
  | .atStart ps, s => piecesPrefix ps s
  | .atEnd ps, s => piecesPrefix ps.reverse s.reverse

theorem expressionMatches_iff (x : Expression) (s : Str) : expressionMatches x s = true ↔ x.Matches s := by
  cases x with
  | atStart ps => exact piecesPrefix_iff ps s
  | atEnd ps =>
    simp only [expressionMatches, Expression.Matches, piecesPrefix_iff]
    constructor
    · rintro ⟨found, after, h, hm⟩
      refine ⟨after.reverse, found.reverse, ?_, ?_⟩
      · rw [← List.reverse_append, ← h, List.reverse_reverse]
      · have := matchesAll_reverse hm
        rwa [List.reverse_reverse] at this
    · rintro ⟨before, found, rfl, hm⟩
      exact ⟨found.reverse, before.reverse, List.reverse_append, matchesAll_reverse hm⟩

/-- The texts of the expressions. -/
def expressionTexts : List Str := embeddedExpressions.map Expression.text

/-- An engine that knows these expressions only. -/
def embeddedRegex : RegexEngine where
  error p := if expressionTexts.contains p then none else some c!"unsupported"
  isMatch p s :=
    match embeddedExpressions.find? fun x => x.text == p with
    | some x => expressionMatches x s
    | none => false

theorem embeddedRegex_correct : CorrectEmbedded embeddedRegex := by
  constructor
  · intro x hx
    have : expressionTexts.contains x.text = true := by
      rw [List.contains_iff_mem]; exact List.mem_map_of_mem hx
    simp only [embeddedRegex, this, if_true]
  · intro x hx s
    have : embeddedExpressions.find? (fun y => y.text == x.text) = some x := by
      simp only [embeddedExpressions, List.mem_cons, List.not_mem_nil, or_false] at hx
      rcases hx with rfl | rfl | rfl | rfl | rfl | rfl | rfl <;> rfl
    simp only [embeddedRegex, this]
    exact expressionMatches_iff x s

theorem accepts_embedded {R : RegexEngine} (h : AcceptsEmbedded R) : Accepts embeddedRegex R := by
  intro p hp
  simp only [embeddedRegex] at hp
  split at hp
  · rename_i hc
    rw [List.contains_iff_mem] at hc
    obtain ⟨x, hx, rfl⟩ := List.mem_map.mp hc
    exact h x hx
  · cases hp

/-- A context of the embedded rules. -/
def okContext : Context → Bool
  | .regex p => expressionTexts.contains p
  | .optimized _ => true

/-- What is checked of each rule. -/
def okRule (r : Rule) : Bool :=
  okContext r.leftContext && okContext r.rightContext &&
    r.phoneme.all fun p => p.text.all phoneticAlphabet.contains

/-- The rule of a line. -/
def lineRule (x : Str × EmbeddedLine) : Option Rule :=
  match parseQuadruplet embeddedRegex x.1 x.2.line (x.2.pattern, x.2.left, x.2.right, x.2.phonemes) with
  | .ok (.ok r) => some r
  | _ => none

def lineRules : List (Str × EmbeddedLine) → Option (List Rule)
  | [] => some []
  | x :: xs =>
    match lineRule x, lineRules xs with
    | some r, some rs => some (r :: rs)
    | _, _ => none

/-- Whether a map holds the rules of lines. -/
def holds (lines : List (Str × EmbeddedLine)) (m : RuleMap) : Bool :=
  match lineRules lines with
  | none => false
  | some rs =>
    (m.all fun cl => decide (cl.2 = rs.filter fun r => r.pattern.head? == some cl.1)) &&
      rs.all fun r => match r.pattern with
        | [] => false
        | c :: _ => (m.get? c).isSome

def okRules (rules : Rules) : Bool :=
  rules.all fun km => (km.2.all fun cr => cr.2.all okRule) && holds (embeddedLines km.1.1 km.1.2.1 km.1.2.2) km.2

set_option maxRecDepth 100000 in
theorem embedded_check : (match buildRules asciiTables embeddedRegex .embedded 2 defaultLanguages with
    | .ok (.ok rules) => okRules rules
    | _ => false) = true := by decide +kernel

/-- The embedded rules load, and they are those of the lines of the files. -/
theorem embedded_rules_lines : ∃ rules, buildRules asciiTables embeddedRegex .embedded 2 defaultLanguages = .ok (.ok rules) ∧
    (∀ k m, rules.get? k = some m → ∀ c, ∀ r ∈ rulesFor m c, okRule r = true) ∧
    ∀ k m, rules.get? k = some m → holds (embeddedLines k.1 k.2.1 k.2.2) m = true := by
  have h := embedded_check
  split at h
  · rename_i rules hr
    have all : ∀ k m, rules.get? k = some m → (m.all fun cr => cr.2.all okRule) = true ∧
        holds (embeddedLines k.1 k.2.1 k.2.2) m = true := fun k m hk => by
      have := List.all_eq_true.mp h _ (get?_mem hk)
      rwa [Bool.and_eq_true] at this
    refine ⟨rules, hr, fun k m hk c r hm => ?_, fun k m hk => (all k m hk).2⟩
    unfold rulesFor at hm
    cases hg : m.get? c with
    | none => rw [hg] at hm; cases hm
    | some rs =>
      rw [hg] at hm
      have a2 := List.all_eq_true.mp (all k m hk).1 _ (get?_mem hg)
      exact List.all_eq_true.mp a2 r hm
  · cases h

/-- The embedded rules load. -/
theorem embedded_rules : ∃ rules, buildRules asciiTables embeddedRegex .embedded 2 defaultLanguages = .ok (.ok rules) ∧
    ∀ k m, rules.get? k = some m → ∀ c, ∀ r ∈ rulesFor m c, okRule r = true := by
  obtain ⟨rules, h1, h2, -⟩ := embedded_rules_lines
  exact ⟨rules, h1, h2⟩

theorem embedded_loaded {U : Unicode} {R : RegexEngine} {depth : Nat} {rules : Rules}
    (h : buildRules asciiTables embeddedRegex .embedded 2 defaultLanguages = .ok (.ok rules))
    (hR : AcceptsEmbedded R) (hd : 2 ≤ depth) :
    ConfigFiles.default U R depth = .ok { langs := defaultLangs, rules } := by
  have := buildRules_transfer U (accepts_embedded hR) hd h
  unfold ConfigFiles.default defaultRules
  rw [this]
  rfl

/-- Every embedded configuration that loads has these rules. -/
theorem embedded_unique {U : Unicode} {R : RegexEngine} {depth : Nat} {rules : Rules} {cfg : ConfigFiles}
    (h : buildRules asciiTables embeddedRegex .embedded 2 defaultLanguages = .ok (.ok rules))
    (hR : AcceptsEmbedded R) (hc : ConfigFiles.default U R depth = .ok cfg) :
    cfg = { langs := defaultLangs, rules } := by
  obtain ⟨h1, h2⟩ := default_spec hc
  have e1 := buildRules_transfer U (accepts_embedded hR) (Nat.le_max_left 2 depth) h
  have e2 := buildRules_le (Nat.le_max_right 2 depth) h2
  rw [e1] at e2
  cases cfg
  simp only [Except.ok.injEq] at e2 h1
  rw [h1, e2]

/-! ## The code depends on the rules only through the expressions that occur in them -/

/-- Two engines agree on a context. -/
def Agree (R R' : RegexEngine) (rules : Char → List Rule) : Prop :=
  ∀ c, ∀ r ∈ rules c, (∀ s, r.leftContext.isMatch R s = r.leftContext.isMatch R' s) ∧
    ∀ s, r.rightContext.isMatch R s = r.rightContext.isMatch R' s

theorem find?_congr' {α : Type} {p q : α → Bool} {l : List α} (h : ∀ x ∈ l, p x = q x) : l.find? p = l.find? q := by
  induction l with
  | nil => rfl
  | cons x l ih =>
    rw [List.find?_cons, List.find?_cons, h x List.mem_cons_self, ih fun y hy => h y (List.mem_cons_of_mem _ hy)]

theorem segments_agree {R R' : RegexEngine} {rules : Char → List Rule} (h : Agree R R' rules) (text : Str) :
    ∀ before skip, segments R rules before skip text = segments R' rules before skip text := by
  induction text with
  | nil => intro before skip; cases skip <;> rfl
  | cons c text ih =>
    intro before skip
    cases skip with
    | succ n => simp only [segments]; exact ih _ _
    | zero =>
      have : (rules c).find? (ruleApplies R before (c :: text)) = (rules c).find? (ruleApplies R' before (c :: text)) := by
        apply find?_congr'
        intro r hr
        unfold ruleApplies
        rw [(h c r hr).1, (h c r hr).2]
      simp only [segments, this, ih]

theorem finalPass_agree {R R' : RegexEngine} {rules : Char → List Rule} (h : Agree R R' rules) (max : Nat)
    (ps : List Phoneme) : finalPass R max rules ps = finalPass R' max rules ps := by
  unfold finalPass
  have : ∀ text, segments R rules [] 0 text = segments R' rules [] 0 text := fun t => segments_agree h t [] 0
  simp only [this]

theorem phonemesOf_agree {R R' : RegexEngine} {rules final1 final2 : RuleMap} (h0 : Agree R R' (rulesFor rules))
    (h1 : Agree R R' (rulesFor final1)) (h2 : Agree R R' (rulesFor final2)) (max : Nat) (ls : LanguageSet)
    (text : Str) : phonemesOf R max rules final1 final2 ls text = phonemesOf R' max rules final1 final2 ls text := by
  unfold phonemesOf
  simp only [segments_agree h0, finalPass_agree h1, finalPass_agree h2]

/-- Two engines agree on all the rules of an encoder. -/
def AgreeOn (R R' : RegexEngine) (e : Engine) : Prop := ∀ k m, e.rules.get? k = some m → Agree R R' (rulesFor m)

theorem textPhonemes_agree {R R' : RegexEngine} {e : Engine} (h : AgreeOn R R' e) (ls : LanguageSet) (text : Str) :
    textPhonemes R e ls text = textPhonemes R' e ls text := by
  have key : ∀ rt l, Agree R R' (rulesFor (rulesOf e rt l)) := by
    intro rt l
    unfold rulesOf
    cases hm : e.rules.get? (e.nameType, rt, l) with
    | none => intro c r hr; exact absurd hr (by simp [rulesFor, Assoc.get?])
    | some m => exact h _ m hm
  exact phonemesOf_agree (key _ _) (key _ _) (key _ _) _ _ _

theorem encodeWith_agree {U : Unicode} {R R' : RegexEngine} {e : Engine} (hw : EngineWF e) (h : AgreeOn R R' e)
    {recur recur' : Str → Res Str} (s : Str) (ls : LanguageSet) (hk : Knows e (languageOf ls))
    (hr : ∀ x, Fixed U x → x.length < (cleaned U s).length → recur x = recur' x) :
    e.encodeWith U R recur s ls = e.encodeWith U R' recur' s ls := by
  obtain ⟨ws, hws⟩ := words_exist U (cleaned U s)
  have hfix := fixed_cleaned U s
  by_cases hp : e.nameType = .generic ∧ ∃ p r, NamePrefix (cleaned U s) p r
  · obtain ⟨hn, p, r, hp⟩ := hp
    rw [encodeWith_prefix U R e recur s ls hw hk hn hp, encodeWith_prefix U R' e recur' s ls hw hk hn hp]
    obtain ⟨h1, h2, h3, h4⟩ := namePrefix_facts hp
    unfold Engine.encodeTwice
    rw [hr _ (hfix.subset h3) h1, hr _ (hfix.subset h4) h2]
  · have hp' : e.nameType = .generic → ∀ p r, ¬ NamePrefix (cleaned U s) p r :=
      fun hn p r h => hp ⟨hn, p, r, h⟩
    by_cases hc : e.concat = true ∨ ws.length = 1
    · rw [encodeWith_text U R e recur s ls hw hk hp' hws hc, encodeWith_text U R' e recur' s ls hw hk hp' hws hc,
        textPhonemes_agree h]
    · have hc1 : e.concat = false := by
        cases hcc : e.concat with
        | true => exact absurd (.inl hcc) hc
        | false => rfl
      have hc2 : ws.length ≠ 1 := fun h => hc (.inr h)
      rw [encodeWith_words U R e recur s ls hw hk hp' hc1 hws hc2,
        encodeWith_words U R' e recur' s ls hw hk hp' hc1 hws hc2]
      have : ∀ ws' : List Str, (∀ w ∈ ws', w ∈ ws) →
          Engine.encodeWords recur ws' = Engine.encodeWords recur' ws' := by
        intro ws'
        induction ws' with
        | nil => intro _; rfl
        | cons w ws' ih =>
          intro hsub
          simp only [Engine.encodeWords]
          have hw' := hsub w List.mem_cons_self
          rw [hr w (hfix.subset (words_subset hws w hw')) (words_shorter hws hc2 w hw'),
            ih fun v hv => hsub v (List.mem_cons_of_mem _ hv)]
      rw [this ws fun w h => h]

theorem encode_agree {U : Unicode} {R R' : RegexEngine} {e : Engine} (hw : EngineWF e) (h : AgreeOn R R' e)
    (hg : ∀ s, e.lang.guessLanguages U R s = e.lang.guessLanguages U R' s) (s : Str) :
    e.encode U R s = e.encode U R' s := by
  induction hn : (U.strLower s).length using Nat.strongRecOn generalizing s with
  | ind n ih =>
    rw [encode_eq, encode_eq U R', hg]
    apply encodeWith_agree hw h s _ (knows_guess hw U R' s)
    intro x hx hl
    exact ih x.length (by rw [cleaned_length] at hl; omega) x (by rw [strLower_fixed hx])

/-! ## The characters of the code -/

/-- The characters between the codes of phonemes. -/
def Joint (Q : Char → Prop) (x : Char) : Prop := Q x ∨ x ∈ c!"|()-"

theorem bars_all {Q : Char → Prop} {ts : List Str} (h : ∀ t ∈ ts, ∀ x ∈ t, Q x) : ∀ x ∈ bars ts, Joint Q x := by
  induction ts with
  | nil => intro x hx; cases hx
  | cons t ts ih =>
    have ht := h t List.mem_cons_self
    have := ih fun u hu => h u (List.mem_cons_of_mem _ hu)
    cases ts with
    | nil => intro x hx; exact .inl (ht x hx)
    | cons u ts =>
      intro x hx
      simp only [bars, List.mem_append, List.mem_cons] at hx
      rcases hx with hx | rfl | hx
      · exact .inl (ht x hx)
      · exact .inr (by decide)
      · exact this x hx

theorem separated_all {P : Char → Prop} {sep : Str} {ts : List Str} (hs : ∀ x ∈ sep, P x)
    (h : ∀ t ∈ ts, ∀ x ∈ t, P x) : ∀ x ∈ separated sep ts, P x := by
  induction ts with
  | nil => intro x hx; cases hx
  | cons t ts ih =>
    have ht := h t List.mem_cons_self
    have := ih fun u hu => h u (List.mem_cons_of_mem _ hu)
    cases ts with
    | nil => intro x hx; exact ht x hx
    | cons u ts =>
      intro x hx
      simp only [separated, List.mem_append] at hx
      rcases hx with (hx | hx) | hx
      · exact ht x hx
      · exact hs x hx
      · exact this x hx

theorem encodeWith_all {U : Unicode} {R : RegexEngine} {e : Engine} {Q : Char → Prop} (hw : EngineWF e)
    (h : ∀ k m, e.rules.get? k = some m → ∀ c, ∀ r ∈ rulesFor m c, ∀ p ∈ r.phoneme, ∀ x ∈ p.text, Q x)
    {recur : Str → Res Str} (s : Str) (ls : LanguageSet) (hk : Knows e (languageOf ls))
    (hr : ∀ x, Fixed U x → x.length < (cleaned U s).length → ∃ code, recur x = .ok code ∧ ∀ y ∈ code, Joint Q y) :
    ∃ code, e.encodeWith U R recur s ls = .ok code ∧ ∀ y ∈ code, Joint Q y := by
  obtain ⟨ws, hws⟩ := words_exist U (cleaned U s)
  have hfix := fixed_cleaned U s
  by_cases hp : e.nameType = .generic ∧ ∃ p r, NamePrefix (cleaned U s) p r
  · obtain ⟨hn, p, r, hp⟩ := hp
    rw [encodeWith_prefix U R e recur s ls hw hk hn hp]
    obtain ⟨h1, h2, h3, h4⟩ := namePrefix_facts hp
    obtain ⟨a, ha, ha'⟩ := hr _ (hfix.subset h3) h1
    obtain ⟨b, hb, hb'⟩ := hr _ (hfix.subset h4) h2
    refine ⟨_, by unfold Engine.encodeTwice; rw [ha, hb]; rfl, ?_⟩
    intro y hy
    simp only [List.mem_append, List.mem_cons, List.not_mem_nil, or_false] at hy
    rcases hy with (((hy | hy) | hy) | hy) | hy
    · exact .inr (by subst hy; decide)
    · first | exact ha' y hy | exact hb' y hy
    · exact .inr (by rcases hy with rfl | rfl | rfl <;> decide)
    · first | exact hb' y hy | exact ha' y hy
    · exact .inr (by subst hy; decide)
  · have hp' : e.nameType = .generic → ∀ p r, ¬ NamePrefix (cleaned U s) p r :=
      fun hn p r h => hp ⟨hn, p, r, h⟩
    by_cases hc : e.concat = true ∨ ws.length = 1
    · refine ⟨_, encodeWith_text U R e recur s ls hw hk hp' hws hc, bars_all ?_⟩
      have key : ∀ rt l, ∀ c, ∀ r ∈ rulesFor (rulesOf e rt l) c, ∀ p ∈ r.phoneme, ∀ x ∈ p.text, Q x := by
        intro rt l c r hr p hp x hx
        unfold rulesOf at hr
        cases hm : e.rules.get? (e.nameType, rt, l) with
        | none => rw [hm] at hr; exact absurd hr (by simp [rulesFor, Assoc.get?])
        | some m =>
          rw [hm] at hr
          exact h _ m hm c r hr p hp x hx
      apply phonemesOf_all
      rintro m (rfl | rfl | rfl)
      · exact key _ _
      · exact key _ _
      · exact key _ _
    · have hc1 : e.concat = false := by
        cases hcc : e.concat with
        | true => exact absurd (.inl hcc) hc
        | false => rfl
      have hc2 : ws.length ≠ 1 := fun h => hc (.inr h)
      rw [encodeWith_words U R e recur s ls hw hk hp' hc1 hws hc2]
      have hrw : ∀ w ∈ ws, ∃ code, recur w = .ok code ∧ ∀ y ∈ code, Joint Q y := fun w hw' =>
        hr w (hfix.subset (words_subset hws w hw')) (words_shorter hws hc2 w hw')
      obtain ⟨codes, h1, h2⟩ := encodeWords_ok (recur := recur) (ws := ws) fun w hw' =>
        (let ⟨c, hc, _⟩ := hrw w hw'; ⟨c, hc⟩)
      refine ⟨_, by rw [h1]; rfl, separated_all (fun x hx => .inr ?_) ?_⟩
      · rw [List.mem_singleton.mp hx]; decide
      · intro t ht x hx
        have : Except.ok t ∈ ws.map recur := by rw [h2]; exact List.mem_map_of_mem ht
        obtain ⟨w, hw', he⟩ := List.mem_map.mp this
        obtain ⟨c, hc, hc'⟩ := hrw w hw'
        rw [hc] at he
        simp only [Except.ok.injEq] at he
        exact hc' x (by rw [he]; exact hx)

theorem encode_all {U : Unicode} {R : RegexEngine} {e : Engine} {Q : Char → Prop} (hw : EngineWF e)
    (h : ∀ k m, e.rules.get? k = some m → ∀ c, ∀ r ∈ rulesFor m c, ∀ p ∈ r.phoneme, ∀ x ∈ p.text, Q x) (s : Str) :
    ∃ code, e.encode U R s = .ok code ∧ ∀ y ∈ code, Joint Q y := by
  induction hn : (U.strLower s).length using Nat.strongRecOn generalizing s with
  | ind n ih =>
    rw [encode_eq]
    apply encodeWith_all hw h s _ (knows_guess hw U R s)
    intro x hx hl
    exact ih x.length (by rw [cleaned_length] at hl; omega) x (by rw [strLower_fixed hx])

end Verif.BMProofs
