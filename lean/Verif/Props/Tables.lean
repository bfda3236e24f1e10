import Verif.Props.Letters
import Verif.Props.BMText
import Verif.Props.Caverphone
import Verif.Proofs.BMTransfer
import Verif.Proofs.DoubleMetaphone
/-!
# ASCII texts do not depend on the Unicode tables (C88)
-/

set_option linter.unusedSimpArgs false

namespace Verif.Props.TableProofs
open Spec BM

variable (U V : Unicode)

theorem ws_eq {s : Str} (h : AsciiStr s) : ∀ c ∈ s, U.isWhitespace c = V.isWhitespace c := fun c hc => by
  rw [U.isWhitespace_ascii c (h c hc), V.isWhitespace_ascii c (h c hc)]

theorem dropWhile_congr {α : Type _} {p q : α → Bool} {s : List α} (h : ∀ c ∈ s, p c = q c) :
    s.dropWhile p = s.dropWhile q := by
  induction s with
  | nil => rfl
  | cons c s ih =>
    rw [List.dropWhile_cons, List.dropWhile_cons, h c List.mem_cons_self,
      ih fun x hx => h x (List.mem_cons_of_mem _ hx)]

theorem trim_eq {s : Str} (h : AsciiStr s) : U.trim s = V.trim s := by
  unfold Unicode.trim
  rw [dropWhile_congr (ws_eq U V h)]
  congr 1
  refine dropWhile_congr (ws_eq U V fun c hc => ?_)
  exact h c ((List.dropWhile_sublist _).mem (List.mem_reverse.mp hc))

theorem upper_eq {s : Str} (h : AsciiStr s) : U.strUpper s = V.strUpper s := by
  rw [strUpper_ascii U h, strUpper_ascii V h]

theorem lower_eq {s : Str} (h : AsciiStr s) : U.strLower s = V.strLower s := by
  rw [strLower_ascii U h, strLower_ascii V h]

theorem clean_eq {s : Str} (h : AsciiStr s) : soundexClean U s = soundexClean V s := by
  unfold soundexClean
  rw [List.filter_congr (q := V.isAlphabetic) fun c hc => by
    rw [U.isAlphabetic_ascii c (h c hc), V.isAlphabetic_ascii c (h c hc)]]
  exact upper_eq U V fun c hc => h c (List.mem_filter.mp hc).1

theorem nonLetter_eq {s : Str} (h : AsciiStr s) : removeAllNonLetter U s = removeAllNonLetter V s :=
  List.filter_congr fun c hc => by rw [U.isLowercase_ascii c (h c hc), V.isLowercase_ascii c (h c hc)]

theorem dmClean_eq (d : DaitchMokotoff) {s : Str} (h : AsciiStr s) :
    DaitchMokotoff.clean U d s = DaitchMokotoff.clean V d s := by
  unfold DaitchMokotoff.clean
  rw [List.filter_congr (q := fun c => !V.isWhitespace c) fun c hc => by rw [ws_eq U V h c hc]]
  apply List.map_congr_left
  intro c hc
  have hc := h c (List.mem_filter.mp hc).1
  unfold DaitchMokotoff.fold
  rw [U.toLower_ascii c hc, V.toLower_ascii c hc]

theorem mraName_eq {s : Str} (h : AsciiStr s) : MatchRating.cleanName U s = MatchRating.cleanName V s := by
  unfold MatchRating.cleanName
  rw [upper_eq U V h]
  congr 1
  exact List.filter_congr fun c hc => by
    rw [ws_eq U V (asciiStr_strUpper V h) c (List.mem_filter.mp hc).1]

theorem splitWs_eq {s : Str} (h : AsciiStr s) (w : Str) : splitWhitespaceAux U w s = splitWhitespaceAux V w s := by
  induction s generalizing w with
  | nil => rfl
  | cons c s ih =>
    simp only [splitWhitespaceAux]
    rw [ws_eq U V h c List.mem_cons_self, ih (asciiStr_cons.mp h).2, ih (asciiStr_cons.mp h).2]

theorem encodeRest_eq (R : RegexEngine) (e : Engine) {f g : Str → Res Str} (hfg : ∀ x, AsciiStr x → f x = g x)
    (ls : LanguageSet) (rules final1 final2 : RuleMap) {name : Str} (h : AsciiStr name) :
    BMProofs.encodeRest U R e f ls rules final1 final2 name = BMProofs.encodeRest V R e g ls rules final1 final2 name := by
  have hw : splitWhitespace U name = splitWhitespace V name := splitWs_eq U V h []
  unfold BMProofs.encodeRest
  cases hp : (if e.nameType = .generic then BMProofs.foundPrefix name else none) with
  | some x =>
    obtain ⟨p, r⟩ := x
    have hp' : BMProofs.foundPrefix name = some (p, r) := by
      split at hp
      · exact hp
      · cases hp
    obtain ⟨_, _, h3, h4⟩ := BMProofs.namePrefix_facts (BMProofs.foundPrefix_some.mp hp')
    exact BMProofs.encodeTwice_congr (hfg _ fun c hc => h c (h3 hc)) (hfg _ fun c hc => h c (h4 hc))
  | none =>
    simp only
    rw [hw]
    cases e.textOf (splitWhitespace V name) with
    | some t => rfl
    | none =>
      simp only
      rw [BMProofs.encodeWords_congr (f := f) (g := g)]
      intro w hx
      exact hfg w fun c hc => h c (BMProofs.words_subset (BMProofs.words_split V name) w hx hc)

theorem cleaned_ascii {s : Str} (h : AsciiStr s) : AsciiStr (cleaned U s) := by
  intro c hc
  unfold cleaned at hc
  obtain ⟨d, hd, rfl⟩ := List.mem_map.mp hc
  split
  · rfl
  · exact asciiStr_strLower U h d hd

theorem encodeWith_eq (R : RegexEngine) (e : Engine) {f g : Str → Res Str} (hfg : ∀ x, AsciiStr x → f x = g x)
    (ls : LanguageSet) {s : Str} (h : AsciiStr s) : e.encodeWith U R f s ls = e.encodeWith V R g s ls := by
  rw [BMProofs.encodeWith_rest, BMProofs.encodeWith_rest]
  congr 1
  funext l
  cases e.rules.get? (e.nameType, .rules, l) with
  | none => rfl
  | some rules =>
    cases e.rules.get? (e.nameType, e.ruleType, c!"common") with
    | none => rfl
    | some final1 =>
      cases e.rules.get? (e.nameType, e.ruleType, l) with
      | none => rfl
      | some final2 =>
        simp only
        have hc : cleaned U s = cleaned V s := by unfold cleaned; rw [lower_eq U V h]
        rw [hc]
        exact encodeRest_eq U V R e hfg ls rules final1 final2 (cleaned_ascii V h)

theorem guess_eq (R : RegexEngine) (l : Lang) {s : Str} (h : AsciiStr s) :
    l.guessLanguages U R s = l.guessLanguages V R s := by
  unfold Lang.guessLanguages
  rw [lower_eq U V h]

theorem encodeFuel_eq (R : RegexEngine) (e : Engine) (n : Nat) {s : Str} (h : AsciiStr s) :
    e.encodeFuel U R n s = e.encodeFuel V R n s := by
  induction n generalizing s with
  | zero => rfl
  | succ n ih =>
    simp only [Engine.encodeFuel]
    rw [guess_eq U V R e.lang h]
    exact encodeWith_eq U V R e (fun x hx => ih hx) _ h

end Verif.Props.TableProofs

namespace Verif.Props
open Spec BM TableProofs

/-- C88: the codes of ASCII text do not depend on the Unicode tables: single codes. -/
theorem ascii_tables (U V : Unicode) (s : Str) (h : AsciiStr s) :
    (∀ x : Soundex, x.encode U s = x.encode V s) ∧
    (∀ x : RefinedSoundex, x.encode U s = x.encode V s) ∧
    Cologne.encode U s = Cologne.encode V s ∧
    Caverphone1.encode U s = Caverphone1.encode V s ∧ Caverphone2.encode U s = Caverphone2.encode V s ∧
    (∀ x : Nysiis, x.encode U s = x.encode V s) ∧
    MatchRating.encode U s = MatchRating.encode V s ∧
    (∀ x : Metaphone, x.encode U s = x.encode V s) ∧
    (∀ x : DoubleMetaphone, x.doubleMetaphone U s = x.doubleMetaphone V s) ∧
    (∀ x : Phonex, x.encode U s = x.encode V s) ∧
    (∀ (x : DaitchMokotoff) (branching : Bool), x.innerSoundex U s branching = x.innerSoundex V s branching) := by
  have hc := clean_eq U V h
  have hn : removeAllNonLetter U (U.strLower s) = removeAllNonLetter V (V.strLower s) := by
    rw [lower_eq U V h]; exact nonLetter_eq U V (asciiStr_strLower V h)
  refine ⟨fun x => ?_, fun x => ?_, ?_, ?_, ?_, fun x => ?_, ?_, fun x => ?_, fun x => ?_, fun x => ?_, fun x b => ?_⟩
  · unfold Soundex.encode; rw [hc]
  · unfold RefinedSoundex.encode; rw [hc]
  · unfold Cologne.encode Cologne.prepare; rw [upper_eq U V h]
  · unfold Caverphone1.encode Caverphone1.body; rw [hn]
  · unfold Caverphone2.encode Caverphone2.body; rw [hn]
  · unfold Nysiis.encode; rw [hc]
  · unfold MatchRating.encode
    rw [trim_eq U V h, MraProofs.reduced_eq, MraProofs.reduced_eq]
    have e : mraClean U s = mraClean V s := by
      rw [← MraProofs.cleanName_eq, ← MraProofs.cleanName_eq]; exact mraName_eq U V h
    unfold mraReduced
    rw [e, upper_eq U V ((MraProofs.clean_ascii V h).subset (MraProofs.skeleton_subset _))]
  · unfold Metaphone.encode; rw [upper_eq U V h]
  · unfold DoubleMetaphone.doubleMetaphone
    rw [trim_eq U V h]
    dsimp only
    rw [upper_eq U V (DMProofs.ascii_trim V h)]
  · unfold Phonex.encode Phonex.preprocess; rw [hc]
  · unfold DaitchMokotoff.innerSoundex; rw [dmClean_eq U V x h]

/-- C88: the same for the comparison of the match rating approach. -/
theorem ascii_tables_mra (U V : Unicode) (s t : Str) (hs : AsciiStr s) (ht : AsciiStr t) :
    MatchRating.isEncodedEquals U s t = MatchRating.isEncodedEquals V s t := by
  unfold MatchRating.isEncodedEquals
  rw [trim_eq U V hs, trim_eq U V ht, (ascii_tables U V s hs).2.2.2.2.2.2.1, (ascii_tables U V t ht).2.2.2.2.2.2.1]

/-- C88: the same for Beider-Morse, whatever the configuration. -/
theorem ascii_tables_bm (U V : Unicode) (R : RegexEngine) (e : Engine) (s : Str) (h : AsciiStr s) :
    e.encode U R s = e.encode V R s ∧ ∀ ls, e.encodeWithLanguages U R s ls = e.encodeWithLanguages V R s ls := by
  unfold Engine.encode Engine.encodeWithLanguages
  rw [lower_eq U V h]
  exact ⟨encodeFuel_eq U V R e _ h, fun ls => encodeWith_eq U V R e (fun x hx => encodeFuel_eq U V R e _ hx) ls h⟩

/-! Beside C88: the two tables differ, and texts outside ASCII do depend on them. -/

example : AsciiStr c!"O'Hara-Smith 3rd" := by decide
example : (Nysiis.new true).encode .latin1 c!"öl" ≠ (Nysiis.new true).encode BMProofs.asciiTables c!"öl" := by
  decide +kernel
end Verif.Props
