import Verif.Props.BMEmbedded
import Verif.Props.DaitchMokotoff
/-!
# Histories of builder calls (C96)
-/

namespace Verif.Props
open Spec

/-! ## Beider-Morse -/

/-- A call of a setter of `BeiderMorseBuilder`. -/
inductive BMCall where
  | nameType (x : BM.NameType)
  | ruleType (x : BM.RuleType)
  | concat (x : Bool)
  | maxPhonemes (x : Nat)

/-- The builder after a call. -/
def BMCall.run (b : BM.Builder) : BMCall → BM.Builder
  | .nameType x => b.withNameType x
  | .ruleType x => b.withRuleType x
  | .concat x => b.withConcat x
  | .maxPhonemes x => b.withMaxPhonemes x

/-- The value of the last call that `f` selects, or a default value. -/
def lastCall {κ α : Type} (f : κ → Option α) (default : α) (calls : List κ) : α := (calls.filterMap f).getLast?.getD default

/-- The arguments of the calls of each setter. -/
def BMCall.name? : BMCall → Option BM.NameType
  | .nameType x => some x
  | _ => none
def BMCall.rule? : BMCall → Option BM.RuleType
  | .ruleType x => some x
  | _ => none
def BMCall.concat? : BMCall → Option Bool
  | .concat x => some x
  | _ => none
def BMCall.max? : BMCall → Option Nat
  | .maxPhonemes x => some x
  | _ => none

theorem lastCall_snoc {κ α : Type} (f : κ → Option α) (d : α) (calls : List κ) (c : κ) :
    lastCall f d (calls ++ [c]) = (f c).getD (lastCall f d calls) := by
  unfold lastCall
  rw [List.filterMap_append]
  cases h : f c <;> simp [h]

theorem calls_run (cfg : BM.ConfigFiles) (calls : List BMCall) :
    calls.foldl BMCall.run (BM.Builder.new cfg) =
      { configFiles := cfg
        nameType := lastCall BMCall.name? .generic calls
        ruleType := lastCall BMCall.rule? .approx calls
        concat := lastCall BMCall.concat? true calls
        maxPhonemes := lastCall BMCall.max? 20 calls } := by
  obtain ⟨l, rfl⟩ : ∃ l : List BMCall, calls = l.reverse := ⟨calls.reverse, by simp⟩
  induction l with
  | nil => rfl
  | cons c l ih =>
    rw [List.reverse_cons, List.foldl_append, ih]
    simp only [lastCall_snoc]
    cases c <;> rfl

/-- C96: after any sequence of calls of the setters, on the rules of a directory that was loaded or on the embedded rules, `build`
returns an encoder with, for each setting, the value of the last call, and the default (generic names, approximate rules,
concatenation, 20 phonemes) without a call. -/
theorem bm_builder_calls (U : Unicode) (R : BM.RegexEngine) (depth : Nat) (cfg : BM.ConfigFiles)
    (h : (∃ dir, BM.ConfigFiles.new U R depth dir = .ok (.ok cfg)) ∨ BM.ConfigFiles.default U R depth = .ok cfg)
    (calls : List BMCall) :
    ∃ e, (calls.foldl BMCall.run (BM.Builder.new cfg)).build = .ok e ∧
      e.nameType = lastCall BMCall.name? .generic calls ∧
      e.ruleType = BM.PrivateRuleType.ofRuleType (lastCall BMCall.rule? .approx calls) ∧
      e.concat = lastCall BMCall.concat? true calls ∧
      e.maxPhonemes = lastCall BMCall.max? 20 calls := by
  rw [calls_run]
  rcases h with ⟨dir, h⟩ | h
  · exact bm_build_returns U R depth dir cfg h _ _ _ _
  · obtain ⟨e, h1, -, h2⟩ := bm_embedded_build U R depth cfg h (lastCall BMCall.name? .generic calls)
      (lastCall BMCall.rule? .approx calls) (lastCall BMCall.concat? true calls) (lastCall BMCall.max? 20 calls)
    exact ⟨e, h1, h2⟩

/-- C96: so two sequences of calls whose last calls of each setter agree (for example, in another order) build the same
encoder. -/
theorem bm_builder_history (cfg : BM.ConfigFiles) (calls calls' : List BMCall)
    (hn : lastCall BMCall.name? .generic calls = lastCall BMCall.name? .generic calls')
    (hr : lastCall BMCall.rule? .approx calls = lastCall BMCall.rule? .approx calls')
    (hc : lastCall BMCall.concat? true calls = lastCall BMCall.concat? true calls')
    (hm : lastCall BMCall.max? 20 calls = lastCall BMCall.max? 20 calls') :
    (calls.foldl BMCall.run (BM.Builder.new cfg)).build = (calls'.foldl BMCall.run (BM.Builder.new cfg)).build := by
  rw [calls_run, calls_run, hn, hr, hc, hm]

/-- Two histories with the same last calls. -/
example : lastCall BMCall.max? 20 [.maxPhonemes 3, .concat false, .maxPhonemes 7] =
      lastCall BMCall.max? 20 [.maxPhonemes 7, .concat false] ∧
    lastCall BMCall.concat? true [.maxPhonemes 3, .concat false, .maxPhonemes 7] = false ∧
    lastCall BMCall.name? .generic [.maxPhonemes 3, .concat false] = .generic := by decide

/-! ## Daitch-Mokotoff -/

/-- C96: the encoder built from rules after any calls of `ascii_folding` is that after the last one alone; folding is on
without a call. -/
theorem dm_builder_history (rules : Str) (calls : List Bool) :
    (calls.foldl DaitchMokotoff.Builder.setAsciiFolding (DaitchMokotoff.Builder.withRules rules)).build =
      ((DaitchMokotoff.Builder.withRules rules).setAsciiFolding (calls.getLast?.getD true)).build ∧
    (DaitchMokotoff.Builder.withRules rules).build =
      ((DaitchMokotoff.Builder.withRules rules).setAsciiFolding true).build := by
  refine ⟨?_, rfl⟩
  congr 1
  obtain ⟨l, rfl⟩ : ∃ l : List Bool, calls = l.reverse := ⟨calls.reverse, by simp⟩
  cases l with
  | nil => rfl
  | cons c l =>
    rw [List.reverse_cons, List.foldl_append]
    have : ∀ l : List Bool, (l.foldl DaitchMokotoff.Builder.setAsciiFolding (DaitchMokotoff.Builder.withRules rules)).rules =
        rules := by
      intro l
      have : ∀ b : DaitchMokotoff.Builder, (l.foldl DaitchMokotoff.Builder.setAsciiFolding b).rules = b.rules := by
        induction l with
        | nil => intro b; rfl
        | cons x l ih => intro b; rw [List.foldl_cons, ih]; rfl
      rw [this]; rfl
    have h := this l.reverse
    simp only [List.foldl_cons, List.foldl_nil, DaitchMokotoff.Builder.setAsciiFolding, List.getLast?_append,
      List.getLast?_singleton, Option.some_or, Option.getD_some] at h ⊢
    rw [h]; rfl

/-- C96: folding makes a difference: the last call counts. -/
theorem dm_builder_history_example : ∃ d d',
    (([true, false].foldl DaitchMokotoff.Builder.setAsciiFolding
      (DaitchMokotoff.Builder.withRules c!"\"s\" \"4\" \"4\" \"4\"\nß=s")).build = .ok (.ok d)) ∧
    (([false, true].foldl DaitchMokotoff.Builder.setAsciiFolding
      (DaitchMokotoff.Builder.withRules c!"\"s\" \"4\" \"4\" \"4\"\nß=s")).build = .ok (.ok d')) ∧
    d.encode .latin1 c!"ß" = .ok c!"000000" ∧ d'.encode .latin1 c!"ß" = .ok c!"400000" :=
  ⟨⟨false, [('s', [⟨c!"s", [c!"4"], [c!"4"], [c!"4"]⟩])], [('ß', 's')]⟩,
    ⟨true, [('s', [⟨c!"s", [c!"4"], [c!"4"], [c!"4"]⟩])], [('ß', 's')]⟩,
    by decide +kernel, by decide +kernel, by decide +kernel, by decide +kernel⟩

end Verif.Props
