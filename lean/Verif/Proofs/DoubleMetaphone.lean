import Verif.Proofs.Str
import Verif.Spec.Common
import Verif.Proofs.Res
import Verif.Model.DoubleMetaphone
/-!
# Lemmas about the Double Metaphone model
-/

set_option linter.unusedSimpArgs false
set_option linter.unusedSectionVars false

namespace Verif
namespace DMProofs
open DoubleMetaphone

/-- The consonant codes. -/
def plain (c : Char) : Bool := c!"PSKTFJHLMNRX0".contains c

/-- The characters that a call may append, given whether the position is the first and the last. -/
def CallOk (first last : Prop) : DMAppend → Prop
  | .char c alt => (plain c = true ∨ (c = 'A' ∧ first)) ∧
      (plain (alt.getD c) = true ∨ (alt.getD c = 'A' ∧ first) ∨ (alt.getD c = ' ' ∧ last))
  | .charPrimary c => plain c = true
  | .charAlternate c => plain c = true
  | .str v alt => v.all plain = true ∧ (alt.getD v).all plain = true

/-- At most one call, with allowed characters. -/
def CallsOk (value : Str) (index : Int) (r : List DMAppend × Nat) : Prop :=
  r.1 = [] ∨ ∃ call, r.1 = [call] ∧ CallOk (index = 0) (index.toNat + 1 = byteLen value) call

section
variable (value : Str) (index : Int)

theorem callsOk_nil (k : Nat) : CallsOk value index ([], k) := .inl rfl

theorem callsOk_one (call : DMAppend) (k : Nat) (h : CallOk False False call) :
    CallsOk value index ([call], k) := by
  refine .inr ⟨call, rfl, ?_⟩
  cases call <;> simp_all [CallOk]

theorem callsOk_char (a : Char) (k : Nat) (h : plain a = true) :
    CallsOk value index ([.char a none], k) := callsOk_one value index _ k ⟨.inl h, .inl h⟩

theorem callsOk_char2 (a b : Char) (k : Nat) (h : plain a = true) (h' : plain b = true) :
    CallsOk value index ([.char a (some b)], k) := callsOk_one value index _ k ⟨.inl h, .inl h'⟩

theorem callsOk_str (a : Str) (k : Nat) (h : a.all plain = true) :
    CallsOk value index ([.str a none], k) := callsOk_one value index _ k ⟨h, h⟩

theorem callsOk_str2 (a b : Str) (k : Nat) (h : a.all plain = true) (h' : b.all plain = true) :
    CallsOk value index ([.str a (some b)], k) := callsOk_one value index _ k ⟨h, h'⟩

theorem callsOk_primary (a : Char) (k : Nat) (h : plain a = true) :
    CallsOk value index ([.charPrimary a], k) := callsOk_one value index _ k h

theorem callsOk_alternate (a : Char) (k : Nat) (h : plain a = true) :
    CallsOk value index ([.charAlternate a], k) := callsOk_one value index _ k h

end

/-- Proves that a handler only makes allowed calls, branch by branch. -/
macro "dm_calls" : tactic => `(tactic| repeat' first
  | exact returns_ok (callsOk_nil _ _ _)
  | exact returns_ok (callsOk_char _ _ _ _ rfl)
  | exact returns_ok (callsOk_char2 _ _ _ _ _ rfl rfl)
  | exact returns_ok (callsOk_str _ _ _ _ rfl)
  | exact returns_ok (callsOk_str2 _ _ _ _ _ rfl rfl)
  | exact returns_ok (callsOk_primary _ _ _ _ rfl)
  | exact returns_ok (callsOk_alternate _ _ _ _ rfl)
  | assumption
  | refine ite_ind (Returns (CallsOk _ _)) (fun _ => ?_) (fun _ => ?_)
  | refine returns_bind fun _ => ?_)

theorem handleCh_ok (value : Str) (index : Int) :
    Returns (CallsOk value index) (handleCh value index) := by
  unfold handleCh
  dm_calls

theorem handleCc_ok (value : Str) (index : Int) :
    Returns (CallsOk value index) (handleCc value index) := by
  unfold handleCc
  dm_calls

theorem handleC_ok (value : Str) (index : Int) :
    Returns (CallsOk value index) (handleC value index) := by
  have hCh := handleCh_ok value index
  have hCc := handleCc_ok value index
  unfold handleC
  dm_calls

theorem handleD_ok (value : Str) (index : Int) :
    Returns (CallsOk value index) (handleD value index) := by
  unfold handleD
  dm_calls

theorem handleGh_ok (value : Str) (index : Int) :
    Returns (CallsOk value index) (handleGh value index) := by
  unfold handleGh
  dm_calls

theorem handleG_ok (value : Str) (index : Int) (sg : Bool) :
    Returns (CallsOk value index) (handleG value index sg) := by
  have hGh := handleGh_ok value index
  unfold handleG
  dm_calls

theorem handleH_ok (value : Str) (index : Int) :
    Returns (CallsOk value index) (handleH value index) := by
  unfold handleH
  dm_calls

theorem handleL_ok (value : Str) (index : Int) :
    Returns (CallsOk value index) (handleL value index) := by
  unfold handleL
  dm_calls

theorem handleP_ok (value : Str) (index : Int) :
    Returns (CallsOk value index) (handleP value index) := by
  unfold handleP
  dm_calls

/-- The calls are allowed, whatever is skipped. -/
def CallsOk' (value : Str) (index : Int) (calls : List DMAppend) : Prop :=
  ∀ k, CallsOk value index (calls, k)

/-- Like `dm_calls`, for the definitions that return calls only. -/
macro "dm_calls'" : tactic => `(tactic| repeat' first
  | exact returns_ok (fun _ => callsOk_nil _ _ _)
  | exact returns_ok (fun _ => callsOk_char _ _ _ _ rfl)
  | exact returns_ok (fun _ => callsOk_char2 _ _ _ _ _ rfl rfl)
  | exact returns_ok (fun _ => callsOk_str _ _ _ _ rfl)
  | exact returns_ok (fun _ => callsOk_str2 _ _ _ _ _ rfl rfl)
  | exact returns_ok (fun _ => callsOk_primary _ _ _ _ rfl)
  | exact returns_ok (fun _ => callsOk_alternate _ _ _ _ rfl)
  | refine ite_ind (Returns (CallsOk' _ _)) (fun _ => ?_) (fun _ => ?_)
  | refine returns_bind fun _ => ?_)

/-- `let calls ← m; if ← cond then return (calls, 1) else return (calls, 0)` -/
theorem tail_ok {value : Str} {index : Int} {m : Res (List DMAppend)} {cond : Res Bool}
    (h : Returns (CallsOk' value index) m) :
    Returns (CallsOk value index)
      (do let calls ← m; if ← cond then return (calls, 1) else return (calls, 0)) := by
  refine returns_bind' h fun calls hc => returns_bind fun b => ?_
  exact ite_ind (Returns _) (fun _ => returns_ok (hc _)) (fun _ => returns_ok (hc _))

theorem handleR_ok (value : Str) (index : Int) (sg : Bool) :
    Returns (CallsOk value index) (handleR value index sg) := by
  refine tail_ok ?_
  unfold handleR'
  dm_calls'

theorem returns_andR {P Q : Bool → Prop} {a b : Res Bool} (ha : Returns P a) (hb : Returns Q b) :
    Returns (fun r => r = true → P true ∧ Q true) (a &? b) := by
  refine returns_bind' ha fun x hx => ite_ind (Returns _) (fun h => ?_) (fun h => returns_ok nofun)
  subst h
  exact fun y hy h => ⟨hx, h ▸ hb y hy⟩

theorem returns_okR (p : Prop) [Decidable p] : Returns (fun r => r = true → p) (okR p) :=
  returns_ok (by simp)

theorem returns_true {α : Type} (m : Res α) : Returns (fun _ => True) m := fun _ _ => trivial

theorem handleJ_ok (value : Str) (index : Int) (sg : Bool) (hne : 0 < byteLen value) :
    Returns (CallsOk value index) (handleJ value index sg) := by
  have h : Returns (CallsOk' value index) (handleJ' value index sg) := by
    unfold handleJ'
    refine returns_bind' (returns_andR (returns_okR _) (returns_true _)) fun b hb =>
      ite_ind (Returns _) (fun h => ?_) (fun h => ?_)
    · refine returns_ok fun k => .inr ⟨_, rfl, .inl rfl, .inr (.inl ⟨rfl, (hb h).1 rfl⟩)⟩
    · refine returns_bind fun b => ite_ind (Returns _) (fun h => ?_) (fun h => ?_)
      · dm_calls'
      · refine returns_bind' (Q := fun n => n + 1 = byteLen value) ?_ fun n hn => 
          ite_ind (Returns _) (fun h => ?_) (fun h => ?_)
        · intro n hn
          unfold usub at hn
          split at hn
          · cases hn; omega
          · cases hn
        · refine returns_ok fun k => .inr ⟨_, rfl, .inl rfl, .inr (.inr ⟨rfl, ?_⟩)⟩
          omega
        · dm_calls'
  unfold handleJ
  refine returns_bind fun b => ite_ind (Returns _) (fun _ => ?_) (fun _ => tail_ok h)
  dm_calls

theorem handleW_ok (value : Str) (index : Int) :
    Returns (CallsOk value index) (handleW value index) := by
  unfold handleW
  refine returns_bind fun b => ite_ind (Returns _) (fun _ => by dm_calls) (fun _ => ?_)
  refine returns_bind' (returns_andR (returns_okR _) (returns_true _)) fun b hb =>
      ite_ind (Returns _) (fun h => ?_) (fun h => by dm_calls)
  have h0 := (hb h).1 rfl
  refine returns_bind fun b => ite_ind (Returns _) (fun h => ?_) (fun h => ?_)
  · exact returns_ok (.inr ⟨_, rfl, .inr ⟨rfl, h0⟩, .inl rfl⟩)
  · exact returns_ok (.inr ⟨_, rfl, .inr ⟨rfl, h0⟩, .inr (.inl ⟨rfl, h0⟩)⟩)

theorem handleSc_ok (value : Str) (index : Int) :
    Returns (CallsOk value index) (handleSc value index) := by
  unfold handleSc
  dm_calls

theorem handleS_ok (value : Str) (index : Int) (sg : Bool) :
    Returns (CallsOk value index) (handleS value index sg) := by
  have hSc := handleSc_ok value index
  have ht : Returns (CallsOk value index) (do
      let calls ← handleS' value index
      if ← contains value (index + 1) 1 [c!"S", c!"Z"] then return (calls, 1)
      else return (calls, 0)) := tail_ok (by unfold handleS'; dm_calls')
  unfold handleS
  dm_calls

theorem handleT_ok (value : Str) (index : Int) :
    Returns (CallsOk value index) (handleT value index) := by
  unfold handleT
  dm_calls

theorem handleX_ok (value : Str) (index : Int) :
    Returns (CallsOk value index) (handleX value index) := by
  unfold handleX
  refine ite_ind (Returns _) (fun _ => by dm_calls) (fun _ => tail_ok ?_)
  unfold handleX'; dm_calls'

theorem handleZ_ok (value : Str) (index : Int) (sg : Bool) :
    Returns (CallsOk value index) (handleZ value index sg) := by
  unfold handleZ
  refine returns_bind fun _ => ite_ind (Returns _) (fun _ => by dm_calls) (fun _ => tail_ok ?_)
  unfold handleZ'; dm_calls'

theorem simple_ok (value : Str) (index : Int) (ch code : Char) (h : plain code = true) :
    Returns (CallsOk value index) (simple value index ch code) := by
  unfold simple
  refine returns_bind fun _ => ite_ind (Returns _) (fun _ => ?_) (fun _ => ?_) <;>
    exact returns_ok (callsOk_char _ _ _ _ h)

theorem handle_ok (value : Str) (index : Int) (sg : Bool) (ch : Char) (hne : 0 < byteLen value) :
    Returns (CallsOk value index) (handle value sg index ch) := by
  unfold handle
  split
  any_goals exact simple_ok _ _ _ _ rfl
  any_goals exact returns_ok (callsOk_char _ _ _ _ rfl)
  any_goals exact returns_ok (callsOk_nil _ _ _)
  any_goals first
    | exact handleC_ok _ _ | exact handleD_ok _ _ | exact handleG_ok _ _ _ | exact handleH_ok _ _
    | exact handleJ_ok _ _ _ hne | exact handleL_ok _ _ | exact handleP_ok _ _
    | exact handleR_ok _ _ _ | exact handleS_ok _ _ _ | exact handleT_ok _ _ | exact handleW_ok _ _
    | exact handleX_ok _ _ | exact handleZ_ok _ _ _
  any_goals dm_calls
  all_goals
    refine returns_ok ?_
    by_cases h : index = 0
    · rw [if_pos h]
      exact .inr ⟨_, rfl, .inr ⟨rfl, h⟩, .inr (.inl ⟨rfl, h⟩)⟩
    · rw [if_neg h]; exact callsOk_nil _ _ _

/-! ## What the calls append -/

/-- The text that a call appends to the primary and to the alternate code when nothing is cut. -/
def appended : DMAppend → Str × Str
  | .char c alt => ([c], [alt.getD c])
  | .charPrimary c => ([c], [])
  | .charAlternate c => ([], [c])
  | .str v alt => (v, alt.getD v)

/-- `s` cut to the limit. -/
def cut (max : Option Nat) (s : Str) : Str :=
  match max with
  | some n => s.take n
  | none => s

/-- The buffer respects the limit. -/
def Fits (max : Option Nat) (s : Str) : Prop := ∀ n, max = some n → s.length ≤ n

theorem fits_cut (max : Option Nat) (s : Str) : Fits max (cut max s) := by
  intro n h; subst h; simp only [cut, List.length_take]; omega

theorem plain_ascii {c : Char} (h : plain c = true) : isAscii c = true := by
  have : c ∈ c!"PSKTFJHLMNRX0" := by simpa [plain] using h
  have all : c!"PSKTFJHLMNRX0".all isAscii = true := by decide +kernel
  exact List.all_eq_true.mp all c this

theorem callOk_ascii {first last : Prop} {call : DMAppend} (h : CallOk first last call) :
    AsciiStr (appended call).1 ∧ AsciiStr (appended call).2 := by
  have all : ∀ v : Str, v.all plain = true → AsciiStr v := fun v hv c hc =>
    plain_ascii (List.all_eq_true.mp hv c hc)
  have one : ∀ c, isAscii c = true → AsciiStr [c] := fun c hc x hx => by
    simp only [List.mem_singleton] at hx; subst hx; exact hc
  cases call with
  | char c alt =>
    refine ⟨one _ ?_, one _ ?_⟩
    · rcases h.1 with h | h
      · exact plain_ascii h
      · rw [h.1]; decide
    · rcases h.2 with h | h | h
      · exact plain_ascii h
      · rw [h.1]; decide
      · rw [h.1]; decide
  | charPrimary c => exact ⟨one _ (plain_ascii h), AsciiStr.nil⟩
  | charAlternate c => exact ⟨AsciiStr.nil, one _ (plain_ascii h)⟩
  | str v alt => exact ⟨all _ h.1, all _ h.2⟩

theorem pushChar_eq (max : Option Nat) (b : Str) (c : Char) (hb : AsciiStr b) (hf : Fits max b) :
    DMResult.pushChar max b c = cut max (b ++ [c]) := by
  cases max with
  | none => rfl
  | some n =>
    have := hf n rfl
    simp only [DMResult.pushChar, cut]
    rw [byteLen_ascii hb]
    split
    · rw [List.take_of_length_le (by simp; omega)]
    · rw [List.take_append_of_le_length (by omega), List.take_of_length_le (by omega)]

theorem cut_fits {max : Option Nat} {b : Str} (h : Fits max b) : cut max b = b := by
  cases max with
  | none => rfl
  | some n => exact List.take_of_length_le (h n rfl)

theorem pushStr_eq (max : Option Nat) (b v : Str) (hb : AsciiStr b) (hv : AsciiStr v)
    (hf : Fits max b) : DMResult.pushStr max b v = .ok (cut max (b ++ v)) := by
  cases max with
  | none => rfl
  | some n =>
    have := hf n rfl
    simp only [DMResult.pushStr, cut]
    rw [byteLen_ascii hb, byteLen_ascii hv, usub, if_pos this]
    simp only [bind, Except.bind]
    split
    · rw [List.take_of_length_le (by simp; omega)]; rfl
    · rw [sliceTo_ascii hv (by omega)]
      simp only [pure, Except.pure]
      rw [List.take_append, List.take_of_length_le this]

/-- A result that respects its limit, in ASCII. -/
structure Good (r : DMResult) : Prop where
  primary : AsciiStr r.primary
  alternate : AsciiStr r.alternate
  fitsP : Fits r.maxLength r.primary
  fitsA : Fits r.maxLength r.alternate

/-- The result after `p` and `a` have been appended and cut. -/
def extend (r : DMResult) (p a : Str) : DMResult :=
  { r with primary := cut r.maxLength (r.primary ++ p), alternate := cut r.maxLength (r.alternate ++ a) }

theorem ascii_cut {max : Option Nat} {s : Str} (h : AsciiStr s) : AsciiStr (cut max s) := by
  cases max with
  | none => exact h
  | some n => exact h.sublist (List.take_sublist _ _)

theorem good_extend {r : DMResult} {p a : Str} (h : Good r) (hp : AsciiStr p) (ha : AsciiStr a) :
    Good (extend r p a) :=
  ⟨ascii_cut (asciiStr_append.mpr ⟨h.primary, hp⟩), ascii_cut (asciiStr_append.mpr ⟨h.alternate, ha⟩),
    fits_cut _ _, fits_cut _ _⟩

theorem run_eq {first last : Prop} {r : DMResult} {call : DMAppend} (hr : Good r)
    (hc : CallOk first last call) :
    call.run r = .ok (extend r (appended call).1 (appended call).2) := by
  have ha := callOk_ascii hc
  cases call with
  | char c alt =>
    simp only [DMAppend.run, DMResult.appendChar, DMResult.appendCharPrimary,
      DMResult.appendCharAlternate, appended, extend]
    rw [pushChar_eq _ _ _ hr.primary hr.fitsP, pushChar_eq _ _ _ hr.alternate hr.fitsA]
  | charPrimary c =>
    simp only [DMAppend.run, DMResult.appendCharPrimary, appended, extend, List.append_nil]
    rw [pushChar_eq _ _ _ hr.primary hr.fitsP, cut_fits hr.fitsA]
  | charAlternate c =>
    simp only [DMAppend.run, DMResult.appendCharAlternate, appended, extend, List.append_nil]
    rw [pushChar_eq _ _ _ hr.alternate hr.fitsA, cut_fits hr.fitsP]
  | str v alt =>
    simp only [appended] at ha
    simp only [DMAppend.run, DMResult.appendStr, appended, extend]
    rw [pushStr_eq _ _ _ hr.primary ha.1 hr.fitsP, pushStr_eq _ _ _ hr.alternate ha.2 hr.fitsA]
    rfl

/-- The text appended by the calls of a handler. -/
def appendedAll : List DMAppend → Str × Str
  | [call] => appended call
  | _ => ([], [])

theorem runAll_eq {value : Str} {index : Int} {r : DMResult} {calls : List DMAppend} {k : Nat}
    (hr : Good r) (h : CallsOk value index (calls, k)) :
    DMAppend.runAll r calls = .ok (extend r (appendedAll calls).1 (appendedAll calls).2) ∧
      AsciiStr (appendedAll calls).1 ∧ AsciiStr (appendedAll calls).2 := by
  rcases h with h | ⟨call, h, hc⟩
  · simp only at h
    subst h
    simp only [DMAppend.runAll, appendedAll, extend, List.append_nil]
    rw [cut_fits hr.fitsP, cut_fits hr.fitsA]
    exact ⟨rfl, AsciiStr.nil, AsciiStr.nil⟩
  · simp only at h
    subst h
    simp only [DMAppend.runAll, appendedAll]
    rw [run_eq hr hc]
    exact ⟨rfl, callOk_ascii hc⟩

/-! ## Limits -/

/-- The result with both codes cut to `n` characters. -/
def limitTo (n : Nat) (r : DMResult) : DMResult :=
  { primary := r.primary.take n, alternate := r.alternate.take n, maxLength := some n }

/-- A run limited to `n` starting from cut codes returns the cut codes of a run with a higher limit. -/
theorem dm_loop_limit (value : Str) (hv : 0 < byteLen value) (sg : Bool) (n : Nat) (rest : Str)
    (index skip : Nat) (r r' : DMResult) (hm : ∀ m, r.maxLength = some m → n ≤ m) (hr : Good r)
    (h : loop value sg rest index skip r = .ok r') :
    loop value sg rest index skip (limitTo n r) = .ok (limitTo n r') ∧ Good r' ∧
      r.primary <+: r'.primary ∧ r.alternate <+: r'.alternate ∧ r'.maxLength = r.maxLength := by
  induction rest generalizing index skip r with
  | nil =>
    unfold loop at h ⊢
    cases h
    exact ⟨rfl, hr, List.prefix_refl _, List.prefix_refl _, rfl⟩
  | cons c rest ih =>
    cases skip with
    | succ skip =>
      rw [loop] at h ⊢
      exact ih _ _ r hm hr h
    | zero =>
      rw [loop] at h ⊢
      have hl : Good (limitTo n r) :=
        ⟨hr.primary.sublist (List.take_sublist _ _), hr.alternate.sublist (List.take_sublist _ _),
          fun m h => by cases h; simp only [limitTo, List.length_take]; omega,
          fun m h => by cases h; simp only [limitTo, List.length_take]; omega⟩
      have hcomplete : (limitTo n r).isComplete = true ↔
          n ≤ r.primary.length ∧ n ≤ r.alternate.length := by
        have h1 := byteLen_ascii hl.primary
        have h2 := byteLen_ascii hl.alternate
        simp only [limitTo] at h1 h2
        simp only [DMResult.isComplete, limitTo, h1, h2, List.length_take, Bool.and_eq_true,
          decide_eq_true_eq]
        omega
      by_cases hstop : r.isComplete = true
      · rw [if_pos hstop] at h
        obtain rfl : r = r' := Except.ok.inj h
        have : (limitTo n r).isComplete = true := by
          rw [hcomplete]
          unfold DMResult.isComplete at hstop
          split at hstop
          · next m hmax =>
            simp only [Bool.and_eq_true, decide_eq_true_eq, byteLen_ascii hr.primary,
              byteLen_ascii hr.alternate] at hstop
            have := hm m hmax
            omega
          · cases hstop
        rw [if_pos this]
        exact ⟨rfl, hr, List.prefix_refl _, List.prefix_refl _, rfl⟩
      · rw [if_neg hstop] at h
        cases hh : handle value sg index c with
        | error e => rw [hh] at h; cases h
        | ok p =>
          obtain ⟨calls, k⟩ := p
          rw [hh] at h
          simp only [bind, Except.bind] at h ⊢
          have hc := handle_ok value index sg c hv _ hh
          obtain ⟨e1, a1, a2⟩ := runAll_eq hr hc
          rw [e1] at h
          simp only at h
          obtain ⟨r1, r2, r3, r4, r5⟩ := ih _ _ (extend r _ _) hm (good_extend hr a1 a2) h
          have pre : ∀ b p : Str, Fits r.maxLength b → b <+: cut r.maxLength (b ++ p) := by
            intro b p hb
            cases hmax : r.maxLength with
            | none => exact List.prefix_append _ _
            | some m =>
              rw [hmax] at hb
              simp only [cut, List.prefix_take_iff]
              exact ⟨List.prefix_append _ _, hb m rfl⟩
          have p1 := (pre _ (appendedAll calls).1 hr.fitsP).trans r3
          have p2 := (pre _ (appendedAll calls).2 hr.fitsA).trans r4
          refine ⟨?_, r2, p1, p2, r5⟩
          by_cases hn : n ≤ r.primary.length ∧ n ≤ r.alternate.length
          · rw [if_pos (hcomplete.mpr hn)]
            obtain ⟨t, ht⟩ := p1
            obtain ⟨u, hu⟩ := p2
            simp only [limitTo]
            rw [← ht, ← hu, List.take_append_of_le_length hn.1, List.take_append_of_le_length hn.2]
          · rw [if_neg (by rw [hcomplete]; exact hn), (runAll_eq hl hc).1]
            simp only
            rw [← r1]
            congr 1
            have tk : ∀ b p : Str, (b.take n ++ p).take n = (cut r.maxLength (b ++ p)).take n := by
              intro b p
              have : (b.take n ++ p).take n = (b ++ p).take n := by
                rw [List.take_append, List.take_append, List.take_take, Nat.min_self, List.length_take]
                congr 2
                omega
              rw [this]
              cases hmax : r.maxLength with
              | none => rfl
              | some m => simp only [cut, List.take_take, Nat.min_eq_left (hm m hmax)]
            simp only [limitTo, extend]
            rw [← tk, ← tk]
            rfl

/-- The normalised text. -/
def dmValue (U : Unicode) (s : Str) : Str := U.strUpper (U.trim s)

/-- Number of silent characters at the start. -/
def dmSkip (value : Str) : Nat := if silentStart.any (fun sl => sl.isPrefixOf value) then 1 else 0

theorem strUpper_ne_nil (U : Unicode) {s : Str} (h : s ≠ []) : U.strUpper s ≠ [] := by
  cases s with
  | nil => exact absurd rfl h
  | cons c cs =>
    intro h
    have := U.toUpper_ne_nil c
    simp only [Unicode.strUpper, List.flatMap_cons, List.append_eq_nil_iff] at h
    exact this h.1

theorem byteLen_pos {s : Str} (h : s ≠ []) : 0 < byteLen s := by
  cases s with
  | nil => exact absurd rfl h
  | cons c cs =>
    have := length_le_byteLen (c :: cs)
    simp only [List.length_cons] at this
    omega

/-- The result at the start. -/
def dmEmpty (max : Option Nat) : DMResult := { primary := [], alternate := [], maxLength := max }

theorem dm_new {max : Option Nat} (h : Spec.Allocatable max) : DMResult.new max = .ok (dmEmpty max) := by
  have : max.getD 10 ≤ isizeMax := by
    cases max with
    | none => decide
    | some n => have := h n rfl; simp only [Option.getD_some, isizeMax]; omega
  unfold DMResult.new stringWithCapacity
  rw [if_pos this]
  rfl

theorem dm_new_panics {max : Option Nat} (h : ¬ Spec.Allocatable max) : DMResult.new max = .error .capacity := by
  have : ¬ max.getD 10 ≤ isizeMax := by
    intro hle
    apply h
    rintro n rfl
    simp only [Option.getD_some, isizeMax] at hle
    omega
  unfold DMResult.new stringWithCapacity
  rw [if_neg this]
  rfl

theorem doubleMetaphone_eq (U : Unicode) (max : Option Nat) (s : Str) (hmax : Spec.Allocatable max) :
    (DoubleMetaphone.new max).doubleMetaphone U s =
      loop (dmValue U s) (isSlavoGermanic (dmValue U s)) (dmValue U s) 0 (dmSkip (dmValue U s))
        (dmEmpty max) := by
  unfold DoubleMetaphone.doubleMetaphone dmValue dmSkip DoubleMetaphone.new
  simp only [dm_new hmax, bind, Except.bind, pure, Except.pure]
  split
  · next h =>
    have : U.trim s = [] := List.isEmpty_iff.mp h
    rw [this]
    simp [Unicode.strUpper, loop]
  · rfl

theorem doubleMetaphone_panics (U : Unicode) (max : Option Nat) (s : Str) (hmax : ¬ Spec.Allocatable max) :
    (DoubleMetaphone.new max).doubleMetaphone U s = .error .capacity := by
  unfold DoubleMetaphone.doubleMetaphone DoubleMetaphone.new
  simp only [dm_new_panics hmax, bind, Except.bind]

theorem allocatable_of_ok {U : Unicode} {max : Option Nat} {s : Str} {r : DMResult}
    (h : (DoubleMetaphone.new max).doubleMetaphone U s = .ok r) : Spec.Allocatable max := by
  apply Classical.byContradiction
  intro hn
  rw [doubleMetaphone_panics U max s hn] at h
  cases h

theorem dm_good_new (max : Option Nat) : Good (dmEmpty max) :=
  ⟨AsciiStr.nil, AsciiStr.nil, fun _ _ => Nat.zero_le _, fun _ _ => Nat.zero_le _⟩

theorem dm_run (U : Unicode) (max : Option Nat) (n : Nat) (hm : ∀ m, max = some m → n ≤ m) (hn : n < 2 ^ 63) (s : Str)
    (r : DMResult) (h : (DoubleMetaphone.new max).doubleMetaphone U s = .ok r) :
    (DoubleMetaphone.new (some n)).doubleMetaphone U s = .ok (limitTo n r) ∧ Good r ∧
      r.maxLength = max := by
  rw [doubleMetaphone_eq _ _ _ (allocatable_of_ok h)] at h
  rw [doubleMetaphone_eq _ _ _ (by rintro _ ⟨⟩; exact hn)]
  by_cases hv : dmValue U s = []
  · rw [hv] at h ⊢
    unfold loop at h ⊢
    cases h
    exact ⟨by simp [limitTo, dmEmpty], dm_good_new max, rfl⟩
  · have := dm_loop_limit _ (byteLen_pos hv) _ n _ 0 _ (dmEmpty max) r hm (dm_good_new max) h
    refine ⟨?_, this.2.1, this.2.2.2.2⟩
    rw [← this.1]
    simp [limitTo, dmEmpty]

/-! ## No panic on ASCII -/

theorem noPanic_contains {value : Str} (hv : AsciiStr value) (start : Int) (n : Nat) (l : List Str) :
    NoPanic (contains value start n l) := by
  unfold contains
  refine ite_ind NoPanic (fun _ => noPanic_ok _) (fun _ => ite_ind NoPanic (fun h => ?_) (fun _ => noPanic_ok _))
  rw [byteLen_ascii hv] at h
  rw [slice_ascii hv (by omega) h]
  exact noPanic_ok _

theorem noPanic_charAt {value : Str} (hv : AsciiStr value) (index : Int) :
    NoPanic (charAt value index) := by
  unfold charAt
  refine ite_ind NoPanic (fun h => ?_) (fun _ => noPanic_ok _)
  rw [byteLen_ascii hv] at h
  rw [sliceFrom_ascii hv (by omega)]
  exact noPanic_ok _

theorem noPanic_isAt {value : Str} (hv : AsciiStr value) (index : Int) (c : Char) :
    NoPanic (isAt value index c) := noPanic_bind (noPanic_charAt hv _) fun _ => noPanic_ok _

theorem noPanic_vowelAt {value : Str} (hv : AsciiStr value) (index : Int) :
    NoPanic (vowelAt value index) := noPanic_bind (noPanic_charAt hv _) fun _ => noPanic_ok _

theorem noPanic_orR {a b : Res Bool} (ha : NoPanic a) (hb : NoPanic b) : NoPanic (a |? b) :=
  noPanic_bind ha fun _ => ite_ind NoPanic (fun _ => noPanic_ok _) (fun _ => hb)

theorem noPanic_andR {a b : Res Bool} (ha : NoPanic a) (hb : NoPanic b) : NoPanic (a &? b) :=
  noPanic_bind ha fun _ => ite_ind NoPanic (fun _ => hb) (fun _ => noPanic_ok _)

theorem noPanic_notR {a : Res Bool} (ha : NoPanic a) : NoPanic (!? a) :=
  noPanic_bind ha fun _ => noPanic_ok _

theorem noPanic_okR (p : Prop) [Decidable p] : NoPanic (okR p) := noPanic_ok _

theorem noPanic_usub {a b : Nat} (h : b ≤ a) : NoPanic (usub a b) := by
  rw [usub, if_pos h]; exact noPanic_ok _

/-- Proves that a handler does not panic, branch by branch. -/
macro "dm_np" : tactic => `(tactic| repeat' first
  | assumption
  | exact noPanic_ok _
  | exact noPanic_okR _
  | exact noPanic_contains ‹_› _ _ _
  | exact noPanic_isAt ‹_› _ _
  | exact noPanic_vowelAt ‹_› _
  | exact noPanic_charAt ‹_› _
  | exact noPanic_usub ‹_›
  | refine noPanic_orR ?_ ?_
  | refine noPanic_andR ?_ ?_
  | refine noPanic_notR ?_
  | refine noPanic_bind ?_ fun _ => ?_
  | refine ite_ind NoPanic (fun _ => ?_) (fun _ => ?_))

section
variable (value : Str) (hv : AsciiStr value) (h1 : 1 ≤ byteLen value) (sg : Bool) (index : Int)
include hv h1

theorem handleC_noPanic : NoPanic (handleC value index) := by
  have : NoPanic (conditionC0 value index) := by unfold conditionC0; dm_np
  have : NoPanic (conditionCh0 value index) := by unfold conditionCh0; dm_np
  have : NoPanic (conditionCh1 value index) := by unfold conditionCh1; dm_np
  have : NoPanic (handleCh value index) := by unfold handleCh; dm_np
  have : NoPanic (handleCc value index) := by unfold handleCc; dm_np
  unfold handleC
  dm_np

theorem handleD_noPanic : NoPanic (handleD value index) := by
  unfold handleD
  dm_np

theorem handleG_noPanic : NoPanic (handleG value index sg) := by
  have : NoPanic (handleGh value index) := by unfold handleGh; dm_np
  have : NoPanic (conditionG0 value index) := by unfold conditionG0; dm_np
  unfold handleG
  dm_np

theorem handleH_noPanic : NoPanic (handleH value index) := by
  unfold handleH
  dm_np

theorem handleJ_noPanic : NoPanic (handleJ value index sg) := by
  have : NoPanic (handleJ' value index sg) := by unfold handleJ'; dm_np
  unfold handleJ
  dm_np

theorem handleL_noPanic : NoPanic (handleL value index) := by
  have : NoPanic (conditionL0 value index) := by unfold conditionL0; dm_np
  unfold handleL
  dm_np

theorem handleP_noPanic : NoPanic (handleP value index) := by
  unfold handleP
  dm_np

theorem handleR_noPanic : NoPanic (handleR value index sg) := by
  have : NoPanic (handleR' value index sg) := by unfold handleR'; dm_np
  unfold handleR
  dm_np

theorem handleS_noPanic : NoPanic (handleS value index sg) := by
  have : NoPanic (handleSc value index) := by unfold handleSc; dm_np
  have : NoPanic (handleS' value index) := by unfold handleS'; dm_np
  unfold handleS
  dm_np

theorem handleT_noPanic : NoPanic (handleT value index) := by
  unfold handleT
  dm_np

theorem handleW_noPanic : NoPanic (handleW value index) := by
  unfold handleW
  dm_np

theorem handleX_noPanic : NoPanic (handleX value index) := by
  have : NoPanic (handleX' value index) := by unfold handleX'; dm_np
  unfold handleX
  dm_np

theorem handleZ_noPanic : NoPanic (handleZ value index sg) := by
  have : NoPanic (handleZ' value index sg) := by unfold handleZ'; dm_np
  unfold handleZ
  dm_np

theorem simple_noPanic (ch code : Char) : NoPanic (simple value index ch code) := by
  unfold simple
  dm_np

theorem handleM_noPanic : NoPanic (conditionM0 value index) := by
  unfold conditionM0
  dm_np

theorem handle_noPanic (c : Char) : NoPanic (handle value sg index c) := by
  have := handleM_noPanic value hv h1 index
  unfold handle
  split
  any_goals exact noPanic_ok _
  any_goals exact simple_noPanic value hv h1 index _ _
  any_goals first
    | exact handleC_noPanic value hv h1 index
    | exact handleD_noPanic value hv h1 index
    | exact handleG_noPanic value hv h1 sg index
    | exact handleH_noPanic value hv h1 index
    | exact handleJ_noPanic value hv h1 sg index
    | exact handleL_noPanic value hv h1 index
    | exact handleP_noPanic value hv h1 index
    | exact handleR_noPanic value hv h1 sg index
    | exact handleS_noPanic value hv h1 sg index
    | exact handleT_noPanic value hv h1 index
    | exact handleW_noPanic value hv h1 index
    | exact handleX_noPanic value hv h1 index
    | exact handleZ_noPanic value hv h1 sg index
  any_goals dm_np

end

theorem dm_loop_noPanic (value : Str) (hv : AsciiStr value) (h1 : 1 ≤ byteLen value) (sg : Bool)
    (rest : Str) (index skip : Nat) (r : DMResult) (hr : Good r) :
    NoPanic (loop value sg rest index skip r) := by
  induction rest generalizing index skip r with
  | nil => exact noPanic_ok _
  | cons c rest ih =>
    cases skip with
    | succ skip => rw [loop]; exact ih _ _ _ hr
    | zero =>
      rw [loop]
      refine ite_ind NoPanic (fun _ => noPanic_ok _) (fun _ => ?_)
      obtain ⟨⟨calls, k⟩, hh⟩ := handle_noPanic value hv h1 sg index c
      rw [hh]
      obtain ⟨e, a1, a2⟩ := runAll_eq hr (handle_ok value index sg c h1 _ hh)
      show NoPanic (do let r ← DMAppend.runAll r calls; loop value sg rest (index + c.utf8Size) k r)
      rw [e]
      exact ih _ _ _ (good_extend hr a1 a2)

theorem ascii_trim (U : Unicode) {s : Str} (h : AsciiStr s) : AsciiStr (U.trim s) := by
  refine h.subset fun c hc => ?_
  unfold Unicode.trim at hc
  rw [List.mem_reverse] at hc
  have := (List.dropWhile_sublist _).subset hc
  rw [List.mem_reverse] at this
  exact (List.dropWhile_sublist _).subset this

/-! ## Alphabet -/

/-- The primary code consists of consonant codes, or 'A' in front. -/
def PrimaryOk (p : Str) : Prop := ∀ i x, p[i]? = some x → plain x = true ∨ (i = 0 ∧ x = 'A')

/-- The same for the alternate code, which may moreover end with a space. -/
def AlternateOk (a : Str) : Prop :=
  ∀ i x, a[i]? = some x → plain x = true ∨ (i = 0 ∧ x = 'A') ∨ (i + 1 = a.length ∧ x = ' ')

theorem primaryOk_append {b p : Str} (hb : PrimaryOk b) (hp : ∀ x ∈ p, plain x = true ∨
    (b = [] ∧ p = [x] ∧ x = 'A')) : PrimaryOk (b ++ p) := by
  intro i x hx
  by_cases h : i < b.length
  · rw [List.getElem?_append_left h] at hx; exact hb i x hx
  · rw [List.getElem?_append_right (by omega)] at hx
    rcases hp x (List.mem_of_getElem? hx) with h' | ⟨rfl, rfl, rfl⟩
    · exact .inl h'
    · have : i < 1 := by
        have := (List.getElem?_eq_some_iff.mp hx).1
        simpa using this
      exact .inr ⟨by omega, rfl⟩

theorem primaryOk_cut {b : Str} (max : Option Nat) (hb : PrimaryOk b) : PrimaryOk (cut max b) := by
  cases max with
  | none => exact hb
  | some n =>
    intro i x hx
    simp only [cut, List.getElem?_take] at hx
    split at hx
    · exact hb i x hx
    · cases hx

theorem alternateOk_of_primary {b : Str} (h : PrimaryOk b) : AlternateOk b := fun i x hx =>
  (h i x hx).elim .inl fun h => .inr (.inl h)

/-- What the calls at one position append, and to what. -/
theorem dm_loop_alphabet (value : Str) (hv : 0 < byteLen value) (sg : Bool) (rest : Str)
    (index skip : Nat) (r r' : DMResult) (hr : Good r) (hi : index + byteLen rest = byteLen value)
    (h0 : index = 0 → r.primary = [] ∧ r.alternate = []) (hp : PrimaryOk r.primary)
    (ha : PrimaryOk r.alternate) (h : loop value sg rest index skip r = .ok r') :
    PrimaryOk r'.primary ∧ AlternateOk r'.alternate := by
  induction rest generalizing index skip r with
  | nil =>
    unfold loop at h
    cases h
    exact ⟨hp, alternateOk_of_primary ha⟩
  | cons c rest ih =>
    have hpos := utf8Size_pos c
    simp only [byteLen] at hi
    cases skip with
    | succ skip =>
      rw [loop] at h
      exact ih _ _ r hr (by omega) (by omega) hp ha h
    | zero =>
      rw [loop] at h
      by_cases hstop : r.isComplete = true
      · rw [if_pos hstop] at h
        cases h
        exact ⟨hp, alternateOk_of_primary ha⟩
      · rw [if_neg hstop] at h
        cases hh : handle value sg index c with
        | error e => rw [hh] at h; cases h
        | ok p =>
          obtain ⟨calls, k⟩ := p
          rw [hh] at h
          simp only [bind, Except.bind] at h
          have hc := handle_ok value index sg c hv _ hh
          obtain ⟨e1, a1, a2⟩ := runAll_eq hr hc
          rw [e1] at h
          simp only at h
          have hg := good_extend hr a1 a2
          have cont : PrimaryOk (r.primary ++ (appendedAll calls).1) →
              PrimaryOk (r.alternate ++ (appendedAll calls).2) → _ := fun q1 q2 =>
            ih _ _ (extend r _ _) hg (by omega) (fun h => absurd h (by omega)) (primaryOk_cut _ q1) (primaryOk_cut _ q2) h
          rcases hc with hc | ⟨call, hc, ok⟩
          · simp only at hc
            subst hc
            exact cont (by simpa [appendedAll] using hp) (by simpa [appendedAll] using ha)
          · simp only at hc
            subst hc
            simp only [appendedAll] at cont h
            cases call with
            | charPrimary a =>
              refine cont (primaryOk_append hp fun x hx => ?_) (by simpa [appended] using ha)
              simp only [appended, List.mem_singleton] at hx
              subst hx
              exact .inl ok
            | charAlternate a =>
              refine cont (by simpa [appended] using hp) (primaryOk_append ha fun x hx => ?_)
              simp only [appended, List.mem_singleton] at hx
              subst hx
              exact .inl ok
            | str v alt =>
              refine cont (primaryOk_append hp fun x hx => .inl ?_)
                (primaryOk_append ha fun x hx => .inl ?_)
              · exact List.all_eq_true.mp ok.1 x hx
              · exact List.all_eq_true.mp ok.2 x hx
            | char a alt =>
              have q1 : PrimaryOk (r.primary ++ (appended (.char a alt)).1) := by
                refine primaryOk_append hp fun x hx => ?_
                simp only [appended, List.mem_singleton] at hx
                subst hx
                rcases ok.1 with h | h
                · exact .inl h
                · exact .inr ⟨(h0 (by omega)).1, rfl, h.1⟩
              rcases ok.2 with h2 | h2 | h2
              · refine cont q1 (primaryOk_append ha fun x hx => ?_)
                simp only [appended, List.mem_singleton] at hx
                subst hx
                exact .inl h2
              · refine cont q1 (primaryOk_append ha fun x hx => ?_)
                simp only [appended, List.mem_singleton] at hx
                subst hx
                exact .inr ⟨(h0 (by omega)).2, rfl, h2.1⟩
              · -- the last character
                have hrest : rest = [] := by
                  have h3 : index + 1 = byteLen value := by simpa using h2.2
                  have := length_le_byteLen rest
                  exact List.length_eq_zero_iff.mp (by omega)
                subst hrest
                unfold loop at h
                cases h
                refine ⟨primaryOk_cut _ q1, ?_⟩
                simp only [extend, appended]
                rw [h2.1]
                have base : AlternateOk (r.alternate ++ [' ']) := by
                  intro i x hx
                  by_cases h : i < r.alternate.length
                  · rw [List.getElem?_append_left h] at hx
                    exact (ha i x hx).elim .inl fun h => .inr (.inl h)
                  · have hb := (List.getElem?_eq_some_iff.mp hx).1
                    simp only [List.length_append, List.length_singleton] at hb
                    have : i = r.alternate.length := by omega
                    subst this
                    simp only [List.getElem?_append_right (Nat.le_refl _), Nat.sub_self,
                      List.getElem?_cons_zero, Option.some.injEq] at hx
                    exact .inr (.inr ⟨by simp, hx.symm⟩)
                cases hmax : r.maxLength with
                | none => exact base
                | some m =>
                  simp only [cut]
                  by_cases hm : m ≤ r.alternate.length
                  · rw [List.take_append_of_le_length hm]
                    exact alternateOk_of_primary (primaryOk_cut (some m) ha)
                  · rw [List.take_of_length_le (by simp; omega)]
                    exact base

/-! ## Whitespace and case -/

theorem dropWhile_nil_of_all {p : Char → Bool} {w : Str} (h : w.all p = true) : w.dropWhile p = [] := by
  induction w with
  | nil => rfl
  | cons c w ih =>
    simp only [List.all_cons, Bool.and_eq_true] at h
    rw [List.dropWhile_cons, if_pos h.1]
    exact ih h.2

theorem dropWhile_append_of_all {p : Char → Bool} {w s : Str} (h : w.all p = true) :
    (w ++ s).dropWhile p = s.dropWhile p := by
  induction w with
  | nil => rfl
  | cons c w ih =>
    simp only [List.all_cons, Bool.and_eq_true] at h
    rw [List.cons_append, List.dropWhile_cons, if_pos h.1]
    exact ih h.2

theorem dropWhile_append_cases {p : Char → Bool} (s w : Str) :
    (s ++ w).dropWhile p = if s.all p then w.dropWhile p else s.dropWhile p ++ w := by
  induction s with
  | nil => simp
  | cons c s ih =>
    by_cases hc : p c = true
    · simp [hc, ih]
    · simp [hc]

theorem trim_append (U : Unicode) (w s w' : Str) (h : w.all U.isWhitespace = true)
    (h' : w'.all U.isWhitespace = true) : U.trim (w ++ s ++ w') = U.trim s := by
  unfold Unicode.trim
  rw [List.append_assoc, dropWhile_append_of_all h, dropWhile_append_cases]
  split
  · next hs =>
    rw [dropWhile_nil_of_all h', dropWhile_nil_of_all hs]
  · rw [List.reverse_append, dropWhile_append_of_all (by simpa using h')]

theorem ascii_case (U : Unicode) (c : Char) (h : isAscii c = true) :
    U.toUpper (asciiUpper c) = U.toUpper c ∧ U.isWhitespace (asciiUpper c) = U.isWhitespace c := by
  have h' := isAscii_asciiUpper h
  rw [U.toUpper_ascii _ h', U.toUpper_ascii _ h, U.isWhitespace_ascii _ h', U.isWhitespace_ascii _ h]
  have key : ∀ c, isAscii c = true →
      [asciiUpper (asciiUpper c)] = [asciiUpper c] ∧ isAsciiWs (asciiUpper c) = isAsciiWs c := by
    apply forall_ascii; decide +kernel
  exact key c h

theorem asciiUpper_of_not_ascii {c : Char} (h : isAscii c = false) : asciiUpper c = c := by
  unfold asciiUpper
  rw [if_neg]
  intro hl
  simp [isAscii, isAsciiLower] at h hl
  omega

theorem any_case (U : Unicode) (c : Char) :
    U.toUpper (asciiUpper c) = U.toUpper c ∧ U.isWhitespace (asciiUpper c) = U.isWhitespace c := by
  cases h : isAscii c with
  | true => exact ascii_case U c h
  | false => rw [asciiUpper_of_not_ascii h]; exact ⟨rfl, rfl⟩

theorem dropWhile_map {p : Char → Bool} {f : Char → Char} (h : ∀ c, p (f c) = p c) (s : Str) :
    (s.map f).dropWhile p = (s.dropWhile p).map f := by
  induction s with
  | nil => rfl
  | cons c s ih =>
    simp only [List.map_cons, List.dropWhile_cons, h]
    split
    · exact ih
    · rfl

theorem trim_map (U : Unicode) (s : Str) : U.trim (s.map asciiUpper) = (U.trim s).map asciiUpper := by
  unfold Unicode.trim
  rw [dropWhile_map (fun c => (any_case U c).2), ← List.map_reverse,
    dropWhile_map (fun c => (any_case U c).2), List.map_reverse]

theorem strUpper_map (U : Unicode) (s : Str) : U.strUpper (s.map asciiUpper) = U.strUpper s := by
  unfold Unicode.strUpper
  rw [List.flatMap_map]
  congr
  funext c
  exact (any_case U c).1

/-! ## Comparison -/

end DMProofs
end Verif
