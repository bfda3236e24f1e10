import Verif.Props.BMEmbedded
/-!
# Vectors of the crate's tests for the embedded Beider-Morse rules

These are tests of the model, evaluated by the kernel.  The vectors are the ones that use several given languages or
guess nothing, because the crate's other tests use rules that are not embedded.
-/

namespace Verif.Tests
open BM Spec BMProofs

/-- The code with the embedded rules. -/
def bmCode (cfg : ConfigFiles) (nt : NameType) (rt : RuleType) (concat : Bool) (ls : Option (List Str)) (s : Str) :
    Option Str :=
  match ((((Builder.new cfg).withNameType nt).withRuleType rt).withConcat concat).build with
  | .ok e =>
    (match ls with
      | none => e.encode .latin1 embeddedRegex s
      | some ls => e.encodeWithLanguages .latin1 embeddedRegex s (.ofVec ls)).toOption
  | .error _ => none

def italianGreekSpanish : Option (List Str) := some [c!"italian", c!"greek", c!"spanish"]

/-- A name, settings and the code expected. -/
def bmVectors : List (NameType × RuleType × Bool × Option (List Str) × Str × Str) := [
  -- engine.rs:505-511
  (.generic, .exact, false, italianGreekSpanish, c!"Angelo", c!"andZelo|angelo|anxelo"),
  (.generic, .exact, false, italianGreekSpanish, c!"1234", c!""),
  -- engine.rs:533-537
  (.generic, .approx, true, italianGreekSpanish, c!"Angelo", c!"angilo|anxilo|anzilo|ongilo|onxilo|onzilo"),
  -- engine.rs:597-601
  (.ashkenazi, .exact, true, italianGreekSpanish, c!"Angelo", c!"angelo|anxelo"),
  -- engine.rs:655-659
  (.ashkenazi, .approx, true, italianGreekSpanish, c!"Angelo", c!"angilo|anxilo|ongilo|onxilo"),
  -- engine.rs:720-724
  (.sephardic, .exact, true, italianGreekSpanish, c!"Angelo", c!"andZelo|anxelo"),
  -- engine.rs:778-782
  (.sephardic, .approx, true, italianGreekSpanish, c!"Angelo", c!"anhila|anhilu|anzila|anzilu|nhila|nhilu|nzila|nzilu")]

set_option maxRecDepth 100000 in
/-- The vectors, and the numbers of letters with rules (mod.rs:508-518). -/
theorem bm_vectors : (match ConfigFiles.default .latin1 embeddedRegex 2 with
    | .ok cfg => (bmVectors.all fun (nt, rt, concat, ls, s, code) => bmCode cfg nt rt concat ls s == some code) &&
        ((cfg.rules.get? (.generic, .exact, c!"any")).map List.length == some 8) &&
        ((cfg.rules.get? (.generic, .approx, c!"any")).map List.length == some 22)
    | .error _ => false) = true := by decide +kernel

/-- One of the vectors, for every correct regex engine. -/
theorem bm_embedded_angelo (R : RegexEngine) (hR : CorrectEmbedded R) : ∃ e, BuiltFrom .latin1 R .embedded e ∧
    e.nameType = .generic ∧ e.ruleType = .approx ∧
    e.encodeWithLanguages .latin1 R c!"Angelo" (.ofVec [c!"italian", c!"greek", c!"spanish"]) =
      .ok c!"angilo|anxilo|anzilo|ongilo|onxilo|onzilo" := by
  have h := bm_vectors
  cases hc : ConfigFiles.default .latin1 embeddedRegex 2 with
  | error e => rw [hc] at h; cases h
  | ok cfg =>
    rw [hc] at h
    simp only [Bool.and_eq_true] at h
    have hv := List.all_eq_true.mp h.1.1
      (.generic, .approx, true, italianGreekSpanish, c!"Angelo", c!"angilo|anxilo|anzilo|ongilo|onxilo|onzilo")
      (by simp [bmVectors])
    simp only [beq_iff_eq] at hv
    obtain ⟨e, hb, hbuilt, g1, g2, g3, g4⟩ :=
      Props.bm_embedded_build .latin1 embeddedRegex 2 cfg hc .generic .approx true 20
    obtain ⟨k1, _, k3⟩ :=
      Props.bm_embedded_engine_independent .latin1 embeddedRegex R embeddedRegex_correct hR e hbuilt c!"Angelo"
    refine ⟨e, k1, g1, g2, ?_⟩
    rw [← k3 _ (by intro l hl; cases hl)]
    have hb' : ((((Builder.new cfg).withNameType .generic).withRuleType .approx).withConcat true).build = .ok e := hb
    unfold bmCode at hv
    rw [hb'] at hv
    simp only [italianGreekSpanish] at hv
    unfold Except.toOption at hv
    split at hv
    · rename_i x hx; cases hv; exact hx
    · cases hv

end Verif.Tests
