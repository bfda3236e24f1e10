import Verif.Props.Omitted
import Verif.Proofs.DoubledDaitchMokotoff
/-!
# Daitch-Mokotoff Soundex: letters that are confused, that may be written twice, that may be left out (C100, C101, C102)
-/

set_option linter.unusedSimpArgs false
set_option linter.unusedVariables false

namespace Verif.Props
open Spec DaitchMokotoff DMKProofs InterchangeProofs

/-- C100: all the codes of Daitch-Mokotoff Soundex with the embedded rules confuse B, F, V and W, and G and Q, everywhere
and in texts in any alphabet, and no other letters, not even after a letter. -/
theorem dm_interchangeable (U : Unicode) (a b : Char) (ha : a ∈ allLetters) (hb : b ∈ allLetters) :
    (Interchangeable (defaultEncoder.soundex U) anyText anyText a b ↔ together [c!"BFVW", c!"GQ"] a b = true) ∧
    (Interchangeable (defaultEncoder.soundex U) hasLetter anyText a b ↔ together [c!"BFVW", c!"GQ"] a b = true) ∧
    (together [c!"BFVW", c!"GQ"] a b = true → Interchangeable (defaultEncoder.encode U) anyText anyText a b) := by
  have facts : ∀ a ∈ allLetters, ∀ b ∈ allLetters, together [c!"BFVW", c!"GQ"] a b = true →
      dmCanon (asciiLower a) = dmCanon (asciiLower b) := by decide
  have neg : Interchangeable (defaultEncoder.soundex U) hasLetter anyText a b → together [c!"BFVW", c!"GQ"] a b = true := by
    intro h
    exact told_apart ha hb h [(c!"C", c!"J"), (c!"E", c!"HA"), (c!"K", c!"UA"), (c!"M", c!"AJ")] _ (by decide) (by decide)
      (fun s hs => by
        unfold DaitchMokotoff.soundex
        rw [(ascii_tables U .latin1 s hs).2.2.2.2.2.2.2.2.2.2]) (by decide +kernel)
  exact ⟨⟨fun h => neg fun u v _ hv => h u v trivial hv, fun h u v _ _ => (dm_swap U u v ha hb (facts a ha b hb h)).1⟩,
    ⟨neg, fun h u v _ _ => (dm_swap U u v ha hb (facts a ha b hb h)).1⟩,
    fun h u v _ _ => (dm_swap U u v ha hb (facts a ha b hb h)).2⟩

/-- C101: the letters that may be doubled for Daitch-Mokotoff Soundex (all codes) after an ASCII text; the first code then
stays the same too. -/
theorem dm_doublable (U : Unicode) (c : Char) (hc : c ∈ allLetters) :
    (Doublable (defaultEncoder.soundex U) AsciiStr anyText c ↔ c ∈ c!"BFGLPQVW") ∧
    (Doublable (defaultEncoder.soundex U) asciiWithLetter anyText c ↔ c ∈ c!"BFGLPQVWX") ∧
    (c ∈ c!"BFGLPQVW" → Doublable (defaultEncoder.encode U) AsciiStr anyText c) ∧
    (c ∈ c!"BFGLPQVWX" → Doublable (defaultEncoder.encode U) asciiWithLetter anyText c) := by
  have tables : ∀ s, AsciiStr s → defaultEncoder.soundex U s = defaultEncoder.soundex .latin1 s := by
    intro s hs
    unfold DaitchMokotoff.soundex
    rw [(ascii_tables U .latin1 s hs).2.2.2.2.2.2.2.2.2.2]
  have cases' : ∀ c ∈ c!"BFGLPQVWX", c ∈ c!"BFGLPQVW" ∨ c = 'X' := by decide
  refine ⟨⟨fun h => ?_, fun h u v hu _ => (dm_twice U u v hu hc (.inl h)).1⟩,
    ⟨fun h => ?_, fun h u v hu _ => (dm_twice U u v hu.1 hc ((cases' c h).imp_right fun e => ⟨hu.2, e⟩)).1⟩,
    fun h u v hu _ => (dm_twice U u v hu hc (.inl h)).2,
    fun h u v hu _ => (dm_twice U u v hu.1 hc ((cases' c h).imp_right fun e => ⟨hu.2, e⟩)).2⟩
  · exact DoubledProofs.in_contexts hc h [([], c!"IA"), (c!"S", c!"SC"), (c!"K", c!"M"), (c!"AA", c!"N"), (c!"AA", c!"A")]
      (by decide) (by decide) tables (by decide +kernel)
  · exact DoubledProofs.in_contexts hc h [(c!"S", c!"SC"), (c!"I", c!"J"), (c!"K", c!"M"), (c!"AA", c!"N"), (c!"AA", c!"A")]
      (by decide) (by decide) tables (by decide +kernel)

/-- C102: no letter may be left out for Daitch-Mokotoff Soundex (all codes), not even after another one. -/
theorem dm_omissible (U : Unicode) (c : Char) (hc : c ∈ allLetters) :
    ¬ Omissible (defaultEncoder.soundex U) afterLetter c := by
  intro h
  have := OmittedProofs.out_of_contexts (good := []) hc h [(c!"A", c!"JA")] (by decide) (by decide)
    (fun s hs => by
      unfold DaitchMokotoff.soundex
      rw [(ascii_tables U .latin1 s hs).2.2.2.2.2.2.2.2.2.2]) (by decide +kernel)
  cases this

/-- After a letter whose pattern is longer in bytes than in characters the next letter is lost, so that doubling it matters:
the proviso on the text before is needed. -/
theorem dm_doublable_ascii : defaultEncoder.soundex .latin1 c!"ţB" ≠ defaultEncoder.soundex .latin1 c!"ţBB" := by decide +kernel

example : defaultEncoder.soundex .latin1 c!"MulLer" = defaultEncoder.soundex .latin1 c!"MuLer" ∧
    defaultEncoder.soundex .latin1 c!"Maxx" = defaultEncoder.soundex .latin1 c!"Max" ∧
    defaultEncoder.soundex .latin1 c!"Xxa" ≠ defaultEncoder.soundex .latin1 c!"Xa" ∧
    defaultEncoder.soundex .latin1 c!"Levi" = defaultEncoder.soundex .latin1 c!"Lewi" ∧
    defaultEncoder.soundex .latin1 c!"Pfb" = defaultEncoder.soundex .latin1 c!"Pvw" ∧
    defaultEncoder.soundex .latin1 c!"Moses" ≠ defaultEncoder.soundex .latin1 c!"Moss" := by decide +kernel

end Verif.Props
