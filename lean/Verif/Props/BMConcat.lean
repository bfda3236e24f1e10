import Verif.Spec.Undivided
import Verif.Props.BMEncode
import Verif.Props.BMText
/-!
# C114: the setting `concat`, and words that are dropped
-/
namespace Verif.Props
open BM Spec BMProofs

namespace ConcatProofs

theorem words_nil {U : Unicode} {t : Str} {ws : List Str} (h : Words U t ws) (e : ws = []) : ∀ c ∈ t, U.isWhitespace c = true := by
  induction h with
  | nil => intro c hc; cases hc
  | space hc _ ih =>
    intro x hx
    rcases List.mem_cons.mp hx with rfl | hx
    · exact hc
    · exact ih e x hx
  | word => cases e

theorem built_concat {U : Unicode} {R : RegexEngine} {o : Origin} {e : Engine} (h : BuiltFrom U R o e) (k : Bool) :
    BuiltFrom U R o { e with concat := k } := by
  obtain ⟨depth, cfg, b, h1, h2, h3⟩ := h
  refine ⟨depth, cfg, b.withConcat k, h1, h2, ?_⟩
  unfold Builder.build at h3 ⊢
  unfold Builder.withConcat
  cases hl : b.configFiles.langs.get? b.nameType with
  | none => rw [hl] at h3; cases h3
  | some lang =>
    rw [hl] at h3
    injection h3 with h3
    subst h3
    simp only

theorem one_text (U : Unicode) (R : RegexEngine) (o : Origin) (e : Engine) (h : BuiltFrom U R o e)
    (hany : Offers o e.nameType c!"any") (s : Str) (ws : List Str)
    (hp : e.nameType = .generic → ∀ p r, ¬ NamePrefix (cleaned U s) p r) (hw : Words U (cleaned U s) ws) (h1 : ws.length = 1)
    (hk : keptWords e.nameType ws = ws) (ls : LanguageSet) (kn : Knows e (languageOf ls)) (rc : Str → Res Str) (k : Bool) :
    ({ e with concat := k } : Engine).encodeWith U R rc s ls =
      .ok (bars ((textPhonemes R e ls (ws.headD [])).map Phoneme.text)) := by
  have he := engineWF_of_built (built_concat h k) hany
  rw [encodeWith_text U R { e with concat := k } rc s ls he kn hp hw (.inr h1)]
  have : nameText { e with concat := k } ws = ws.headD [] := by
    unfold nameText
    match ws, h1 with
    | [w], _ =>
      show (if k then separated c!" " (keptWords e.nameType [w]) else w) = w
      rw [hk]
      cases k <;> rfl
  rw [this]
  rfl

end ConcatProofs

open ConcatProofs

/-- C114. `concat` makes no difference to the code of a name that is not divided. -/
theorem bm_concat_undivided (U : Unicode) (R : RegexEngine) (o : Origin) (e : Engine) (h : BuiltFrom U R o e)
    (hany : Offers o e.nameType c!"any") (s : Str) (hs : Undivided U e.nameType s) :
    ({ e with concat := true } : Engine).encode U R s = ({ e with concat := false } : Engine).encode U R s := by
  induction hs with
  | @word s ws hp hw hl hk =>
    by_cases h0 : ws = []
    · have := words_nil hw h0
      rw [bm_encode_blank U R o _ (built_concat h true) hany s this, bm_encode_blank U R o _ (built_concat h false) hany s this]
    · have h1 : ws.length = 1 := by
        have := List.length_pos_iff.mpr h0
        omega
      have kn := knows_guess (engineWF_of_built h hany) U R s
      rw [encode_eq, encode_eq]
      exact (one_text U R o e h hany s ws hp hw h1 hk _ kn _ true).trans
        (one_text U R o e h hany s ws hp hw h1 hk _ kn _ false).symm
  | @prefixed s p r hg hp _ _ ih1 ih2 =>
    obtain ⟨a, b, h1, h2, h3⟩ := bm_encode_prefix U R o _ (built_concat h true) hany s p r hg hp
    obtain ⟨a', b', h1', h2', h3'⟩ := bm_encode_prefix U R o _ (built_concat h false) hany s p r hg hp
    have ea := Except.ok.inj (h1.symm.trans (ih1.trans h1'))
    have eb := Except.ok.inj (h2.symm.trans (ih2.trans h2'))
    rw [ea, eb] at h3
    exact h3.trans h3'.symm

/-- C114. In particular for a name of one word: a generic name that does not begin with d'; an Ashkenazi name that is none of
the words dropped; a Sephardic name without apostrophe that is none of them. -/
theorem bm_concat_one_word (U : Unicode) (R : RegexEngine) (o : Origin) (e : Engine) (h : BuiltFrom U R o e)
    (hany : Offers o e.nameType c!"any") (s w : Str) (hw : w ≠ []) (hc : cleaned U s = w) (hs : ∀ c ∈ w, U.isWhitespace c = false)
    (hn : match e.nameType with
      | .generic => ¬ c!"d'" <+: w
      | .ashkenazi => w ∉ [c!"bar", c!"ben", c!"da", c!"de", c!"van", c!"von"]
      | .sephardic => '\'' ∉ w ∧ w ∉ [c!"al", c!"el", c!"da", c!"dal", c!"de", c!"del", c!"dela", c!"della", c!"des", c!"di", c!"do",
          c!"dos", c!"du", c!"van", c!"von"]) :
    ({ e with concat := true } : Engine).encode U R s = ({ e with concat := false } : Engine).encode U R s := by
  refine bm_concat_undivided U R o e h hany s ?_
  have hW : Words U (cleaned U s) [w] := by
    have := Words.word (U := U) (w := w) (s := []) (ws := []) hw hs (by simp) .nil
    rw [List.append_nil] at this
    rw [hc]
    exact this
  have hsp : ' ' ∉ w := fun hm => by
    have := hs ' ' hm
    rw [U.isWhitespace_ascii ' ' (by decide)] at this
    revert this; decide
  refine .word ?_ hW (by simp) ?_
  · intro hg p r hp
    rw [hg] at hn
    rw [hc] at hp
    rcases hp with ⟨-, hp⟩ | ⟨-, hp⟩
    · exact hn ⟨r, hp.symm⟩
    · exact hsp (by rw [hp]; simp)
  · cases hnt : e.nameType with
    | generic => rfl
    | ashkenazi =>
      rw [hnt] at hn
      unfold keptWords
      simp only
      rw [List.filter_cons_of_pos (by simpa using hn)]
      rfl
    | sephardic =>
      rw [hnt] at hn
      unfold keptWords
      have h1 : (w.reverse.takeWhile (· ≠ '\'')).reverse = w := by
        have : w.reverse.takeWhile (· ≠ '\'') = w.reverse := by
          have hr : '\'' ∉ w.reverse := fun h => hn.1 (List.mem_reverse.mp h)
          generalize w.reverse = v at hr
          induction v with
          | nil => rfl
          | cons c v ih =>
            have hne : c ≠ '\'' := fun e => hr (by simp [e])
            rw [List.takeWhile_cons_of_pos (by simpa using hne), ih fun h => hr (by simp [h])]
        rw [this, List.reverse_reverse]
      simp only [List.map_cons, List.map_nil, h1]
      have h2 : w ≠ c!"de la" := fun e => hsp (by rw [e]; decide)
      rw [List.filter_cons_of_pos]
      · rfl
      · have := hn.2
        simp only [List.mem_cons, List.not_mem_nil, or_false, not_or] at this
        simp [this, h2]

/-- C114. With `concat`, an Ashkenazi or Sephardic encoder drops prefixes: names whose other words are the same have the same code,
if the same languages are given, or guessed. -/
theorem bm_dropped_words (U : Unicode) (R : RegexEngine) (o : Origin) (e : Engine) (h : BuiltFrom U R o e)
    (hany : Offers o e.nameType c!"any") (hg : e.nameType ≠ .generic) (hcat : e.concat = true) (s t : Str) (ws ws' : List Str)
    (hs : Words U (cleaned U s) ws) (ht : Words U (cleaned U t) ws')
    (hk : keptWords e.nameType ws = keptWords e.nameType ws') :
    (∀ ls, (∀ l, ls = .someLanguages [l] → Offers o e.nameType l) →
      e.encodeWithLanguages U R s ls = e.encodeWithLanguages U R t ls) ∧
    (e.lang.guessLanguages U R s = e.lang.guessLanguages U R t → e.encode U R s = e.encode U R t) := by
  have he := engineWF_of_built h hany
  have key : ∀ ls, Knows e (languageOf ls) → ∀ rc rc', e.encodeWith U R rc s ls = e.encodeWith U R rc' t ls := by
    intro ls kn rc rc'
    rw [encodeWith_text U R e rc s ls he kn (fun h => absurd h hg) hs (.inl hcat),
      encodeWith_text U R e rc' t ls he kn (fun h => absurd h hg) ht (.inl hcat)]
    unfold nameText
    rw [hcat, hk]
    rfl
  refine ⟨fun ls hl => ?_, fun hgl => ?_⟩
  · rw [encodeWithLanguages_eq, encodeWithLanguages_eq]
    exact key ls (knows_given h hany hl) _ _
  · rw [encode_eq, encode_eq, hgl]
    exact key _ (by rw [← hgl]; exact knows_guess he U R s) _ _

/-- A generic name with a prefix that is not divided. -/
example : Undivided .latin1 .generic c!"De Ab" := by
  have key : ∀ w : Str, w ≠ [] → cleaned .latin1 w = w → (∀ c ∈ w, Unicode.latin1.isWhitespace c = false) → ¬ c!"d'" <+: w →
      Undivided .latin1 .generic w := by
    intro w hw hc hs hn
    refine .word (ws := [w]) ?_ ?_ (by simp) rfl
    · rintro - p r (⟨-, hp⟩ | ⟨-, hp⟩)
      · rw [hc] at hp; exact hn ⟨r, hp.symm⟩
      · rw [hc] at hp
        have := hs ' ' (by rw [hp]; simp)
        revert this; decide
    · rw [hc]
      have := Words.word (U := .latin1) (w := w) (s := []) (ws := []) hw hs (by simp) .nil
      rwa [List.append_nil] at this
  refine .prefixed (p := c!"de") (r := c!"ab") rfl (.inr ⟨by decide, by decide⟩) (key _ ?_ ?_ ?_ ?_) (key _ ?_ ?_ ?_ ?_) <;> decide

/-! Beside C114: names for which `concat` makes a difference, and names for which it does not. -/

/-- C114. The conditions are needed: a single word that is a prefix, or has an apostrophe, and two words. -/
theorem bm_concat_matters :
    SampleBM.code .sephardic .exact true 20 c!"al" ≠ SampleBM.code .sephardic .exact false 20 c!"al" ∧
    SampleBM.code .sephardic .exact true 20 c!"a'ab" ≠ SampleBM.code .sephardic .exact false 20 c!"a'ab" ∧
    SampleBM.code .generic .exact true 20 c!"ab bb" ≠ SampleBM.code .generic .exact false 20 c!"ab bb" ∧
    SampleBM.code .generic .exact true 20 c!"de ab" = SampleBM.code .generic .exact false 20 c!"de ab" ∧
    (SampleBM.code .generic .exact true 20 c!"de ab").isSome = true ∧
    SampleBM.code .sephardic .exact true 20 c!"de ab" = SampleBM.code .sephardic .exact true 20 c!"ab" ∧
    (SampleBM.code .sephardic .exact true 20 c!"ab").isSome = true := by decide +kernel

end Verif.Props
