import Verif.Spec.Settings
import Verif.Spec.Codes
import Verif.Props.CodesPhonex
import Verif.Props.CodesMetaphone
import Verif.Props.CodesDoubleMetaphone
import Verif.Props.Together
import Verif.Props.Nysiis
import Verif.Props.DoubleMetaphone
import Verif.Props.Phonex
import Verif.Props.Tables
/-!
# C112: different settings, different codes
-/
namespace Verif.Props
open Verif.Spec

namespace SettingsProofs

theorem within_inj {m n : Option Nat} (c : Char) (h : ∀ k, Within m (List.replicate k c) ↔ Within n (List.replicate k c)) :
    m = n := by
  cases m with
  | none =>
    cases n with
    | none => rfl
    | some n =>
      have := (h (n + 1)).mp (fun _ h => nomatch h) n rfl
      rw [List.length_replicate] at this
      omega
  | some m =>
    cases n with
    | none =>
      have := (h (m + 1)).mpr (fun _ h => nomatch h) m rfl
      rw [List.length_replicate] at this
      omega
    | some n =>
      have h1 := (h m).mp (fun k e => by injection e with e; simp [e]) n rfl
      have h2 := (h n).mpr (fun k e => by injection e with e; simp [e]) m rfl
      simp only [List.length_replicate] at h1 h2
      rw [Nat.le_antisymm h1 h2]

end SettingsProofs

open SettingsProofs DMProofs PhonexProofs

/-- C112. Two Metaphone encoders give every ASCII text the same code only if they have the same limit. -/
theorem metaphone_settings (U : Unicode) (m n : Option Nat) :
    (∀ s, AsciiStr s → (Metaphone.new m).encode U s = (Metaphone.new n).encode U s) ↔ m = n := by
  refine ⟨fun h => within_inj 'B' fun k => ?_, fun h s _ => by rw [h]⟩
  have hc : MetaphoneCode (List.replicate k 'B') := ⟨[], _, rfl, by simp, by simp, fun x hx => by
    rw [List.eq_of_mem_replicate hx]; decide⟩
  have key : ∀ m n : Option Nat, (∀ s, AsciiStr s → (Metaphone.new m).encode U s = (Metaphone.new n).encode U s) →
      Within m (List.replicate k 'B') → Within n (List.replicate k 'B') := by
    intro m n h hw
    obtain ⟨s, hs, hl, he⟩ := (metaphone_codes U m (List.replicate k 'B')).2.mpr ⟨hc, hw⟩
    rw [h s hs] at he
    exact ((metaphone_codes U n (List.replicate k 'B')).2.mp ⟨s, hs, hl, he⟩).2
  exact ⟨key m n h, key n m fun s hs => (h s hs).symm⟩

/-- C112. Two Double Metaphone encoders give every ASCII text the same primary code (or every text the same alternate code) only
if they have the same limit, or limits beyond `isize::MAX`, with which encoding always panics. -/
theorem double_metaphone_settings (U : Unicode) (m n : Option Nat) :
    ((∀ s, AsciiStr s → (DoubleMetaphone.new m).encode U s = (DoubleMetaphone.new n).encode U s) ↔
      m = n ∨ ¬ Allocatable m ∧ ¬ Allocatable n) ∧
    ((∀ s, AsciiStr s → (DoubleMetaphone.new m).encodeAlternate U s = (DoubleMetaphone.new n).encodeAlternate U s) ↔
      m = n ∨ ¬ Allocatable m ∧ ¬ Allocatable n) := by
  have pan : ∀ m, ¬ Allocatable m → ∀ s, (DoubleMetaphone.new m).encode U s = .error .capacity ∧
      (DoubleMetaphone.new m).encodeAlternate U s = .error .capacity := by
    intro m hm s
    have := doubleMetaphone_panics U m s hm
    exact ⟨by unfold DoubleMetaphone.encode; rw [this]; rfl, by unfold DoubleMetaphone.encodeAlternate; rw [this]; rfl⟩
  have hnil : AsciiStr [] := by intro c hc; cases hc
  refine ⟨⟨fun h => ?_, ?_⟩, ⟨fun h => ?_, ?_⟩⟩
  · by_cases hm : Allocatable m <;> by_cases hn : Allocatable n
    · left
      refine within_inj 'P' fun k => ?_
      have hc : PrimaryCode (List.replicate k 'P') := ⟨[], _, rfl, .inl rfl, fun x hx => by
        rw [List.eq_of_mem_replicate hx]; decide⟩
      constructor
      · intro hw
        obtain ⟨s, hs, he⟩ := (double_metaphone_codes U m hm _).1.mpr ⟨hc, hw⟩
        rw [h s hs] at he
        exact ((double_metaphone_codes U n hn _).1.mp ⟨s, hs, he⟩).2
      · intro hw
        obtain ⟨s, hs, he⟩ := (double_metaphone_codes U n hn _).1.mpr ⟨hc, hw⟩
        rw [← h s hs] at he
        exact ((double_metaphone_codes U m hm _).1.mp ⟨s, hs, he⟩).2
    · obtain ⟨r, -, h1, -⟩ := double_metaphone_ascii U m [] hnil hm
      have h2 := h [] hnil
      rw [h1, (pan n hn []).1] at h2
      cases h2
    · obtain ⟨r, -, h1, -⟩ := double_metaphone_ascii U n [] hnil hn
      have h2 := h [] hnil
      rw [h1, (pan m hm []).1] at h2
      cases h2
    · exact .inr ⟨hm, hn⟩
  · rintro (rfl | ⟨hm, hn⟩) s hs
    · rfl
    · rw [(pan m hm s).1, (pan n hn s).1]
  · by_cases hm : Allocatable m <;> by_cases hn : Allocatable n
    · left
      refine within_inj 'P' fun k => ?_
      have hc : AlternateCode (List.replicate k 'P') := ⟨[], List.replicate k 'P', [], by simp, .inl rfl, fun x hx => by
        rw [List.eq_of_mem_replicate hx]; decide, .inl rfl⟩
      constructor
      · intro hw
        obtain ⟨s, hs, he⟩ := (double_metaphone_codes U m hm _).2.mpr ⟨hc, hw⟩
        rw [h s hs] at he
        exact ((double_metaphone_codes U n hn _).2.mp ⟨s, hs, he⟩).2
      · intro hw
        obtain ⟨s, hs, he⟩ := (double_metaphone_codes U n hn _).2.mpr ⟨hc, hw⟩
        rw [← h s hs] at he
        exact ((double_metaphone_codes U m hm _).2.mp ⟨s, hs, he⟩).2
    · obtain ⟨r, -, -, h1⟩ := double_metaphone_ascii U m [] hnil hm
      have h2 := h [] hnil
      rw [h1, (pan n hn []).2] at h2
      cases h2
    · obtain ⟨r, -, -, h1⟩ := double_metaphone_ascii U n [] hnil hn
      have h2 := h [] hnil
      rw [h1, (pan m hm []).2] at h2
      cases h2
    · exact .inr ⟨hm, hn⟩
  · rintro (rfl | ⟨hm, hn⟩) s hs
    · rfl
    · rw [(pan m hm s).2, (pan n hn s).2]

/-- C112. Two Phonex encoders give every ASCII text the same code only if they have the same length, or lengths beyond
`isize::MAX`, with which encoding always panics. -/
theorem phonex_settings (U : Unicode) (m n : Nat) :
    (∀ s, AsciiStr s → (Phonex.new m).encode U s = (Phonex.new n).encode U s) ↔ m = n ∨ 2 ^ 63 ≤ m ∧ 2 ^ 63 ≤ n := by
  have pan : ∀ m, 2 ^ 63 ≤ m → ∀ s, (Phonex.new m).encode U s = .error .capacity := by
    intro max h s
    have hc : stringWithCapacity max = .error .capacity := by
      unfold stringWithCapacity isizeMax
      rw [if_neg (by omega)]
    unfold Phonex.encode
    rw [preprocess_eq]
    simp only [Phonex.new, hc, bind, Except.bind]
  have hnil : AsciiStr [] := by intro c hc; cases hc
  have len : ∀ m, m < 2 ^ 63 → ∃ code, (Phonex.new m).encode U [] = .ok code ∧ code.length = m := by
    intro m hm
    obtain ⟨code, h1, h2, -⟩ := phonex_length U m [] hnil hm (.inr (by decide))
    exact ⟨code, h1, h2⟩
  constructor
  · intro h
    have h0 := h [] hnil
    by_cases hm : m < 2 ^ 63 <;> by_cases hn : n < 2 ^ 63
    · obtain ⟨c, h1, h2⟩ := len m hm
      obtain ⟨d, h3, h4⟩ := len n hn
      rw [h1, h3] at h0
      injection h0 with h0
      subst h0
      exact .inl (h2.symm.trans h4)
    · obtain ⟨c, h1, h2⟩ := len m hm
      rw [h1, pan n (by omega)] at h0
      cases h0
    · obtain ⟨c, h1, h2⟩ := len n hn
      rw [h1, pan m (by omega)] at h0
      cases h0
    · exact .inr ⟨by omega, by omega⟩
  · rintro (rfl | ⟨hm, hn⟩) s hs
    · rfl
    · rw [pan m hm, pan n hn]

/-- C112. Strict and full NYSIIS are different encoders. -/
theorem nysiis_settings (U : Unicode) (a b : Bool) :
    (∀ s, AsciiStr s → (Nysiis.new a).encode U s = (Nysiis.new b).encode U s) ↔ a = b := by
  refine ⟨fun h => ?_, fun h s _ => by rw [h]⟩
  have hs : AsciiStr c!"Westerlund" := by decide
  have key : (Nysiis.new true).encode U c!"Westerlund" ≠ (Nysiis.new false).encode U c!"Westerlund" := by
    rw [(ascii_tables U .latin1 _ hs).2.2.2.2.2.1, (ascii_tables U .latin1 _ hs).2.2.2.2.2.1]
    decide +kernel
  have hh := h _ hs
  cases a <;> cases b
  · rfl
  · exact absurd hh.symm key
  · exact absurd hh key
  · rfl

/-- C112. Two Refined Soundex encoders give every ASCII text the same code only if they have the same mapping. -/
theorem refined_soundex_settings (U : Unicode) (m n : Mapping) :
    (∀ s, AsciiStr s → (RefinedSoundex.new m).encode U s = (RefinedSoundex.new n).encode U s) ↔ m = n := by
  refine ⟨fun h => ?_, fun h s _ => by rw [h]⟩
  apply Subtype.ext
  apply List.ext_getElem (by rw [m.2, n.2])
  intro i hi hj
  have hi' : i < 26 := by rw [m.2] at hi; exact hi
  have hletter : ∃ c : Char, AsciiStr [c] ∧ asciiLetters [c] = [c] ∧ c.toNat - 'A'.toNat = i := by
    refine ⟨capitals[i]'hi', ?_⟩
    revert hi'
    clear hi hj
    revert i
    decide +kernel
  obtain ⟨c, hc, hl, hx⟩ := hletter
  have := h [c] hc
  rw [refinedSoundex_ascii U _ _ hc, refinedSoundex_ascii U _ _ hc, hl] at this
  injection this with this
  have : codeOf m.val c = codeOf n.val c := by simpa [refinedSoundex, collapse, RefinedSoundex.new] using this
  unfold codeOf at this
  rw [hx] at this
  simpa [List.getD, List.getElem?_eq_getElem hi, List.getElem?_eq_getElem hj] using this

namespace SettingsProofs

open TogetherProofs

theorem heard_passed {t : Str} {hw : Bool} {c : Char} (h : PassedOver t hw c) (rest : Str) :
    heard t hw (c :: rest) = heard t hw rest := by
  unfold heard
  rcases h with h | ⟨rfl, rfl | rfl⟩
  · rw [List.filter_cons]
    split
    · rw [List.map_cons, List.filter_cons_of_neg (by simp [h])]
    · rfl
  · simp
  · simp

theorem heard_kept {t : Str} {hw : Bool} {c : Char} (h : ¬ PassedOver t hw c) (rest : Str) :
    heard t hw (c :: rest) = codeOf t c :: heard t hw rest :=
  heard_cons ⟨fun e => h (.inl e), fun e => ⟨fun e' => h (.inr ⟨e, .inl e'⟩), fun e' => h (.inr ⟨e, .inr e'⟩)⟩⟩ rest

theorem heard_code {t : Str} {hw : Bool} {c d : Char} (h : HeardAs t hw c d) (rest : Str) :
    heard t hw (c :: rest) = d :: heard t hw rest := by rw [heard_kept h.1, h.2.1]

theorem heard_ne {t : Str} {hw : Bool} {c d : Char} (h : HeardAs t hw c d) : d ≠ '0' ∧ d ≠ '-' :=
  ⟨h.2.2, fun e => h.1 (.inl (h.2.1.trans e))⟩

theorem heard_none {t : Str} {hw : Bool} {c : Char} (h : ¬ PassedOver t hw c) (h' : ∀ d, ¬ HeardAs t hw c d) : codeOf t c = '0' :=
  Classical.byContradiction fun hn => h' _ ⟨h, rfl, hn⟩

theorem digits_zero (p : Char) (l : Str) (hl : ∀ d ∈ l, d = '0') : ((collapse (p :: l)).drop 1).filter (· ≠ '0') = [] := by
  rw [List.filter_eq_nil_iff]
  intro d hd
  obtain ⟨u, hu⟩ := collapse_head p l
  have : ∀ (p : Char) (l : Str), (∀ d ∈ l, d = '0') → ∀ d ∈ (collapse (p :: l)).drop 1, d = '0' := by
    intro p l
    induction l generalizing p with
    | nil => intro _ d hd; simp [collapse] at hd
    | cons x l ih =>
      intro hl d hd
      rw [collapse_cons_cons] at hd
      split at hd
      · rename_i e
        exact ih _ (fun y hy => hl y (by simp [hy])) d hd
      · obtain ⟨v, hv⟩ := collapse_head x l
        have hx := hl x (by simp)
        have h2 := ih x (fun y hy => hl y (by simp [hy])) d
        rw [hv] at hd h2
        simp only [List.drop_succ_cons, List.drop_zero, List.mem_cons] at hd h2
        rcases hd with rfl | hd
        · exact hx
        · exact h2 hd
  simpa using this p l hl d hd

theorem digits_first (p q : Char) (l : Str) (h : ∀ x, l.head? = some x → x ≠ '0' → (x = p ↔ x = q)) :
    ((collapse (p :: l)).drop 1).filter (· ≠ '0') = ((collapse (q :: l)).drop 1).filter (· ≠ '0') := by
  cases l with
  | nil => simp [collapse]
  | cons x l =>
    rw [collapse_cons_cons, collapse_cons_cons]
    obtain ⟨v, hv⟩ := collapse_head x l
    have hx := h x rfl
    by_cases h0 : x = '0'
    · by_cases hp : p = x <;> by_cases hq : q = x <;> simp_all
    · have := hx h0
      by_cases hp : p = x <;> by_cases hq : q = x <;> simp_all

theorem three_one (d : Char) (h : d ≠ '0') : three [d] ≠ three [] := by
  intro e
  simp [three] at e
  exact h e

theorem three_two (d : Char) (h : d ≠ '0') : three [d, d] ≠ three [d] := by
  intro e
  simp [three] at e
  exact h e

theorem capital (c : Char) (hc : c ∈ capitals) : isAscii c = true ∧ isAsciiUpper c = true := by
  revert c
  decide +kernel

theorem letters_capitals : ∀ s : Str, (∀ c ∈ s, c ∈ capitals) → AsciiStr s ∧ asciiLetters s = s := by
  intro s hs
  refine ⟨fun c hc => (capital c (hs c hc)).1, ?_⟩
  have h1 : ∀ c ∈ capitals, asciiUpper c = c ∧ isAsciiAlpha c = true := by decide +kernel
  unfold asciiLetters
  induction s with
  | nil => rfl
  | cons c s ih =>
    have := h1 c (hs c (by simp))
    have ih := ih fun x hx => hs x (by simp [hx])
    simp_all

end SettingsProofs

/-- C112. Two Soundex encoders, with mappings that give some letter the code 0 or silence, give every ASCII text the same code
exactly if they hear the same digits, and, unless no letter is heard at all, pass over the same letters and suppress the same
digits after the first letter. -/
theorem soundex_settings (U : Unicode) (m n : Mapping) (hw hw' : Bool) (a : Char) (ha : a ∈ capitals)
    (h1 : codeOf m.val a = '0' ∨ codeOf m.val a = '-') (h2 : codeOf n.val a = '0' ∨ codeOf n.val a = '-') :
    (∀ s, AsciiStr s → (Soundex.new m hw).encode U s = (Soundex.new n hw').encode U s) ↔
      (∀ c ∈ capitals, ∀ d, HeardAs m.val hw c d ↔ HeardAs n.val hw' c d) ∧
      ∀ b ∈ capitals, ∀ d, HeardAs m.val hw b d →
        ∀ c ∈ capitals, (PassedOver m.val hw c ↔ PassedOver n.val hw' c) ∧ (codeOf m.val c = d ↔ codeOf n.val c = d) := by
  open SettingsProofs TogetherProofs in
  constructor
  · intro h
    have key : ∀ f rest, (∀ c ∈ f :: rest, c ∈ capitals) →
        three (soundexDigits m.val hw f rest) = three (soundexDigits n.val hw' f rest) := by
      intro f rest hc
      obtain ⟨e1, e2⟩ := letters_capitals _ hc
      have := h _ e1
      rw [soundex_ascii U _ _ e1, soundex_ascii U _ _ e1, e2] at this
      injection this with this
      simpa [soundex, Soundex.new] using this
    have one : ∀ (m : Mapping) (hw : Bool), (codeOf m.val a = '0' ∨ codeOf m.val a = '-') → ∀ c, 
        (∀ d, HeardAs m.val hw c d → soundexDigits m.val hw a [c] = [d]) ∧
        ((∀ d, ¬ HeardAs m.val hw c d) → soundexDigits m.val hw a [c] = []) := by
      intro m hw h1 c
      refine ⟨fun d hd => ?_, fun hn => ?_⟩
      · rw [digits_eq, heard_code hd]
        have := heard_ne hd
        have hne : codeOf m.val a ≠ d := by rcases h1 with h | h <;> rw [h] <;> first | exact this.1.symm | exact this.2.symm
        simp [heard, collapse, hne, this.1]
      · rw [digits_eq]
        apply digits_zero
        by_cases hp : PassedOver m.val hw c
        · rw [heard_passed hp]; simp [heard]
        · rw [heard_kept hp, heard_none hp hn]; simp [heard]
    have heq : ∀ c ∈ capitals, ∀ d, HeardAs m.val hw c d ↔ HeardAs n.val hw' c d := by
      intro c hc d
      have k := key a [c] (by simp [ha, hc])
      by_cases p : ∃ d, HeardAs m.val hw c d <;> by_cases q : ∃ d, HeardAs n.val hw' c d
      · obtain ⟨x, hx⟩ := p
        obtain ⟨y, hy⟩ := q
        rw [(one m hw h1 c).1 x hx, (one n hw' h2 c).1 y hy] at k
        have : x = y := by simpa [three] using k
        subst this
        exact ⟨fun h => by rw [← h.2.1, hx.2.1]; exact hy, fun h => by rw [← h.2.1, hy.2.1]; exact hx⟩
      · obtain ⟨x, hx⟩ := p
        rw [(one m hw h1 c).1 x hx, (one n hw' h2 c).2 fun d hd => q ⟨d, hd⟩] at k
        exact absurd k (three_one x hx.2.2)
      · obtain ⟨x, hx⟩ := q
        rw [(one n hw' h2 c).1 x hx, (one m hw h1 c).2 fun d hd => p ⟨d, hd⟩] at k
        exact absurd k.symm (three_one x hx.2.2)
      · exact ⟨fun h => absurd ⟨d, h⟩ p, fun h => absurd ⟨d, h⟩ q⟩
    refine ⟨heq, fun b hb d hd c hc => ?_⟩
    have hd' := (heq b hb d).mp hd
    have ne := heard_ne hd
    have two : ∀ (m : Mapping) (hw : Bool), (codeOf m.val a = '0' ∨ codeOf m.val a = '-') → HeardAs m.val hw b d →
        (PassedOver m.val hw c → soundexDigits m.val hw a [b, c, b] = [d]) ∧
        (¬ PassedOver m.val hw c → (∀ e, ¬ HeardAs m.val hw c e) → soundexDigits m.val hw a [b, c, b] = [d, d]) := by
      intro m hw h1 hd
      have hne : codeOf m.val a ≠ d := by rcases h1 with h | h <;> rw [h] <;> first | exact ne.1.symm | exact ne.2.symm
      refine ⟨fun hp => ?_, fun hp hn => ?_⟩
      · rw [digits_eq, heard_code hd, heard_passed hp, heard_code hd]
        simp [heard, collapse, hne, ne.1]
      · rw [digits_eq, heard_code hd, heard_kept hp, heard_none hp hn, heard_code hd]
        simp [heard, collapse, hne, ne.1, ne.1.symm]
    constructor
    · have k := key a [b, c, b] (by simp [ha, hb, hc])
      by_cases p : PassedOver m.val hw c <;> by_cases q : PassedOver n.val hw' c
      · exact ⟨fun _ => q, fun _ => p⟩
      · rw [(two m hw h1 hd).1 p, (two n hw' h2 hd').2 q fun e he => ((heq c hc e).mpr he).1 p] at k
        exact absurd k.symm (three_two d ne.1)
      · rw [(two n hw' h2 hd').1 q, (two m hw h1 hd).2 p fun e he => ((heq c hc e).mp he).1 q] at k
        exact absurd k (three_two d ne.1)
      · exact ⟨fun h => absurd h p, fun h => absurd h q⟩
    · have k := key c [b] (by simp [hb, hc])
      rw [digits_eq, digits_eq, heard_code hd, heard_code hd'] at k
      by_cases p : codeOf m.val c = d <;> by_cases q : codeOf n.val c = d
      · exact ⟨fun _ => q, fun _ => p⟩
      · have : three [d] = three [] := by simpa [heard, collapse, p, q, ne.1] using k.symm
        exact absurd this (three_one d ne.1)
      · have : three [d] = three [] := by simpa [heard, collapse, p, q, ne.1] using k
        exact absurd this (three_one d ne.1)
      · exact ⟨fun h => absurd h p, fun h => absurd h q⟩
  · rintro ⟨heq, hrest⟩ s hs
    rw [soundex_ascii U _ _ hs, soundex_ascii U _ _ hs]
    have hup : ∀ c ∈ asciiLetters s, c ∈ capitals := by
      intro c hc
      have := asciiLetters_upper c hc
      revert this
      have := isAscii_of_upper (asciiLetters_upper c hc)
      revert this
      revert c
      intro c _ h
      exact (by apply forall_ascii; decide +kernel : ∀ c, isAscii c = true → isAsciiUpper c = true → c ∈ capitals) c h
    generalize asciiLetters s = l at hup
    cases l with
    | nil => rfl
    | cons f rest =>
      show Except.ok (f :: three _) = Except.ok (f :: three _)
      congr 3
      show soundexDigits m.val hw f rest = soundexDigits n.val hw' f rest
      rw [digits_eq, digits_eq]
      by_cases hex : ∃ b ∈ capitals, ∃ d, HeardAs m.val hw b d
      · have hl : ∀ rest : Str, (∀ c ∈ rest, c ∈ capitals) → heard m.val hw rest = heard n.val hw' rest ∧
            ∀ x, (heard m.val hw rest).head? = some x → x ≠ '0' → ∃ b ∈ capitals, HeardAs m.val hw b x := by
          intro rest hr
          obtain ⟨b, hb, d, hd⟩ := hex
          induction rest with
          | nil => exact ⟨rfl, by simp [heard]⟩
          | cons c rest ih =>
            have ih := ih fun x hx => hr x (by simp [hx])
            have hc := hr c (by simp)
            have hp := (hrest b hb d hd c hc).1
            by_cases p : PassedOver m.val hw c
            · rw [heard_passed p, heard_passed (hp.mp p)]; exact ih
            · have q : ¬ PassedOver n.val hw' c := fun h => p (hp.mpr h)
              rw [heard_kept p, heard_kept q, ih.1]
              have : codeOf m.val c = codeOf n.val c := by
                by_cases h0 : codeOf m.val c = '0'
                · apply Classical.byContradiction
                  intro hne
                  have : HeardAs n.val hw' c (codeOf n.val c) := ⟨q, rfl, fun h => hne (h0.trans h.symm)⟩
                  exact hne ((heq c hc _).mpr this).2.1
                · exact (((heq c hc _).mp ⟨p, rfl, h0⟩).2.1).symm
              refine ⟨by rw [this], fun x hx hx0 => ?_⟩
              simp only [List.head?_cons, Option.some.injEq] at hx
              exact ⟨c, hc, p, hx, hx0⟩
        obtain ⟨e1, e2⟩ := hl rest fun x hx => hup x (by simp [hx])
        rw [← e1]
        apply digits_first
        intro x hx hx0
        obtain ⟨b, hb, hx'⟩ := e2 x hx hx0
        have := (hrest b hb x hx' f (hup f (by simp))).2
        exact ⟨fun h => (this.mp h.symm).symm, fun h => (this.mpr h.symm).symm⟩
      · have hz : ∀ (m : Mapping) (hw : Bool), (∀ b ∈ capitals, ∀ d, ¬ HeardAs m.val hw b d) →
            ∀ rest : Str, (∀ c ∈ rest, c ∈ capitals) → ∀ d ∈ heard m.val hw rest, d = '0' := by
          intro m hw hn rest hr
          induction rest with
          | nil => simp [heard]
          | cons c rest ih =>
            have ih := ih fun x hx => hr x (by simp [hx])
            have hc := hr c (by simp)
            by_cases p : PassedOver m.val hw c
            · rw [heard_passed p]; exact ih
            · rw [heard_kept p, heard_none p (hn c hc)]
              intro d hd
              rcases List.mem_cons.mp hd with h | h
              · exact h
              · exact ih d h
        have hr : ∀ c ∈ rest, c ∈ capitals := fun x hx => hup x (by simp [hx])
        rw [digits_zero _ _ (hz m hw (fun b hb d hd => hex ⟨b, hb, d, hd⟩) rest hr),
          digits_zero _ _ (hz n hw' (fun b hb d hd => hex ⟨b, hb, d, (heq b hb d).mpr hd⟩) rest hr)]

/-! Beside C112: cases of all kinds. -/

example : (Soundex.new defaultMapping true).encode .latin1 c!"Ashcraft" ≠ (Soundex.new defaultMapping false).encode .latin1 c!"Ashcraft" := by
  decide +kernel
example : (Metaphone.new (some 4)).encode .latin1 c!"Thompson" ≠ (Metaphone.new (some 3)).encode .latin1 c!"Thompson" := by decide +kernel

/-- C112. Different Soundex settings that give every ASCII text the same code: H and W are passed over anyhow, so that their code
counts at the beginning of a name only, where 0 and silence do not differ. -/
theorem soundex_settings_alike (U : Unicode) :
    ∃ m n : Mapping, m ≠ n ∧ ∀ s, AsciiStr s → (Soundex.new m true).encode U s = (Soundex.new n true).encode U s := by
  refine ⟨defaultMapping, ⟨c!"0123012-022455012623010202", rfl⟩, by decide, ?_⟩
  refine (soundex_settings U _ _ _ _ 'A' (by decide) (.inl (by decide)) (.inl (by decide))).mpr ⟨?_, ?_⟩
  · have : ∀ c ∈ capitals, PassedOver defaultMapping.val true c ∧ PassedOver c!"0123012-022455012623010202" true c ∨
        ¬ PassedOver defaultMapping.val true c ∧ ¬ PassedOver c!"0123012-022455012623010202" true c ∧
        codeOf defaultMapping.val c = codeOf c!"0123012-022455012623010202" c := by
      unfold PassedOver; decide +kernel
    intro c hc d
    rcases this c hc with ⟨h1, h2⟩ | ⟨h1, h2, h3⟩
    · exact ⟨fun h => absurd h1 h.1, fun h => absurd h2 h.1⟩
    · unfold HeardAs
      simp only [h3]
      exact ⟨fun h => ⟨h2, h.2⟩, fun h => ⟨h1, h.2⟩⟩
  · intro b hb d hd c hc
    have h0 : d ≠ '0' ∧ d ≠ '-' := SettingsProofs.heard_ne hd
    have : ∀ c ∈ capitals, (PassedOver defaultMapping.val true c ↔ PassedOver c!"0123012-022455012623010202" true c) ∧
        (codeOf defaultMapping.val c = codeOf c!"0123012-022455012623010202" c ∨
          codeOf defaultMapping.val c = '0' ∧ codeOf c!"0123012-022455012623010202" c = '-') := by
      unfold PassedOver; decide +kernel
    refine ⟨(this c hc).1, ?_⟩
    rcases (this c hc).2 with h | ⟨h, h'⟩
    · rw [h]
    · simp only [h, h']
      exact ⟨fun e => absurd e.symm h0.1, fun e => absurd e.symm h0.2⟩

end Verif.Props
