import Verif.Proofs.DoubleMetaphoneSpec
/-!
# Double Metaphone on texts beyond ASCII

Such a text is compared with its *shadow*, the ASCII text where each byte of a letter beyond ASCII is replaced by NUL.
-/

set_option linter.unusedSimpArgs false
set_option linter.unusedSectionVars false
set_option linter.unusedVariables false

namespace Verif
namespace DMProofs
open DoubleMetaphone Spec.DM

/-! ## Shadows -/

/-- Letters beyond ASCII are not distinguished. -/
def dull (c : Char) : Char := if isAscii c then c else '\x00'

/-- The shadow of a text. -/
def shadow (text : Str) : Str := (padded text).map dull

theorem padded_append (x y : Str) : padded (x ++ y) = padded x ++ padded y := by simp [padded]
theorem shadow_append (x y : Str) : shadow (x ++ y) = shadow x ++ shadow y := by simp [shadow, padded_append]

theorem dull_ascii (c : Char) : isAscii (dull c) = true := by
  unfold dull; split
  · assumption
  · rfl

theorem shadow_ascii (t : Str) : AsciiStr (shadow t) := by
  intro c hc
  obtain ⟨x, -, rfl⟩ := List.mem_map.mp hc
  exact dull_ascii x

theorem utf8Size_ascii {c : Char} (h : isAscii c = true) : c.utf8Size = 1 := by
  have := byteLen_ascii (s := [c]) (fun x hx => by simp only [List.mem_singleton] at hx; rw [hx]; exact h)
  simpa [byteLen] using this

theorem padded_length (t : Str) : (padded t).length = byteLen t := by
  induction t with
  | nil => rfl
  | cons c t ih =>
    have := Char.utf8Size_pos c
    rw [show c :: t = [c] ++ t from rfl, padded_append, List.length_append, ih]
    simp only [padded, List.flatMap_cons, List.flatMap_nil, List.append_nil, List.length_cons, List.length_replicate,
      byteLen, List.singleton_append]
    omega

theorem shadow_length (t : Str) : (shadow t).length = byteLen t := by rw [shadow, List.length_map, padded_length]

theorem shadow_byteLen (t : Str) : byteLen (shadow t) = byteLen t := by
  rw [byteLen_ascii (shadow_ascii t), shadow_length]

theorem padded_of_ascii {t : Str} (h : AsciiStr t) : padded t = t := by
  induction t with
  | nil => rfl
  | cons c t ih =>
    rw [show c :: t = [c] ++ t from rfl, padded_append, ih (fun x hx => h x (by simp [hx]))]
    simp [padded, utf8Size_ascii (h c (by simp))]

theorem shadow_of_ascii {t : Str} (h : AsciiStr t) : shadow t = t := by
  rw [shadow, padded_of_ascii h]
  have : t.map dull = t.map id := List.map_congr_left (fun c hc => by simp [dull, h c hc])
  rw [this, List.map_id]

theorem shadow_head (c : Char) (t : Str) : ∃ r, shadow (c :: t) = dull c :: r ∧ padded (c :: t) = c :: (padded (c :: t)).tail := by
  refine ⟨((padded (c :: t)).tail).map dull, ?_, ?_⟩ <;> simp [shadow, padded]

/-- ASCII without NUL. -/
def goodChar (c : Char) : Bool := isAscii c && c != '\x00'

theorem dull_eq_good {c x : Char} (hx : goodChar x = true) : dull c = x ↔ c = x := by
  simp only [goodChar, Bool.and_eq_true, bne_iff_ne, ne_eq] at hx
  unfold dull
  split
  · rfl
  · next h =>
    constructor
    · rintro rfl; exact absurd rfl hx.2
    · rintro rfl; exact absurd hx.1 h

theorem shadow_eq_good {t x : Str} (hx : x.all goodChar = true) : shadow t = x ↔ t = x := by
  have hA : AsciiStr x := fun c hc => by
    have := List.all_eq_true.mp hx c hc
    simp only [goodChar, Bool.and_eq_true] at this
    exact this.1
  constructor
  · intro h
    have : AsciiStr t := by
      intro c hc
      have hm : dull c ∈ shadow t := by
        apply List.mem_map_of_mem
        exact List.mem_flatMap.mpr ⟨c, hc, by simp⟩
      rw [h] at hm
      have hg := List.all_eq_true.mp hx _ hm
      by_cases ha : isAscii c = true
      · exact ha
      · simp [goodChar, dull, ha] at hg
    rw [← h, shadow_of_ascii this]
  · rintro rfl; exact shadow_of_ascii hA

/-! ## What happens on a text happens on its shadow -/

/-- Whatever the first computation returns, the second returns. -/
def Sim {α : Type} (x y : Res α) : Prop := ∀ r, x = .ok r → y = .ok r

theorem sim_refl {α : Type} (x : Res α) : Sim x x := fun _ h => h

theorem sim_bind {α β : Type} {x y : Res α} {f g : α → Res β} (h : Sim x y) (hf : ∀ a, Sim (f a) (g a)) :
    Sim (x >>= f) (y >>= g) := by
  intro r hr
  cases x with
  | error e => cases hr
  | ok a => rw [h a rfl]; exact hf a r hr

theorem sim_ite {α : Type} {p q : Prop} [Decidable p] [Decidable q] {x y x' y' : Res α} (hpq : p ↔ q) (h : Sim x x')
    (h' : Sim y y') : Sim (if p then x else y) (if q then x' else y') := by
  by_cases hp : p
  · rw [if_pos hp, if_pos (hpq.mp hp)]; exact h
  · rw [if_neg hp, if_neg (fun hq => hp (hpq.mpr hq))]; exact h'

theorem sim_orR {a b a' b' : Res Bool} (h : Sim a a') (h' : Sim b b') : Sim (a |? b) (a' |? b') :=
  sim_bind h fun _ => sim_ite Iff.rfl (sim_refl _) h'
theorem sim_andR {a b a' b' : Res Bool} (h : Sim a a') (h' : Sim b b') : Sim (a &? b) (a' &? b') :=
  sim_bind h fun _ => sim_ite Iff.rfl h' (sim_refl _)
theorem sim_notR {a a' : Res Bool} (h : Sim a a') : Sim (!? a) (!? a') := sim_bind h fun _ => sim_refl _
theorem sim_okR {p q : Prop} [Decidable p] [Decidable q] (h : p ↔ q) : Sim (okR p) (okR q) := by
  intro r hr
  unfold okR at hr ⊢
  rw [← hr]
  congr 1
  exact decide_eq_decide.mpr h.symm

theorem sim_slice {v t : Str} {i j : Nat} (h : slice v i j = .ok t) : slice (shadow v) i j = .ok (shadow t) := by
  unfold slice at h ⊢
  by_cases hij : i ≤ j
  · rw [if_pos hij] at h ⊢
    cases h1 : splitAtByte i v with
    | none => rw [h1] at h; cases h
    | some p =>
      obtain ⟨x, r⟩ := p
      rw [h1] at h
      simp only [sliceTo] at h
      obtain ⟨e1, l1⟩ := splitAtByte_eq_some_iff.mp h1
      cases h2 : splitAtByte (j - i) r with
      | none => rw [h2] at h; cases h
      | some q =>
        obtain ⟨y, z⟩ := q
        rw [h2] at h
        injection h with h
        obtain ⟨e2, l2⟩ := splitAtByte_eq_some_iff.mp h2
        subst h
        have s1 : splitAtByte i (shadow v) = some (shadow x, shadow r) :=
          splitAtByte_eq_some_iff.mpr ⟨by rw [e1, shadow_append], by rw [shadow_byteLen]; exact l1⟩
        have s2 : splitAtByte (j - i) (shadow r) = some (shadow y, shadow z) :=
          splitAtByte_eq_some_iff.mpr ⟨by rw [e2, shadow_append], by rw [shadow_byteLen]; exact l2⟩
        rw [s1]
        simp only [sliceTo]
        rw [s2]
  · rw [if_neg hij] at h; cases h

theorem sim_contains (v : Str) (i : Int) (n : Nat) (crit : List Str) (hc : (crit.all fun x => x.all goodChar) = true) :
    Sim (contains v i n crit) (contains (shadow v) i n crit) := by
  intro r h
  unfold contains at h ⊢
  by_cases h1 : i < 0
  · rw [if_pos h1] at h ⊢; exact h
  rw [if_neg h1] at h ⊢
  rw [shadow_byteLen]
  by_cases h2 : i.toNat + n ≤ byteLen v
  · rw [if_pos h2] at h ⊢
    cases hs : slice v i.toNat (i.toNat + n) with
    | error e => rw [hs] at h; cases h
    | ok t =>
      rw [hs] at h
      rw [sim_slice hs]
      simp only [bind, Except.bind, pure, Except.pure] at h ⊢
      rw [← h]
      congr 1
      rw [Bool.eq_iff_iff]
      simp only [List.contains_eq_mem, decide_eq_true_eq]
      have all := List.all_eq_true.mp hc
      constructor
      · intro hm
        have := all _ hm
        rw [(shadow_eq_good this).mp rfl]; exact hm
      · intro hm
        have := all _ hm
        rw [(shadow_eq_good this).mpr rfl]; exact hm
  · rw [if_neg h2] at h ⊢; exact h

theorem sim_charAt {v : Str} {i : Int} {o : Option Char} (h : charAt v i = .ok o) :
    charAt (shadow v) i = .ok (o.map dull) := by
  unfold charAt at h ⊢
  rw [shadow_byteLen]
  by_cases h1 : i ≥ 0 ∧ i.toNat < byteLen v
  · rw [if_pos h1] at h ⊢
    unfold sliceFrom at h ⊢
    cases hs : splitAtByte i.toNat v with
    | none => rw [hs] at h; cases h
    | some p =>
      obtain ⟨x, r⟩ := p
      rw [hs] at h
      obtain ⟨e1, l1⟩ := splitAtByte_eq_some_iff.mp hs
      have s1 : splitAtByte i.toNat (shadow v) = some (shadow x, shadow r) :=
        splitAtByte_eq_some_iff.mpr ⟨by rw [e1, shadow_append], by rw [shadow_byteLen]; exact l1⟩
      rw [s1]
      simp only [bind, Except.bind, pure, Except.pure, Except.ok.injEq] at h ⊢
      subst h
      cases r with
      | nil => rfl
      | cons c r =>
        obtain ⟨q, hq, -⟩ := shadow_head c r
        rw [hq]; rfl
  · rw [if_neg h1] at h ⊢
    injection h with h
    subst h; rfl

theorem sim_isAt (v : Str) (i : Int) (ch : Char) (hc : goodChar ch = true) : Sim (isAt v i ch) (isAt (shadow v) i ch) := by
  intro r h
  unfold isAt at h ⊢
  cases hs : charAt v i with
  | error e => rw [hs] at h; cases h
  | ok o =>
    rw [hs] at h
    rw [sim_charAt hs]
    simp only [bind, Except.bind, pure, Except.pure] at h ⊢
    rw [← h]
    congr 1
    cases o with
    | none => rfl
    | some c =>
      rw [Bool.eq_iff_iff]
      simp only [Option.map_some, beq_iff_eq, Option.some.injEq]
      exact dull_eq_good hc

theorem vowel_dull (c : Char) : isVowel (some (asciiLower (dull c))) true = isVowel (some (asciiLower c)) true := by
  by_cases h : isAscii c = true
  · simp [dull, h]
  · have hd : dull c = '\x00' := by simp [dull, h]
    rw [hd]
    have e : isVowel (some (asciiLower '\x00')) true = false := by decide
    rw [e]
    symm
    rw [Bool.eq_false_iff]
    intro hv
    have hl : isAscii (asciiLower c) = true := by
      simp only [isVowel, Bool.or_eq_true, Bool.and_eq_true, beq_iff_eq, true_and] at hv
      rcases hv with (((((hv | hv) | hv) | hv) | hv) | hv) <;> rw [hv] <;> rfl
    apply h
    have : asciiLower c = c := by
      unfold asciiLower
      rw [if_neg]
      intro hu
      apply h
      simp only [isAsciiUpper, isAscii, Bool.and_eq_true, decide_eq_true_eq] at hu ⊢
      omega
    rw [← this]; exact hl

theorem sim_vowelAt (v : Str) (i : Int) : Sim (vowelAt v i) (vowelAt (shadow v) i) := by
  intro r h
  unfold vowelAt at h ⊢
  cases hs : charAt v i with
  | error e => rw [hs] at h; cases h
  | ok o =>
    rw [hs] at h
    rw [sim_charAt hs]
    simp only [bind, Except.bind, pure, Except.pure] at h ⊢
    rw [← h]
    congr 1
    cases o with
    | none => rfl
    | some c => exact vowel_dull c

theorem shadow_ne (v : Str) : v ≠ [] ↔ shadow v ≠ [] := by
  rw [ne_eq, ne_eq, ← List.length_eq_zero_iff (l := shadow v), shadow_length]
  constructor
  · intro h h0
    have := byteLen_pos h
    omega
  · rintro h rfl; exact h rfl

/-- Compares a computation on a text with the same on its shadow. -/
macro "dm_sim" : tactic => `(tactic| repeat' first
  | assumption
  | exact sim_refl _
  | exact sim_contains _ _ _ _ (by decide)
  | exact sim_isAt _ _ _ (by decide)
  | exact sim_vowelAt _ _
  | exact sim_okR Iff.rfl
  | exact sim_okR (by rw [shadow_byteLen])
  | exact sim_okR (shadow_ne _)
  | refine sim_orR ?_ ?_
  | refine sim_andR ?_ ?_
  | refine sim_notR ?_
  | refine sim_ite Iff.rfl ?_ ?_
  | refine sim_bind ?_ fun _ => ?_)

section
variable (v : Str) (i : Int) (sg : Bool)

theorem conditionC0_sim : Sim (conditionC0 v i) (conditionC0 (shadow v) i) := by
  unfold conditionC0
  refine sim_bind (by dm_sim) fun _ => sim_ite Iff.rfl (sim_refl _) (sim_ite Iff.rfl (sim_refl _) ?_)
  refine sim_bind (by dm_sim) fun _ => sim_ite Iff.rfl (sim_refl _) ?_
  refine sim_bind (by dm_sim) fun _ => sim_ite Iff.rfl (sim_refl _) ?_
  intro r h
  cases hs : charAt v (i + 2) with
  | error e => rw [hs] at h; cases h
  | ok o =>
    rw [hs] at h
    rw [sim_charAt hs]
    simp only [bind_ok] at h ⊢
    revert h
    refine (sim_ite Iff.rfl (sim_refl _) (sim_orR (sim_okR ?_) (by dm_sim))) r
    cases o with
    | none => simp
    | some c =>
      simp only [Option.map_some, ne_eq, Option.some.injEq]
      rw [dull_eq_good (by decide), dull_eq_good (by decide)]

theorem conditionCh0_sim : Sim (conditionCh0 v i) (conditionCh0 (shadow v) i) := by
  unfold conditionCh0; dm_sim
theorem conditionCh1_sim : Sim (conditionCh1 v i) (conditionCh1 (shadow v) i) := by
  unfold conditionCh1; rw [shadow_byteLen]; dm_sim
theorem handleCh_sim : Sim (handleCh v i) (handleCh (shadow v) i) := by
  have h0 := conditionCh0_sim v i
  have h1 := conditionCh1_sim v i
  unfold handleCh; dm_sim
theorem handleCc_sim : Sim (handleCc v i) (handleCc (shadow v) i) := by
  unfold handleCc; dm_sim
theorem handleC_sim : Sim (handleC v i) (handleC (shadow v) i) := by
  have h0 := conditionC0_sim v i
  have h1 := handleCh_sim v i
  have h2 := handleCc_sim v i
  unfold handleC; dm_sim
theorem handleD_sim : Sim (handleD v i) (handleD (shadow v) i) := by
  unfold handleD; dm_sim
theorem handleGh_sim : Sim (handleGh v i) (handleGh (shadow v) i) := by
  unfold handleGh; dm_sim
theorem handleG_sim : Sim (handleG v i sg) (handleG (shadow v) i sg) := by
  have h0 := handleGh_sim v i
  unfold handleG conditionG0; dm_sim
theorem handleH_sim : Sim (handleH v i) (handleH (shadow v) i) := by
  unfold handleH; dm_sim
theorem handleJ_sim : Sim (handleJ v i sg) (handleJ (shadow v) i sg) := by
  unfold handleJ handleJ'; rw [shadow_byteLen]; dm_sim
theorem handleL_sim : Sim (handleL v i) (handleL (shadow v) i) := by
  unfold handleL conditionL0; rw [shadow_byteLen]; dm_sim
theorem conditionM0_sim : Sim (conditionM0 v i) (conditionM0 (shadow v) i) := by
  unfold conditionM0; rw [shadow_byteLen]; dm_sim
theorem handleP_sim : Sim (handleP v i) (handleP (shadow v) i) := by
  unfold handleP; dm_sim
theorem handleR_sim : Sim (handleR v i sg) (handleR (shadow v) i sg) := by
  unfold handleR handleR'; rw [shadow_byteLen]; dm_sim
theorem handleSc_sim : Sim (handleSc v i) (handleSc (shadow v) i) := by
  unfold handleSc; dm_sim
theorem handleS_sim : Sim (handleS v i sg) (handleS (shadow v) i sg) := by
  have h0 := handleSc_sim v i
  unfold handleS handleS'; rw [shadow_byteLen]; dm_sim
theorem handleT_sim : Sim (handleT v i) (handleT (shadow v) i) := by
  unfold handleT; dm_sim
theorem handleW_sim : Sim (handleW v i) (handleW (shadow v) i) := by
  unfold handleW; rw [shadow_byteLen]; dm_sim
theorem handleX_sim : Sim (handleX v i) (handleX (shadow v) i) := by
  unfold handleX handleX'; rw [shadow_byteLen]; dm_sim
theorem handleZ_sim : Sim (handleZ v i sg) (handleZ (shadow v) i sg) := by
  unfold handleZ handleZ'; dm_sim
theorem simple_sim (ch code : Char) (h : goodChar ch = true) : Sim (simple v i ch code) (simple (shadow v) i ch code) := by
  unfold simple
  exact sim_bind (sim_isAt _ _ _ h) fun _ => sim_refl _

theorem handle_sim (c : Char) : Sim (handle v sg i c) (handle (shadow v) sg i c) := by
  unfold handle
  split
  all_goals first
    | exact sim_refl _
    | exact simple_sim _ _ _ _ (by decide)
    | exact handleC_sim _ _
    | exact handleD_sim _ _
    | exact handleG_sim _ _ _
    | exact handleH_sim _ _
    | exact handleJ_sim _ _ _
    | exact handleL_sim _ _
    | exact sim_bind (conditionM0_sim _ _) fun _ => sim_refl _
    | exact handleP_sim _ _
    | exact handleR_sim _ _ _
    | exact handleS_sim _ _ _
    | exact handleT_sim _ _
    | exact handleW_sim _ _
    | exact handleX_sim _ _
    | exact handleZ_sim _ _ _

end

/-! ## The letters covered by a sound are not placeholders -/

/-- The covered letters are not NUL. -/
def Clear (a : Str) (s : Sound) : Prop :=
  (1 ≤ s.covered → a[0]? ≠ some '\x00') ∧ (2 ≤ s.covered → a[1]? ≠ some '\x00') ∧
    (3 ≤ s.covered → a[2]? ≠ some '\x00') ∧ s.covered ≤ 3

theorem clear_ite {a : Str} {p : Prop} [Decidable p] {x y : Sound} (h1 : p → Clear a x) (h2 : ¬ p → Clear a y) :
    Clear a (if p then x else y) := ite_ind (Clear a) h1 h2

/-- The characters become variables. -/
macro "dm_clear" w:ident b:ident a:ident : tactic => `(tactic| (
  generalize (List.reverse $b)[0]? = r0 at *
  generalize (List.reverse $b)[1]? = r1 at *
  generalize (List.reverse $b)[2]? = r2 at *
  generalize (List.reverse $b)[3]? = r3 at *
  generalize ($a)[0]? = a0 at *
  generalize ($a)[1]? = a1 at *
  generalize ($a)[2]? = a2 at *
  generalize ($a)[3]? = a3 at *
  generalize ($a)[4]? = a4 at *
  generalize ($w)[0]? = w0 at *
  generalize ($w)[1]? = w1 at *
  generalize ($w)[2]? = w2 at *
  generalize ($w)[3]? = w3 at *
  generalize ($w)[4]? = w4 at *
  generalize ($w)[5]? = w5 at *
  grind (splits := 60) -verbose only))

section
variable (w b a : Str)
include w b a

theorem clear_D : Clear a (soundD a) := by
  unfold soundD Clear; dm_atoms []; dm_clear w b a
theorem clear_H : Clear a (soundH b a) := by
  unfold soundH Clear vowel; dm_atoms [List.head?_eq_getElem?]; dm_clear w b a
theorem clear_P : Clear a (soundP a) := by
  unfold soundP Clear; dm_atoms []; dm_clear w b a
theorem clear_T : Clear a (soundT w a) := by
  unfold soundT Clear; dm_atoms []; dm_clear w b a
theorem clear_GH (h : a[0]? = some 'H') : Clear a (soundGH b a) := by
  unfold soundGH Clear vowel; dm_atoms []; dm_clear w b a
theorem clear_G : Clear a (soundG w b a) := by
  have hgh : a[0]? = some 'H' → _ := clear_GH w b a
  unfold soundG Clear
  unfold Clear at hgh
  generalize soundGH b a = m at *
  generalize slavoGermanic w = sg at *
  dm_atoms []; dm_clear w b a
theorem clear_CH (h : a[0]? = some 'H') : Clear a (soundCH w b a) := by
  unfold soundCH
  refine clear_ite (fun _ => ?_) fun _ => ?_
  · simp [Clear, h]
  refine clear_ite (fun _ => ?_) fun _ => ?_
  · simp [Clear, h, same]
  refine clear_ite (fun _ => ?_) fun _ => ?_
  · simp [Clear, h, same]
  refine clear_ite (fun _ => ?_) fun _ => ?_
  · simp [Clear, h, same]
  refine clear_ite (fun _ => ?_) fun _ => ?_
  · simp [Clear, h, same]
  refine clear_ite (fun _ => ?_) fun _ => ?_
  · simp [Clear, h, same]
  refine clear_ite (fun _ => ?_) fun _ => ?_
  · simp [Clear, h, same]
  refine clear_ite (fun _ => ?_) fun _ => ?_
  · simp [Clear, h, same]
  · simp [Clear, h, same]
theorem clear_CC (h : a[0]? = some 'C') : Clear a (soundCC b a) := by
  unfold soundCC Clear; dm_atoms []; dm_clear w b a
theorem clear_C : Clear a (soundC w b a) := by
  have h1 := clear_CH w b a
  have h2 := clear_CC w b a
  unfold soundC Clear vowel
  unfold Clear at h1 h2
  generalize soundCH w b a = m1 at *
  generalize soundCC b a = m2 at *
  dm_atoms []; dm_clear w b a
theorem clear_J : Clear a (soundJ w b a) := by
  unfold soundJ Clear vowel
  generalize slavoGermanic w = sg at *
  dm_atoms []; dm_clear w b a
theorem clear_L : Clear a (soundL w b a) := by
  unfold soundL Clear; dm_atoms []; dm_clear w b a
theorem clear_M : Clear a (soundM b a) := by
  unfold soundM Clear; dm_atoms [only_after a]; dm_clear w b a
theorem clear_R : Clear a (soundR w b a) := by
  unfold soundR Clear
  generalize slavoGermanic w = sg at *
  dm_atoms []; dm_clear w b a
theorem clear_S (h : a[0]? ≠ some 'C') : Clear a (soundS w b a) := by
  unfold soundS Clear
  generalize slavoGermanic w = sg at *
  generalize soundSC b a = m2 at *
  dm_atoms []; dm_clear w b a
theorem covered_S (h : a[0]? = some 'C') : (soundS w b a).covered ≤ 2 := by
  have h1 : (soundSC b a).covered ≤ 2 := by
    unfold soundSC
    dm_atoms []; dm_clear w b a
  unfold soundS
  generalize slavoGermanic w = sg at *
  generalize soundSC b a = m2 at *
  dm_atoms []; dm_clear w b a
theorem clear_W : Clear a (soundW w b a) := by
  unfold soundW Clear vowel; dm_atoms [List.head?_eq_getElem?]; dm_clear w b a
theorem clear_X : Clear a (soundX b a) := by
  unfold soundX Clear; dm_atoms []; dm_clear w b a
theorem clear_Z : Clear a (soundZ w b a) := by
  unfold soundZ Clear
  generalize slavoGermanic w = sg at *
  dm_atoms []; dm_clear w b a
theorem clear_simple (c : Char) (code : Str) (h : c ≠ '\x00') : Clear a (soundSimple a c code) := by
  unfold soundSimple Clear; dm_atoms []; dm_clear w b a
theorem clear_vowel : Clear a (if b.isEmpty then same ['A'] 0 else silent 0) := by
  refine clear_ite (fun _ => ?_) fun _ => ?_ <;> simp [Clear, same, silent]

end

/-! ## Sounds do not depend on which letter beyond ASCII is at a place -/

theorem pre_map {x : Str} (hx : x.all goodChar = true) (t : Str) : x.isPrefixOf (t.map dull) = x.isPrefixOf t := by
  induction x generalizing t with
  | nil => simp
  | cons c x ih =>
    simp only [List.all_cons, Bool.and_eq_true] at hx
    cases t with
    | nil => rfl
    | cons d t =>
      simp only [List.map_cons, List.isPrefixOf, ih hx.2]
      congr 1
      rw [Bool.eq_iff_iff]
      simp only [beq_iff_eq]
      rw [eq_comm (a := c), dull_eq_good hx.1, eq_comm]

theorem suf_map {x : Str} (hx : x.all goodChar = true) (t : Str) : x.isSuffixOf (t.map dull) = x.isSuffixOf t := by
  unfold List.isSuffixOf
  rw [← List.map_reverse]
  exact pre_map (by rw [List.all_reverse]; exact hx) _

theorem starts_map {ws : List Str} (h : (ws.all fun x => x.all goodChar) = true) (t : Str) :
    starts (t.map dull) ws = starts t ws := by
  unfold starts
  induction ws with
  | nil => rfl
  | cons x ws ih =>
    simp only [List.all_cons, Bool.and_eq_true] at h
    simp only [List.any_cons, pre_map h.1, ih h.2]

theorem ends_map {ws : List Str} (h : (ws.all fun x => x.all goodChar) = true) (t : Str) :
    ends (t.map dull) ws = ends t ws := by
  unfold ends
  induction ws with
  | nil => rfl
  | cons x ws ih =>
    simp only [List.all_cons, Bool.and_eq_true] at h
    simp only [List.any_cons, suf_map h.1, ih h.2]

theorem around_map {ps : List (Str × Str)} (h : (ps.all fun p => p.1.all goodChar && p.2.all goodChar) = true) (t u : Str) :
    around (t.map dull) (u.map dull) ps = around t u ps := by
  unfold around
  induction ps with
  | nil => rfl
  | cons p ps ih =>
    simp only [List.all_cons, Bool.and_eq_true] at h
    simp only [List.any_cons, pre_map h.1.2, suf_map h.1.1, ih h.2]

theorem among_map {l : Str} (h : l.all goodChar = true) (o : Option Char) : among l (o.map dull) = among l o := by
  cases o with
  | none => rfl
  | some c =>
    simp only [Option.map_some, among]
    rw [Bool.eq_iff_iff]
    simp only [List.contains_eq_mem, decide_eq_true_eq]
    have all := List.all_eq_true.mp h
    constructor
    · intro hm
      rw [(dull_eq_good (all _ hm)).mp rfl]; exact hm
    · intro hm
      rw [(dull_eq_good (all _ hm)).mpr rfl]; exact hm

theorem vowel_map (o : Option Char) : vowel (o.map dull) = vowel o := among_map (by decide) o

theorem back_map (b : Str) (n : Nat) : back (b.map dull) n = (back b n).map dull := by
  unfold back
  rw [← List.map_reverse, List.getElem?_map]

theorem empty_map (b : Str) : (b.map dull).isEmpty = b.isEmpty := by cases b <;> rfl

theorem only_map {x : Char} (h : goodChar x = true) (b : Str) : (b.map dull == [x]) = (b == [x]) := by
  rcases b with _ | ⟨c, _ | ⟨d, b⟩⟩
  · rfl
  · rw [Bool.eq_iff_iff]
    simp only [List.map_cons, List.map_nil, beq_iff_eq, List.cons.injEq, and_true]
    exact dull_eq_good h
  · rw [Bool.eq_iff_iff]
    simp

theorem only_map' {x : Char} (h : goodChar x = true) (b : Str) : (b.map dull != [x]) = (b != [x]) := by
  simp only [bne, only_map h]

theorem get_map (b : Str) (n : Nat) : (b.map dull)[n]? = (b[n]?).map dull := List.getElem?_map

theorem head_map (b : Str) : (b.map dull).head? = (b.head?).map dull := List.head?_map

theorem drop_map (b : Str) (n : Nat) : (b.map dull).drop n = (b.drop n).map dull := List.map_drop.symm

theorem len_map (b : Str) : (b.map dull).length = b.length := List.length_map _

theorem some_map {x : Char} (h : goodChar x = true) (o : Option Char) : (o.map dull != some x) = (o != some x) := by
  cases o with
  | none => rfl
  | some c =>
    simp only [bne, Option.map_some]
    congr 1
    rw [Bool.eq_iff_iff]
    simp only [beq_iff_eq, Option.some.injEq]
    exact dull_eq_good h

theorem some_map' {x : Char} (h : goodChar x = true) (o : Option Char) : (o.map dull == some x) = (o == some x) := by
  have := some_map h o
  simpa [bne] using this

theorem slavo_map (w : Str) : slavoGermanic (w.map dull) = slavoGermanic w := by
  have beq : ∀ c x, goodChar x = true → (dull c == x) = (c == x) := by
    intro c x hx
    rw [Bool.eq_iff_iff]
    simp only [beq_iff_eq]
    exact dull_eq_good hx
  induction w with
  | nil => rfl
  | cons c w ih =>
    simp only [List.map_cons, slavoGermanic, ih, head_map, some_map' (x := 'Z') (by decide), beq _ _ (show goodChar 'W' = true by decide),
      beq _ _ (show goodChar 'K' = true by decide), beq _ _ (show goodChar 'C' = true by decide)]

/-- Rewrites the sounds of the shadow to those of the word. -/
macro "dm_map" "[" ls:Lean.Parser.Tactic.simpLemma,* "]" : tactic => `(tactic|
  simp (maxSteps := 10000000) (disch := decide) only [starts_map, ends_map, around_map, among_map, vowel_map, back_map, empty_map, only_map, only_map',
    get_map, head_map, drop_map, len_map, some_map, slavo_map, $ls,*])

section
variable (w b a : Str)

theorem map_D : soundD (a.map dull) = soundD a := by unfold soundD; dm_map []
theorem map_H : soundH (b.map dull) (a.map dull) = soundH b a := by unfold soundH; dm_map []
theorem map_P : soundP (a.map dull) = soundP a := by unfold soundP; dm_map []
theorem map_T : soundT (w.map dull) (a.map dull) = soundT w a := by unfold soundT; dm_map []
theorem map_GH : soundGH (b.map dull) (a.map dull) = soundGH b a := by unfold soundGH; dm_map []
theorem map_G : soundG (w.map dull) (b.map dull) (a.map dull) = soundG w b a := by unfold soundG; dm_map [map_GH]
theorem map_CH : soundCH (w.map dull) (b.map dull) (a.map dull) = soundCH w b a := by unfold soundCH; dm_map []
theorem map_CC : soundCC (b.map dull) (a.map dull) = soundCC b a := by unfold soundCC; dm_map []
theorem map_C : soundC (w.map dull) (b.map dull) (a.map dull) = soundC w b a := by unfold soundC; dm_map [map_CC, map_CH]
theorem map_J : soundJ (w.map dull) (b.map dull) (a.map dull) = soundJ w b a := by unfold soundJ; dm_map []
theorem map_L : soundL (w.map dull) (b.map dull) (a.map dull) = soundL w b a := by unfold soundL; dm_map []
theorem map_M : soundM (b.map dull) (a.map dull) = soundM b a := by unfold soundM; dm_map []
theorem map_R : soundR (w.map dull) (b.map dull) (a.map dull) = soundR w b a := by unfold soundR; dm_map []
theorem map_SC : soundSC (b.map dull) (a.map dull) = soundSC b a := by unfold soundSC; dm_map []
theorem map_S : soundS (w.map dull) (b.map dull) (a.map dull) = soundS w b a := by unfold soundS; dm_map [map_SC]
theorem map_W : soundW (w.map dull) (b.map dull) (a.map dull) = soundW w b a := by unfold soundW; dm_map []
theorem map_X : soundX (b.map dull) (a.map dull) = soundX b a := by unfold soundX; dm_map []
theorem map_Z : soundZ (w.map dull) (b.map dull) (a.map dull) = soundZ w b a := by unfold soundZ; dm_map []
theorem map_simple (c : Char) (code : Str) (h : goodChar c = true) :
    soundSimple (a.map dull) c code = soundSimple a c code := by
  unfold soundSimple
  rw [starts_map (by simp [h])]

theorem map_sound (c : Char) : sound (w.map dull) (b.map dull) (a.map dull) c = sound w b a c := by
  unfold sound
  split
  all_goals first
    | rw [empty_map]
    | exact map_simple _ _ _ (by decide)
    | exact map_C _ _ _
    | exact map_D _
    | exact map_G _ _ _
    | exact map_H _ _
    | exact map_J _ _ _
    | exact map_L _ _ _
    | exact map_M _ _
    | exact map_P _
    | exact map_R _ _ _
    | exact map_S _ _ _
    | exact map_T _ _
    | exact map_W _ _ _
    | exact map_X _ _
    | exact map_Z _ _ _
    | rfl

end

/-! ## A letter and its shadow -/

/-- A condition that is false on the shadow is not true. -/
theorem peel {α : Type} {c c' : Res Bool} {x y : Res α} {r : α} (hs : Sim c c') (hf : c' = .ok false)
    (h : (do if ← c then x else y) = .ok r) : y = .ok r := by
  cases hc : c with
  | error e => rw [hc] at h; cases h
  | ok t =>
    have := hs t hc
    rw [hf] at this
    injection this with this
    subst this
    rw [hc] at h
    exact h

theorem handleSc_stops (b : Str) (x : Char) (t : Str) (hx : isAscii x = false) (r : List DMAppend × Nat) :
    handleSc (b ++ 'S' :: 'C' :: x :: t) (byteLen b) ≠ .ok r := by
  intro h
  have hsize : 1 < x.utf8Size := by
    have h1 := Char.utf8Size_pos x
    have : ¬ x.utf8Size = 1 := by
      intro h2
      have : AsciiStr [x] := byteLen_eq_length_iff.mp (by simp [byteLen, h2])
      rw [this x (by simp)] at hx
      cases hx
    omega
  have hsplit : splitAtByte (byteLen b + 2) (b ++ 'S' :: 'C' :: x :: t) = some (b ++ c!"SC", x :: t) :=
    splitAtByte_eq_some_iff.mpr ⟨by simp, by rw [byteLen_append]; rfl⟩
  have hlen : byteLen (b ++ 'S' :: 'C' :: x :: t) = byteLen b + 2 + x.utf8Size + byteLen t := by
    rw [byteLen_append]
    have eS : ('S' : Char).utf8Size = 1 := rfl
    have eC : ('C' : Char).utf8Size = 1 := rfl
    simp only [byteLen, eS, eC]
    omega
  have e1 : isAt (b ++ 'S' :: 'C' :: x :: t) ((byteLen b : Int) + 2) 'H' = .ok false := by
    unfold isAt charAt
    rw [if_pos (by rw [hlen]; omega), show ((byteLen b : Int) + 2).toNat = byteLen b + 2 by omega]
    unfold sliceFrom
    rw [hsplit]
    simp only [bind, Except.bind, pure, Except.pure, List.head?_cons, Except.ok.injEq]
    rw [beq_eq_false_iff_ne]
    intro h
    injection h with h
    rw [h] at hx; cases hx
  have e2 : contains (b ++ 'S' :: 'C' :: x :: t) ((byteLen b : Int) + 2) 1 [c!"I", c!"E", c!"Y"] = .error .slice := by
    unfold contains
    rw [if_neg (by omega), show ((byteLen b : Int) + 2).toNat = byteLen b + 2 by omega, if_pos (by rw [hlen]; omega)]
    unfold slice
    rw [if_pos (by omega), hsplit]
    dsimp only
    unfold sliceTo splitAtByte
    rw [if_neg (by omega), if_neg (by omega)]
    rfl
  unfold handleSc at h
  rw [e1, e2] at h
  cases h

/-- The shadow of a letter's surroundings. -/
theorem shadow_here {v b : Str} {c : Char} {a : Str} (hv : v = b ++ c :: a) (hc : isAscii c = true)
    (hU : ∀ x ∈ v, isAsciiLower x = false) : Here (shadow v) (shadow b) c (shadow a) := by
  refine ⟨?_, shadow_ascii v, ?_⟩
  · rw [hv, shadow_append, show c :: a = [c] ++ a from rfl, shadow_append,
      shadow_of_ascii (t := [c]) (fun x hx => by simp only [List.mem_singleton] at hx; rw [hx]; exact hc)]
    rfl
  · intro x hx
    obtain ⟨y, hy, rfl⟩ := List.mem_map.mp hx
    obtain ⟨z, hz, hy⟩ := List.mem_flatMap.mp hy
    rcases List.mem_cons.mp hy with rfl | hy
    · unfold dull
      split
      · exact hU _ hz
      · rfl
    · rw [(List.mem_replicate.mp hy).2]; rfl

theorem handleS_stops (b : Str) (x : Char) (t : Str) (hx : isAscii x = false) (sg : Bool) (r : List DMAppend × Nat)
    (hU : ∀ y ∈ b ++ 'S' :: 'C' :: x :: t, isAsciiLower y = false) :
    handleS (b ++ 'S' :: 'C' :: x :: t) (byteLen b) sg ≠ .ok r := by
  intro h
  have H := shadow_here (v := b ++ 'S' :: 'C' :: x :: t) rfl (by decide) hU
  have ha : (shadow ('C' :: x :: t))[0]? = some 'C' := by
    obtain ⟨q, hq, -⟩ := shadow_head 'C' (x :: t)
    rw [hq]; rfl
  rw [← shadow_length b] at h
  unfold handleS at h
  refine handleSc_stops b x t hx r ?_
  rw [← shadow_length b]
  generalize hv : b ++ 'S' :: 'C' :: x :: t = v at *
  generalize hi : ((shadow b).length : Int) = i at *
  replace h := peel (c' := okR (i > 0) &? contains (shadow v) (i - 1) 3 [c!"ISL", c!"YSL"]) (by dm_sim)
    (by subst hi; dm_atoms [cm1 H, ha]; simp) h
  replace h := peel (c' := okR (i = 0) &? contains (shadow v) i 5 [c!"SUGAR"]) (by dm_sim)
    (by subst hi; dm_atoms [c0 H, ha]; simp) h
  replace h := peel (c' := contains (shadow v) i 2 [c!"SH"]) (by dm_sim)
    (by subst hi; dm_atoms [c0 H, ha]; simp) h
  replace h := peel (c' := contains (shadow v) i 3 [c!"SIO", c!"SIA"] |? contains (shadow v) i 4 [c!"SIAN"]) (by dm_sim)
    (by subst hi; dm_atoms [c0 H, ha]; simp) h
  replace h := peel (c' := (okR (i = 0) &? contains (shadow v) (i + 1) 1 [c!"M", c!"N", c!"L", c!"W"]) |?
      contains (shadow v) (i + 1) 1 [c!"Z"]) (by dm_sim)
    (by subst hi; dm_atoms [c1 H, ha]; simp) h
  subst hi
  cases hc : contains v (shadow b).length 2 [c!"SC"] with
  | error e => rw [hc] at h; cases h
  | ok u =>
    have hs := sim_contains _ _ _ _ (by decide) u hc
    rw [c0 H _ (by decide)] at hs
    have : u = true := by
      injection hs with hs
      rw [← hs]
      simp only [List.any_cons, List.any_nil, List.length_cons, List.length_nil, pre_cons, pre_nil, List.getElem?_cons_zero,
        List.drop_succ_cons, List.drop_zero, ha]
      rfl
    subst this
    rw [hc] at h
    exact h

/-- The first places that are not placeholders are letters of ASCII. -/
theorem clear_chars (t : Str) : ∀ k, (∀ j < k, (shadow t)[j]? ≠ some '\x00') → ∀ x ∈ t.take k, isAscii x = true := by
  induction t with
  | nil => intro k _ x hx; simp at hx
  | cons c t ih =>
    intro k hk x hx
    cases k with
    | zero => simp at hx
    | succ k =>
      obtain ⟨q, hq, -⟩ := shadow_head c t
      have hc : isAscii c = true := by
        have := hk 0 (by omega)
        rw [hq] at this
        simp only [List.getElem?_cons_zero, ne_eq, Option.some.injEq] at this
        apply Decidable.byContradiction
        intro hn
        apply this
        simp [dull, hn]
      have e : shadow (c :: t) = c :: shadow t := by
        rw [show c :: t = [c] ++ t from rfl, shadow_append,
          shadow_of_ascii (t := [c]) (fun x hx => by simp only [List.mem_singleton] at hx; rw [hx]; exact hc)]
        rfl
      rw [List.take_succ_cons] at hx
      rcases List.mem_cons.mp hx with rfl | hx
      · exact hc
      · refine ih k (fun j hj => ?_) x hx
        have := hk (j + 1) (by omega)
        rw [e] at this
        simpa using this

theorem clear_of {a : Str} {s : Sound} (h : Clear a s) : ∀ j < s.covered, a[j]? ≠ some '\x00' := by
  intro j hj
  obtain ⟨h1, h2, h3, h4⟩ := h
  match j, hj with
  | 0, _ => exact h1 (by omega)
  | 1, _ => exact h2 (by omega)
  | 2, _ => exact h3 (by omega)
  | j + 3, hj => omega

theorem slavo_shadow (v : Str) : slavoGermanic (shadow v) = slavoGermanic v := by
  rw [shadow, slavo_map]
  induction v with
  | nil => rfl
  | cons c v ih =>
    have hfill : ∀ n t, slavoGermanic (List.replicate n '\x00' ++ t) = slavoGermanic t := by
      intro n t
      induction n with
      | zero => rfl
      | succ n ihn => rw [List.replicate_succ, List.cons_append, slavoGermanic, ihn]; rfl
    have e : padded (c :: v) = c :: (List.replicate (c.utf8Size - 1) '\x00' ++ padded v) := by simp [padded]
    rw [e, slavoGermanic, slavoGermanic, hfill, ih]
    by_cases hc : c = 'C'
    · subst hc
      have : ('C' : Char).utf8Size - 1 = 0 := rfl
      rw [this]
      congr 3
      cases v with
      | nil => rfl
      | cons d v => simp [padded]
    · have : (c == 'C') = false := beq_eq_false_iff_ne.mpr hc
      rw [this]; rfl

/-- What is returned for a letter is its sound, and the letters that it covers are ASCII. -/
theorem handle_any {v b : Str} {c : Char} {a : Str} (hv : v = b ++ c :: a) (hU : ∀ x ∈ v, isAsciiLower x = false)
    {r : List DMAppend × Nat} (h : handle v (isSlavoGermanic v) (byteLen b) c = .ok r) :
    soundOf r = sound (padded v) (padded b) (List.replicate (c.utf8Size - 1) '\x00' ++ padded a) c ∧
      (isAscii c = false → r.2 = 0) ∧ ∀ x ∈ a.take r.2, isAscii x = true := by
  by_cases hc : isAscii c = true
  · have H := shadow_here hv hc hU
    have e1 : c.utf8Size - 1 = 0 := by rw [utf8Size_ascii hc]
    rw [e1]
    have h1 := handle_sim _ _ _ _ _ h
    rw [← shadow_length b, isSlavoGermanic_eq, ← slavo_shadow] at h1
    have hs := handle_spec H
    rw [h1, map_ok] at hs
    injection hs with hs
    have hs' : soundOf r = sound (padded v) (padded b) (padded a) c := by
      rw [hs]; exact map_sound _ _ _ _
    refine ⟨hs', (fun hn => by rw [hc] at hn; cases hn), ?_⟩
    have hr2 : r.2 = (sound (shadow v) (shadow b) (shadow a) c).covered := by rw [← hs]; rfl
    by_cases hSC : c = 'S' ∧ (shadow a)[0]? = some 'C'
    · obtain ⟨rfl, hC⟩ := hSC
      have hle := covered_S (shadow v) (shadow b) (shadow a) hC
      cases a with
      | nil => intro x hx; simp at hx
      | cons d a =>
        obtain ⟨q, hq, -⟩ := shadow_head d a
        rw [hq] at hC
        simp only [List.getElem?_cons_zero, Option.some.injEq] at hC
        rw [dull_eq_good (by decide)] at hC
        subst hC
        cases a with
        | nil =>
          intro x hx
          have := List.mem_of_mem_take hx
          simp only [List.mem_singleton] at this
          rw [this]; rfl
        | cons y t =>
          have hy : isAscii y = true := by
            apply Decidable.byContradiction
            intro hn
            subst hv
            exact handleS_stops b y t (by simpa using hn) _ r hU h
          intro x hx
          have : x ∈ ['C', y] := by
            have h2 : r.2 ≤ 2 := by rw [hr2]; exact hle
            exact (List.take_prefix_take_left h2).subset hx
          simp only [List.mem_cons, List.not_mem_nil, or_false] at this
          rcases this with rfl | rfl
          · rfl
          · exact hy
    apply clear_chars
    rw [hr2]
    apply clear_of
    by_cases hS : c = 'S'
    · subst hS
      exact clear_S _ _ _ (fun hC => hSC ⟨rfl, hC⟩)
    · unfold sound
      split
      all_goals first
        | exact clear_vowel (shadow v) _ _
        | exact clear_simple (shadow v) (shadow b) _ _ _ (by decide)
        | exact clear_C _ _ _
        | exact clear_D (shadow v) (shadow b) _
        | exact clear_G _ _ _
        | exact clear_H (shadow v) _ _
        | exact clear_J _ _ _
        | exact clear_L _ _ _
        | exact clear_M (shadow v) _ _
        | exact clear_P (shadow v) (shadow b) _
        | exact clear_R _ _ _
        | exact absurd rfl hS
        | exact clear_T _ (shadow b) _
        | exact clear_W _ _ _
        | exact clear_X (shadow v) _ _
        | exact clear_Z _ _ _
        | simp [Clear, same, silent]
  · have hc' : isAscii c = false := by simpa using hc
    have key : (handle v (isSlavoGermanic v) (byteLen b) c).map soundOf =
        .ok (sound (padded v) (padded b) (List.replicate (c.utf8Size - 1) '\x00' ++ padded a) c) ∧
        (sound (padded v) (padded b) (List.replicate (c.utf8Size - 1) '\x00' ++ padded a) c).covered = 0 := by
      generalize List.replicate (c.utf8Size - 1) '\x00' ++ padded a = a'
      unfold handle
      split
      all_goals first
        | exact absurd hc' (by decide)
        | exact ⟨rfl, rfl⟩
        | skip
      unfold sound
      split
      all_goals first
        | exact absurd rfl (by assumption)
        | exact ⟨rfl, rfl⟩
    rw [h, map_ok] at key
    obtain ⟨k1, k2⟩ := key
    injection k1 with k1
    have h0 : r.2 = 0 := by rw [← k2, ← k1]; rfl
    exact ⟨k1, fun _ => h0, fun x hx => by rw [h0] at hx; simp at hx⟩

/-! ## The loop -/

/-- Placeholders are silent. -/
theorem sounds_fill (w : Str) (n : Nat) (t : Str) : ∀ b, (soundsFrom w b 0 (List.replicate n '\x00' ++ t)) =
    List.replicate n (silent 0) ++ soundsFrom w (b ++ List.replicate n '\x00') 0 t := by
  induction n with
  | zero => intro b; simp
  | succ n ih =>
    intro b
    rw [List.replicate_succ, List.cons_append, soundsFrom]
    have e : sound w b (List.replicate n '\x00' ++ t) '\x00' = silent 0 := rfl
    simp only [e]
    rw [show (silent 0).covered = 0 from rfl, ih]
    simp [List.replicate_succ]

theorem cut_append_cut (max : Option Nat) (x y : Str) : cut max (cut max x ++ y) = cut max (x ++ y) := by
  cases max with
  | none => rfl
  | some n =>
    simp only [cut]
    rw [List.take_append, List.take_append, List.take_take, Nat.min_self, List.length_take]
    congr 2
    omega

theorem complete_cut {r : DMResult} (hr : Good r) (h : r.isComplete = true) (x : Str) :
    cut r.maxLength (r.primary ++ x) = r.primary ∧ cut r.maxLength (r.alternate ++ x) = r.alternate := by
  unfold DMResult.isComplete at h
  split at h
  · next n hm =>
    simp only [Bool.and_eq_true, decide_eq_true_eq, byteLen_ascii hr.primary, byteLen_ascii hr.alternate] at h
    have h1 := hr.fitsP n hm
    have h2 := hr.fitsA n hm
    rw [hm]
    simp only [cut]
    rw [List.take_append_of_le_length (by omega), List.take_append_of_le_length (by omega),
      List.take_of_length_le h1, List.take_of_length_le h2]
    exact ⟨rfl, rfl⟩
  · cases h

theorem loop_any (v : Str) (hU : ∀ x ∈ v, isAsciiLower x = false) (rest : Str) :
    ∀ (b : Str) (skip : Nat) (r r' : DMResult), v = b ++ rest → Good r → (∀ x ∈ rest.take skip, isAscii x = true) →
    loop v (isSlavoGermanic v) rest (byteLen b) skip r = .ok r' →
    r' = { r with
      primary := cut r.maxLength (r.primary ++ (soundsFrom (padded v) (padded b) skip (padded rest)).flatMap Sound.primary)
      alternate := cut r.maxLength (r.alternate ++ (soundsFrom (padded v) (padded b) skip (padded rest)).flatMap Sound.alternate) } := by
  induction rest with
  | nil =>
    intro b skip r r' _ hr _ h
    unfold loop at h
    injection h with h
    subst h
    have : soundsFrom (padded v) (padded b) skip (padded []) = [] := by cases skip <;> rfl
    rw [this]
    simp only [List.flatMap_nil, List.append_nil, cut_fits hr.fitsP, cut_fits hr.fitsA]
  | cons c rest ih =>
    intro b skip r r' hv hr hskip h
    have e2 : v = (b ++ [c]) ++ rest := by rw [hv]; simp
    have e1 : byteLen b + c.utf8Size = byteLen (b ++ [c]) := by rw [byteLen_append]; simp [byteLen]
    have e3 : padded (c :: rest) = c :: (List.replicate (c.utf8Size - 1) '\x00' ++ padded rest) := by simp [padded]
    have e4 : padded (b ++ [c]) = (padded b ++ [c]) ++ List.replicate (c.utf8Size - 1) '\x00' := by simp [padded]
    cases skip with
    | succ skip =>
      rw [loop, e1] at h
      have hc : isAscii c = true := hskip c (by simp)
      rw [ih (b ++ [c]) skip r r' e2 hr (fun x hx => hskip x (by simp [hx])) h, e3, e4, utf8Size_ascii hc]
      simp [soundsFrom]
    | zero =>
      rw [loop] at h
      by_cases hcomp : r.isComplete = true
      · rw [if_pos hcomp] at h
        injection h with h
        subst h
        rw [(complete_cut hr hcomp _).1, (complete_cut hr hcomp _).2]
      · rw [if_neg hcomp] at h
        cases hh : handle v (isSlavoGermanic v) (byteLen b) c with
        | error e => rw [hh] at h; cases h
        | ok res =>
          obtain ⟨k1, k2, k3⟩ := handle_any hv hU hh
          rw [hh] at h
          obtain ⟨calls, k⟩ := res
          have hne : 0 < byteLen v := byteLen_pos (by rw [hv]; simp)
          obtain ⟨f1, f2, f3⟩ := runAll_eq hr (handle_ok v (byteLen b) _ c hne _ hh)
          simp only [bind, Except.bind] at h
          rw [f1] at h
          simp only at h
          rw [e1] at h
          rw [ih (b ++ [c]) k _ r' e2 (good_extend hr f2 f3) k3 h, e3]
          have hfirst : soundsFrom (padded v) (padded b) 0 (c :: (List.replicate (c.utf8Size - 1) '\x00' ++ padded rest)) =
              soundOf (calls, k) :: soundsFrom (padded v) (padded b ++ [c]) k
                (List.replicate (c.utf8Size - 1) '\x00' ++ padded rest) := by
            rw [soundsFrom, k1]
            rw [← k1]; rfl
          have hrest : (soundsFrom (padded v) (padded b ++ [c]) k (List.replicate (c.utf8Size - 1) '\x00' ++ padded rest)) =
              List.replicate (c.utf8Size - 1) (silent 0) ++ soundsFrom (padded v) (padded (b ++ [c])) k (padded rest) := by
            by_cases hc : isAscii c = true
            · rw [e4, utf8Size_ascii hc]; simp
            · have : k = 0 := k2 (by simpa using hc)
              rw [this, sounds_fill, e4]
          have fill1 : ∀ n, (List.replicate n (silent 0)).flatMap Sound.primary = [] := by
            intro n; induction n with
            | zero => rfl
            | succ n ihn => rw [List.replicate_succ, List.flatMap_cons, ihn]; rfl
          have fill2 : ∀ n, (List.replicate n (silent 0)).flatMap Sound.alternate = [] := by
            intro n; induction n with
            | zero => rfl
            | succ n ihn => rw [List.replicate_succ, List.flatMap_cons, ihn]; rfl
          rw [hfirst, hrest]
          simp only [List.flatMap_cons, List.flatMap_append, fill1, fill2, List.nil_append, extend, cut_append_cut,
            soundOf, List.append_assoc]

/-- Prefixes of a text are those of its padded form. -/
theorem pre_padded {x : Str} (hx : x.all goodChar = true) (t : Str) : x.isPrefixOf (padded t) = x.isPrefixOf t := by
  rw [← pre_map hx (padded t)]
  change x.isPrefixOf (shadow t) = _
  induction x generalizing t with
  | nil => simp
  | cons c x ih =>
    simp only [List.all_cons, Bool.and_eq_true] at hx
    cases t with
    | nil => rfl
    | cons d t =>
      by_cases hd : isAscii d = true
      · have e : shadow (d :: t) = d :: shadow t := by
          rw [show d :: t = [d] ++ t from rfl, shadow_append,
            shadow_of_ascii (t := [d]) (fun x hx => by simp only [List.mem_singleton] at hx; rw [hx]; exact hd)]
          rfl
        rw [e]
        simp only [List.isPrefixOf, ih hx.2]
      · obtain ⟨q, hq, -⟩ := shadow_head d t
        rw [hq]
        have h1 : (c == dull d) = false := by
          rw [beq_eq_false_iff_ne]
          intro h
          rw [eq_comm, dull_eq_good hx.1] at h
          subst h
          simp only [goodChar, Bool.and_eq_true] at hx
          exact hd hx.1.1
        have h2 : (c == d) = false := by
          rw [beq_eq_false_iff_ne]
          rintro rfl
          simp only [goodChar, Bool.and_eq_true] at hx
          exact hd hx.1.1
        simp only [List.isPrefixOf, h1, h2, Bool.false_and]

theorem run_any (v : Str) (hU : ∀ x ∈ v, isAsciiLower x = false) (max : Option Nat) (r : DMResult)
    (h : loop v (isSlavoGermanic v) v 0 (dmSkip v) (dmEmpty max) = .ok r) :
    r = { primary := cut max (primary (padded v)), alternate := cut max (alternate (padded v)), maxLength := max } := by
  have hskip : dmSkip v = if starts (padded v) [c!"GN", c!"KN", c!"PN", c!"WR", c!"PS"] then 1 else 0 := by
    unfold dmSkip silentStart starts
    simp only [List.any_cons, List.any_nil, pre_padded (x := c!"GN") (by decide), pre_padded (x := c!"KN") (by decide),
      pre_padded (x := c!"PN") (by decide), pre_padded (x := c!"WR") (by decide), pre_padded (x := c!"PS") (by decide)]
    rfl
  have hfirst : ∀ x ∈ v.take (dmSkip v), isAscii x = true := by
    unfold dmSkip
    split
    · next hs =>
      cases v with
      | nil => intro x hx; simp at hx
      | cons c v =>
        intro x hx
        simp only [List.take_succ_cons, List.take_zero, List.mem_singleton] at hx
        subst hx
        simp only [silentStart, List.any_cons, List.any_nil, List.isPrefixOf, Bool.or_eq_true, Bool.and_eq_true, beq_iff_eq,
          Bool.or_false] at hs
        rcases hs with ⟨h, -⟩ | ⟨h, -⟩ | ⟨h, -⟩ | ⟨h, -⟩ | ⟨h, -⟩ <;> rw [← h] <;> rfl
    · intro x hx; simp at hx
  have := loop_any v hU v [] (dmSkip v) (dmEmpty max) r rfl (dm_good_new max) hfirst h
  rw [this, hskip]
  rfl

end DMProofs
end Verif
