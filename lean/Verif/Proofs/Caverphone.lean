import Verif.Proofs.Replace
import Verif.Model.Caverphone
/-!
# Alphabet tracking through a sequence of replacements

A Caverphone encoder is a fixed list of replacements.  `Stage` names them, `Stage.alpha` computes an
upper bound of the characters that a stage can produce, and `run_alpha` proves the bound.
-/

namespace Verif

/-- One line of a Caverphone encoder. -/
inductive Stage where
  | all (pat to : Str)
  | start (pat to : Str)
  | fin (pat to : Str)
  | vowelStart
  | vowel
  | compact

namespace Stage

def run : Stage → Str → Str
  | all pat to, s => replaceAll s pat to
  | start pat to, s => replaceStart s pat to
  | fin pat to, s => replaceEnd s pat to
  | vowelStart, s => replaceChar s vowelStartF
  | vowel, s => replaceChar s vowelF
  | compact, s => replaceCompactAllToUppercase s compactChars

def alpha : Stage → List Char → List Char
  | all [a] to, l => l.filter (· ≠ a) ++ to
  | all _ to, l => l ++ to
  | start _ to, l => l ++ to
  | fin _ to, l => l ++ to
  | vowelStart, l => 'A' :: l
  | vowel, l => '3' :: l.filter (fun c => !isVowel (some c) false)
  | compact, l => l.map fun c => if compactChars.contains c then asciiUpper c else c

def ok : Stage → Bool
  | all [] _ => false
  | _ => true

end Stage

theorem mem_replaceStart {s pat to : Str} {x : Char} (h : x ∈ replaceStart s pat to) : x ∈ s ∨ x ∈ to := by
  unfold replaceStart at h
  split at h
  · rcases List.mem_append.mp h with h | h
    · exact Or.inr h
    · exact Or.inl (List.mem_of_mem_drop h)
  · exact Or.inl h

theorem mem_replaceEnd {s pat to : Str} {x : Char} (h : x ∈ replaceEnd s pat to) : x ∈ s ∨ x ∈ to := by
  unfold replaceEnd at h
  split at h
  · rcases List.mem_append.mp h with h | h
    · exact Or.inl (List.mem_of_mem_take h)
    · exact Or.inr h
  · exact Or.inl h

theorem mem_replaceCharFrom {f : Nat → Char → Char} {s : Str} {x : Char} :
    ∀ {i : Nat}, x ∈ replaceCharFrom f i s → ∃ j, ∃ c ∈ s, x = f j c := by
  induction s with
  | nil => intro i h; simp [replaceCharFrom] at h
  | cons c cs ih =>
    intro i h
    rcases List.mem_cons.mp h with h | h
    · exact ⟨i, c, by simp, h⟩
    · obtain ⟨j, d, hd, e⟩ := ih h
      exact ⟨j, d, by simp [hd], e⟩

theorem mem_compactLoop {chars s : List Char} {x : Char} :
    ∀ {p : Option Char}, x ∈ compactLoop chars p s →
      ∃ c ∈ s, x = if chars.contains c then asciiUpper c else c := by
  induction s with
  | nil => intro p h; simp [compactLoop] at h
  | cons c cs ih =>
    intro p h
    have step : ∀ {q : Option Char}, x ∈ compactLoop chars q cs →
        ∃ d ∈ c :: cs, x = if chars.contains d then asciiUpper d else d := fun hq => by
      obtain ⟨d, hd, e⟩ := ih hq
      exact ⟨d, by simp [hd], e⟩
    unfold compactLoop at h
    split at h
    · rename_i hc
      split at h
      · split at h
        · rcases List.mem_cons.mp h with h | h
          · exact ⟨c, by simp, by rw [if_pos hc]; exact h⟩
          · exact step h
        · exact step h
      · rcases List.mem_cons.mp h with h | h
        · exact ⟨c, by simp, by rw [if_pos hc]; exact h⟩
        · exact step h
    · rename_i hc
      rcases List.mem_cons.mp h with h | h
      · exact ⟨c, by simp, by rw [if_neg hc]; exact h⟩
      · exact step h

/-- The computed alphabet bounds what a stage produces. -/
theorem Stage.run_alpha (st : Stage) (hok : st.ok = true) {s : Str} {l : List Char} (hs : s ⊆ l) :
    st.run s ⊆ st.alpha l := by
  intro x hx
  cases st with
  | all pat to =>
    cases pat with
    | nil => simp [Stage.ok] at hok
    | cons a pat =>
      cases pat with
      | nil =>
        simp only [Stage.run, replaceAll_single, List.mem_flatMap] at hx
        simp only [Stage.alpha, List.mem_append, List.mem_filter, decide_eq_true_eq]
        obtain ⟨c, hc, hx⟩ := hx
        split at hx
        · exact Or.inr hx
        · rename_i hne
          simp only [List.mem_singleton] at hx
          subst hx
          exact Or.inl ⟨hs hc, by simpa using hne⟩
      | cons b pat =>
        simp only [Stage.run] at hx
        simp only [Stage.alpha, List.mem_append]
        rcases mem_replaceAll (by simp) hx with h | h
        · exact Or.inl (hs h)
        · exact Or.inr h
  | start pat to =>
    simp only [Stage.alpha, List.mem_append]
    rcases mem_replaceStart hx with h | h
    · exact Or.inl (hs h)
    · exact Or.inr h
  | fin pat to =>
    simp only [Stage.alpha, List.mem_append]
    rcases mem_replaceEnd hx with h | h
    · exact Or.inl (hs h)
    · exact Or.inr h
  | vowelStart =>
    obtain ⟨j, c, hc, rfl⟩ := mem_replaceCharFrom hx
    simp only [Stage.alpha, List.mem_cons, vowelStartF]
    split
    · exact Or.inl rfl
    · exact Or.inr (hs hc)
  | vowel =>
    obtain ⟨j, c, hc, rfl⟩ := mem_replaceCharFrom hx
    simp only [Stage.alpha, List.mem_cons, vowelF, List.mem_filter]
    split
    · exact Or.inl rfl
    · rename_i h; exact Or.inr ⟨hs hc, by simpa using h⟩
  | compact =>
    obtain ⟨c, hc, rfl⟩ := mem_compactLoop hx
    simp only [Stage.alpha, List.mem_map]
    exact ⟨c, hs hc, rfl⟩

/-- Run a list of stages in order. -/
def runStages : List Stage → Str → Str
  | [], s => s
  | st :: r, s => runStages r (st.run s)

def alphaStages : List Stage → List Char → List Char
  | [], l => l
  | st :: r, l => alphaStages r (st.alpha l).eraseDups

theorem runStages_alpha (sts : List Stage) (hok : sts.all Stage.ok = true) {s : Str} {l : List Char}
    (hs : s ⊆ l) : runStages sts s ⊆ alphaStages sts l := by
  induction sts generalizing s l with
  | nil => exact hs
  | cons st r ih =>
    simp only [List.all_cons, Bool.and_eq_true] at hok
    refine ih hok.2 ?_
    intro x hx
    rw [List.mem_eraseDups]
    exact st.run_alpha hok.1 hs hx

open Stage in
/-- The rules of Caverphone 1, in order. -/
def cav1Stages : List Stage := [
  start c!"cough" c!"cou2f", start c!"rough" c!"rou2f", start c!"tough" c!"tou2f",
  start c!"enough" c!"enou2f", start c!"gn" c!"2n",
  fin c!"mb" c!"m2", all c!"cq" c!"2q", all c!"ci" c!"si", all c!"ce" c!"se", all c!"cy" c!"sy",
  all c!"tch" c!"2ch", all c!"c" c!"k", all c!"q" c!"k", all c!"x" c!"k", all c!"v" c!"f",
  all c!"dg" c!"2g", all c!"tio" c!"sio", all c!"tia" c!"sia", all c!"d" c!"t", all c!"ph" c!"fh",
  all c!"b" c!"p", all c!"sh" c!"s2", all c!"z" c!"s",
  vowelStart, vowel, all c!"3gh3" c!"3kh3", all c!"gh" c!"22", all c!"g" c!"k", compact,
  all c!"w3" c!"W3", all c!"wy" c!"Wy", all c!"wh3" c!"Wh3", all c!"why" c!"Why", all c!"w" c!"2",
  start c!"h" c!"A", all c!"h" c!"2", all c!"r3" c!"R3", all c!"ry" c!"Ry", all c!"r" c!"2",
  all c!"l3" c!"L3", all c!"ly" c!"Ly", all c!"l" c!"2", all c!"j" c!"y", all c!"y3" c!"Y3",
  all c!"y" c!"2", all c!"2" [], all c!"3" []]

open Stage in
/-- The rules of Caverphone 2, in order. -/
def cav2Stages : List Stage := [
  fin c!"e" [], start c!"cough" c!"cou2f", start c!"rough" c!"rou2f", start c!"tough" c!"tou2f",
  start c!"enough" c!"enou2f", start c!"trough" c!"trou2f", start c!"gn" c!"2n",
  fin c!"mb" c!"m2", all c!"cq" c!"2q", all c!"ci" c!"si", all c!"ce" c!"se", all c!"cy" c!"sy",
  all c!"tch" c!"2ch", all c!"c" c!"k", all c!"q" c!"k", all c!"x" c!"k", all c!"v" c!"f",
  all c!"dg" c!"2g", all c!"tio" c!"sio", all c!"tia" c!"sia", all c!"d" c!"t", all c!"ph" c!"fh",
  all c!"b" c!"p", all c!"sh" c!"s2", all c!"z" c!"s",
  vowelStart, vowel, all c!"j" c!"y", start c!"y3" c!"Y3", start c!"y" c!"A", all c!"y" c!"3",
  all c!"3gh3" c!"3kh3", all c!"gh" c!"22", all c!"g" c!"k", compact,
  all c!"w3" c!"W3", all c!"wh3" c!"Wh3", fin c!"w" c!"3", all c!"w" c!"2",
  start c!"h" c!"A", all c!"h" c!"2", all c!"r3" c!"R3", fin c!"r" c!"3", all c!"r" c!"2",
  all c!"l3" c!"L3", fin c!"l" c!"3", all c!"l" c!"2", all c!"2" [], fin c!"3" c!"A", all c!"3" []]

theorem cav1_body_eq (U : Unicode) (s : Str) :
    Caverphone1.body U s = runStages cav1Stages (removeAllNonLetter U (U.strLower s)) := rfl

theorem cav2_body_eq (U : Unicode) (s : Str) :
    Caverphone2.body U s = runStages cav2Stages (removeAllNonLetter U (U.strLower s)) := rfl

theorem cav1_alpha : ∀ c ∈ alphaStages cav1Stages c!"abcdefghijklmnopqrstuvwxyz",
    c ∈ c!"AFKLMNPRSTWY" := by decide +kernel

theorem cav2_alpha : ∀ c ∈ alphaStages cav2Stages c!"abcdefghijklmnopqrstuvwxyz",
    c ∈ c!"AFKLMNPRSTWY" := by decide +kernel

end Verif
