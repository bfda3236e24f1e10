import Verif.Model.BMPath
import Verif.Props.BMListing
/-!
# C94: a directory that cannot be listed is reported as an error
-/

namespace Verif.Props
open BM Spec BMProofs ListingProofs

namespace PathProofs

theorem loop_ok (path : Path) (dir : Directory) (hr : dir.read = path.read) (hi : dir.ioError = path.ioError) (names : List Str) :
    ∀ map : Languages, path.languagesLoop (names.map .ok) map = languagesLoop dir names map := by
  induction names with
  | nil => intro map; rfl
  | cons name names ih =>
    intro map
    rw [List.map_cons, Path.languagesLoop, languagesLoop, hr, hi]
    cases NameType.ofFilename name with
    | error _ => exact ih map
    | ok nt =>
      cases path.read name with
      | none => rfl
      | some content =>
        simp only
        congr 1
        funext r
        cases r with
        | error _ => rfl
        | ok l => exact ih _

theorem loop_error (path : Path) (dir : Directory) (hr : dir.read = path.read) (hi : dir.ioError = path.ioError) (names : List Str)
    (message : Str) (rest : List (Except Str Str)) :
    ∀ map : Languages, path.languagesLoop (names.map .ok ++ .error message :: rest) map =
      match languagesLoop dir names map with
      | .ok (.ok _) => .ok (.error (.bmError (.parseConfiguration message)))
      | other => other := by
  induction names with
  | nil => intro map; rfl
  | cons name names ih =>
    intro map
    rw [List.map_cons, List.cons_append, Path.languagesLoop, languagesLoop, hr, hi]
    cases NameType.ofFilename name with
    | error _ => exact ih map
    | ok nt =>
      cases path.read name with
      | none => rfl
      | some content =>
        simp only [bind, Except.bind]
        cases parseList content with
        | error _ => rfl
        | ok r =>
          cases r with
          | error _ => rfl
          | ok l => exact ih _

theorem langs_files (R : RegexEngine) (dir dir' : Directory) (hr : dir.read = dir'.read) (hi : dir.ioError = dir'.ioError)
    (languages : Languages) (nts : List NameType) :
    ∀ langs : Langs, langsLoop R dir languages nts langs = langsLoop R dir' languages nts langs := by
  induction nts with
  | nil => intro langs; rfl
  | cons nt nts ih =>
    intro langs
    rw [langsLoop, langsLoop, hr, hi]
    cases languages.get? nt with
    | none => rfl
    | some l =>
      simp only
      cases dir'.read (nt.display ++ c!"_lang.txt") with
      | none => rfl
      | some content =>
        simp only
        congr 1
        funext r
        cases r with
        | error _ => rfl
        | ok l => exact ih _

end PathProofs

open PathProofs

/-- C94: where the listing succeeds with all its entries, loading is `ConfigFiles.new` on the directory with these entries:
all that is proved for it holds. -/
theorem config_listed (U : Unicode) (R : RegexEngine) (depth : Nat) (path : Path) (names : List Str)
    (h : path.listing = .ok (names.map .ok)) :
    ConfigFiles.newFromPath U R depth path =
      ConfigFiles.new U R depth { entries := names, read := path.read, ioError := path.ioError } := by
  have h1 : path.languages = languagesOfDir { entries := names, read := path.read, ioError := path.ioError } := by
    unfold Path.languages languagesOfDir
    rw [h]
    exact loop_ok path _ rfl rfl names []
  unfold ConfigFiles.newFromPath ConfigFiles.new
  rw [h1]
  have h2 : ∀ ls, buildLangs R path.files ls =
      buildLangs R { entries := names, read := path.read, ioError := path.ioError } ls :=
    fun ls => langs_files R _ _ rfl rfl ls _ _
  simp only [h2]
  rfl

/-- C94: a path whose listing fails (it does not exist, or is not a directory) gives a configuration error with the message of
the system, and no panic. -/
theorem config_unlistable (U : Unicode) (R : RegexEngine) (depth : Nat) (path : Path) (message : Str)
    (h : path.listing = .error message) :
    ConfigFiles.newFromPath U R depth path = .ok (.error (.bmError (.parseConfiguration message))) := by
  unfold ConfigFiles.newFromPath Path.languages
  rw [h]
  rfl

/-- C94: where reading an entry of the listing fails, loading returns an error: that of a list of languages listed before it
that cannot be loaded, if there is one, and the configuration error with the message of the system otherwise. -/
theorem config_unlistable_entry (U : Unicode) (R : RegexEngine) (depth : Nat) (path : Path) (names : List Str) (message : Str)
    (rest : List (Except Str Str)) (h : path.listing = .ok (names.map .ok ++ .error message :: rest)) :
    (∃ e, ConfigFiles.newFromPath U R depth path = .ok (.error e)) ∧
    ((∀ nt : NameType, nt.languageFilename ∈ names →
        ∃ content items, path.read nt.languageFilename = some content ∧
          Reading ListItem.Reads content items []) →
      ConfigFiles.newFromPath U R depth path = .ok (.error (.bmError (.parseConfiguration message)))) := by
  have key : path.languages = match languagesLoop { entries := [], read := path.read, ioError := path.ioError } names [] with
      | .ok (.ok _) => .ok (.error (.bmError (.parseConfiguration message)))
      | other => other := by
    unfold Path.languages
    rw [h]
    exact loop_error path _ rfl rfl names message rest []
  have step : ∀ e, path.languages = .ok (.error e) → ConfigFiles.newFromPath U R depth path = .ok (.error e) := by
    intro e he
    unfold ConfigFiles.newFromPath
    rw [he]
    rfl
  constructor
  · by_cases hb : ∃ n ∈ names, Bad { entries := [], read := path.read, ioError := path.ioError } n
    · obtain ⟨e, he⟩ := loop_bad hb []
      rw [he] at key
      exact ⟨e, step e key⟩
    · obtain ⟨m, hm⟩ := loop_good (fun n hn hx => hb ⟨n, hn, hx⟩) []
      rw [hm] at key
      exact ⟨_, step _ key⟩
  · intro hl
    apply step
    obtain ⟨m, hm⟩ := loop_good (dir := { entries := [], read := path.read, ioError := path.ioError }) (names := names)
      (fun n hn hx => by
        obtain ⟨⟨nt, h1⟩, h2⟩ := hx
        have hname := ofFilename_ok h1
        obtain ⟨content, items, k1, k2⟩ := hl nt (by rw [← hname]; exact hn)
        obtain ⟨e, he⟩ := h2 content (by rw [hname]; exact k1)
        rw [parseList_reading k2] at he
        cases he) []
    rw [hm] at key
    exact key

/-- The sample directory, with an unreadable entry after its first list. -/
theorem config_unlistable_example :
    ConfigFiles.newFromPath .latin1 SampleBM.regex 3
      { listing := .ok (SampleBM.dir.entries.take 2 |>.map .ok |> (· ++ [.error c!"broken", .ok c!"ash_languages.txt"])),
        read := SampleBM.dir.read, ioError := SampleBM.dir.ioError } =
      .ok (.error (.bmError (.parseConfiguration c!"broken"))) := by
  refine (config_unlistable_entry _ _ _ _ (SampleBM.dir.entries.take 2) c!"broken" [.ok c!"ash_languages.txt"] rfl).2 ?_
  intro nt _
  exact (config_loads_example nt).2.1

end Verif.Props
