import Verif.Model.BMEngine
/-!
# Model of the directory access of `src/beider_morse/languages.rs` and `mod.rs`: errors of the listing

`Directory` (in `BMLanguages.lean`) describes a directory whose listing succeeds.  Here the listing may fail, as a whole
(`read_dir`) or at an entry (the items of its iterator).
-/

namespace Verif.BM

/-- What a path gives access to: its listing, if it is a directory that can be read, of which each entry may be an error; and
the contents of its files (languages.rs:149-154; lang.rs:158-160; rule.rs:336-341; the file system is a parameter).
Errors are represented by their messages. -/
structure Path where
  listing : Except Str (List (Except Str Str))
  read : Str → Option Str
  ioError : Str → Str

/-- The loop of `TryFrom<&PathBuf> for Languages` (languages.rs:151-158), with `path?` at line 152; the error becomes a
`ParseConfiguration` (mod.rs:67-71, lib.rs:113-117). -/
def Path.languagesLoop (path : Path) : List (Except Str Str) → Languages → Res (Except PhoneticError Languages)
  | [], map => .ok (.ok map)
  | .error message :: _, _ => .ok (.error (.bmError (.parseConfiguration message)))
  | .ok name :: rest, map =>
    match NameType.ofFilename name with
    | .error _ => Path.languagesLoop path rest map
    | .ok nameType =>
      match path.read name with
      | none => .ok (.error (.bmError (.parseConfiguration (path.ioError name))))
      | some content => do
        match ← parseList content with
        | .error e => return .error e
        | .ok languages => Path.languagesLoop path rest (map.insert nameType languages)

/-- `TryFrom<&PathBuf> for Languages` (languages.rs:147-161), with `read_dir(directory)?` at line 149. -/
def Path.languages (path : Path) : Res (Except PhoneticError Languages) :=
  match path.listing with
  | .error message => .ok (.error (.bmError (.parseConfiguration message)))
  | .ok entries => Path.languagesLoop path entries []

/-- The files of a path; the listing is not used by the functions that take it (`Langs::new`, `Rules::new`: lang.rs:154-164,
rule.rs:335-340). -/
def Path.files (path : Path) : Directory := { entries := [], read := path.read, ioError := path.ioError }

/-- `ConfigFiles::new` (mod.rs:177-183). -/
def ConfigFiles.newFromPath (U : Unicode) (R : RegexEngine) (depth : Nat) (path : Path) :
    Res (Except PhoneticError ConfigFiles) := do
  match ← path.languages with
  | .error e => return .error e
  | .ok languages =>
    match ← buildLangs R path.files languages with
    | .error e => return .error e
    | .ok langs =>
      match ← buildRules U R (Resolver.ofDir path.files) depth languages with
      | .error e => return .error e
      | .ok rules => return .ok { langs, rules }

end Verif.BM
