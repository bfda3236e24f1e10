inductive Tok | cls (neg : Bool) (cs : List Char) | dot | alt (alts : List (List Char)) | eos
partial def toks : List Char → List Tok
  | [] => []
  | '.' :: r => .dot :: toks r
  | '$' :: r => .eos :: toks r
  | '[' :: '^' :: r => let (a,b) := r.span (· ≠ ']'); .cls true a :: toks (b.drop 1)
  | '[' :: r => let (a,b) := r.span (· ≠ ']'); .cls false a :: toks (b.drop 1)
  | '(' :: r => let (a,b) := r.span (· ≠ ')'); .alt (splitOnChar '|' a) :: toks (b.drop 1)
  | c :: r => .cls false [c] :: toks r
partial def mtok : List Tok → List Char → Bool
  | [], _ => true
  | .eos :: ts, s => s.isEmpty && mtok ts s
  | .dot :: ts, c :: s => c ≠ '\n' && mtok ts s
  | .cls n cs :: ts, c :: s => (cs.contains c != n) && mtok ts s
  | .alt as :: ts, s => as.any fun a => a.isPrefixOf s && mtok ts (s.drop a.length)
  | _, [] => false
def rx : RegexEngine where
  error _ := none
  isMatch p s := match p with
    | '^' :: p => mtok (toks p) s
    | p => let ts := toks p; (List.range (s.length + 1)).any fun i => mtok ts (s.drop i)
def main : IO Unit := do
  let base : System.FilePath := "/repo/test_assets/cc-rules"
  let entries ← base.readDir
  let mut files : List (Str × Str) := []
  for e in entries do
    files := (e.fileName.toList, (← IO.FS.readFile e.path).toList) :: files
  let dir : Directory := { entries := files.map (·.1), read := fun n => (files.find? (·.1 == n)).map (·.2), ioError := fun n => n }
  match ConfigFiles.new .latin1 rx 5 dir with
  | .ok (.ok cfg) =>
    let mut bad := 0
    for (v, exp, nt, rt, cc, mx, ls) in vectors do
      let b := ((((Builder.new cfg).withNameType nt).withRuleType rt).withConcat cc).withMaxPhonemes mx
      match b.build with
      | .ok e =>
        let r := match ls with
          | none => e.encode .latin1 rx v.toList
          | some ls => e.encodeWithLanguages .latin1 rx v.toList (LanguageSet.ofVec (ls.map String.toList))
        match r with
        | .ok s => if String.ofList s ≠ exp then do
                      bad := bad + 1
                      IO.println s!"{v}: got {String.ofList s} expected {exp}"
        | .error _ => bad := bad + 1; IO.println s!"{v}: panic"
      | _ => IO.println "build failed"
    IO.println s!"{vectors.length} vectors, {bad} bad"
  | .ok (.error e) => IO.println s!"load error {match e with | .parseRuleError x => String.ofList x.description | _ => "?"}"
  | .error _ => IO.println "load panic"
