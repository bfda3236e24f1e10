# Running the model against the crate's own test vectors

`lean/Verif/Tests/*.lean` contains test vectors of the crate that Lean's kernel evaluates on the model. For
Beider-Morse with the complete rules of `/repo/test_assets/cc-rules` (127 files), kernel evaluation would take too long,
so the compiled model is run instead; nothing proved rests on it.

    cd /verif/conformance && python3 gen_beider_morse.py      # writes /tmp/Run.lean from the tests in engine.rs
    cd /verif/lean && lake env lean --run /tmp/Run.lean

Result at the pinned commit: `72 vectors, 0 bad` (the 8 rows of `DATA` and the 64 assertions of `test_solr_*` and
`test_compatibility_with_original_version` in `src/beider_morse/engine.rs`). The regular expressions that occur in these
files are matched by the small matcher in `beider_morse_main.lean.in`, which stands for the regex crate.
