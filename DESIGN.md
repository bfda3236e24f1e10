# Formal model of rphonetic in Lean 4 — design

The repository is a library of phonetic encoders (pure functions `&str -> String`), plus three
small rule-file parsers. Everything of interest is logic over strings, so every encoder is
modelled as an executable Lean function, line by line, and the properties are theorems about
these functions for all strings (lists of Unicode scalar values), all limits, all rule sets.

## Model conventions

* `Str := List Char`; Lean's `Char` is exactly Rust's `char` (a Unicode scalar value).
* A Rust `String`/`&str` is the list of its chars; byte lengths and byte slices are computed with
  `Char.utf8Size` (`byteLen`, `splitAtByte`), so slicing off a char boundary is an explicit panic.
* `Res α := Except Panic α`; panics (index, slice, arithmetic overflow, `unwrap`) are values of
  type `Panic`. Code that cannot panic is modelled by a function without `Res`.
* Unsigned subtraction that would underflow is a panic (debug profile / overflow-checks). Where
  this differs from a release build (wrapping), the comment says so.
* Loops are structural recursion over the remaining characters, or carry explicit fuel, and the
  theorem states that the fuel given is always sufficient.
* Rust's Unicode tables (`to_uppercase`, `to_lowercase`, `is_alphabetic`, `is_whitespace`, ...)
  are a structure parameter `U : Unicode`, whose fields are the tables plus the few laws used
  (behaviour on ASCII, which is specified in the Rust documentation, and similar facts that are
  listed with it). Every theorem holds for every such table; a concrete instance
  (`Unicode.latin1`) shows that the laws are consistent and lets the model run on test words.
* The `regex` crate and the file system are parameters (see the trusted base).

## Layout

`lean/Verif/Basic` (strings, bytes, panics, `str::replace`, ...), `lean/Verif/Model/*` (the model,
one file per Rust file, every definition citing file:lines), `lean/Verif/Spec/*` (declarative
specifications, independent of the model), `lean/Verif/Proofs/*` (helper lemmas),
`lean/Verif/Props/*` (the property theorems with non-vacuity examples).
Unit-test vectors of the repository are checked against the model as `example`s
(`lean/Verif/Tests/*`, evaluation by the kernel); these are conformance tests of the model, not proofs of
properties.

## Plan per property

- **C01 is_encoded_equals is code equality and an equivalence relation** — default method over an arbitrary `encode : Str → Res Str`; equivalence-relation theorem plus instantiation for each encoder.
- **C02 difference counts the agreeing positions** — `difference` modelled as the loop; spec is the count of agreeing indices; induction on the codes.
- **C03 Soundex computes the declarative American-Soundex definition** — loop model vs declarative spec (filter/map/collapse/take/pad); induction on the remaining characters generalising count/previous.
- **C04 Soundex code shape** — corollary of C03 plus structure of the spec.
- **C05 Soundex ignores case and non-letters** — cleaning lemma: `soundex_clean` depends only on the letters up to case; corollary for the code.
- **C06 Soundex treats H and W after the first letter as transparent** — corollary of C03: the spec filters H/W.
- **C07 Soundex panics exactly on letters outside A-Z that it reaches** — exact panic characterisation by induction on the loop.
- **C08 Soundex and RefinedSoundex constructors validate the mapping** — `try_into` modelled as a length test into `Vector Char 26`.
- **C09 RefinedSoundex computes first letter plus run-collapsed codes** — loop vs declarative spec (collapse runs).
- **C10 Cologne computes the positional Kölner-Phonetik definition** — `push` state machine vs positional spec; invariant: buffer empty iff only H before.
- **C11 Cologne is total with a digit code** — invariant on the output buffer; totality is by construction (no `Res`), length by induction.
- **C12 Cologne ignores case and umlauts** — commutation of the replacement with uppercase; uses the Unicode laws for ä/ö/ü.
- **C13 Caverphone codes have fixed length** — byte length arithmetic of the final slice.
- **C14 Caverphone never panics on ASCII and uses a fixed alphabet** — alphabet tracked through every replacement stage.
- **C15 Caverphone ignores case and non-letters** — the cleaning stage depends only on the letters up to case.
- **C16 Caverphone2 ignores a final e** — `replace_end` lemma on the cleaned word.
- **C17 Strict NYSIIS is the 6-character prefix of the full code** — slice = take 6 for ASCII.
- **C18 NYSIIS code alphabet** — invariant over the key-building loop and the final replacements.
- **C19 NYSIIS ignores case and non-letters** — cleaning lemma of C05.
- **C20 Match Rating codes have at most six characters, first three and last three** — byte slicing lemma; ASCII closure of every stage.
- **C21 Match Rating comparison laws** — symmetry by relating the two-cursor loop with swapped arguments; the rest by unfolding.
- **C22 Exactly when the Match Rating comparison panics** — panic characterised by an iff on the two codes; total on names with a real letter.
- **C23 Metaphone respects the maximum code length** — length invariant of the main loop.
- **C24 Metaphone truncation is stable** — simulation between the limited and the unlimited run.
- **C25 Metaphone never panics on ASCII and uses its documented alphabet** — index bounds on ASCII; alphabet invariant.
- **C26 Phonex is total** — total by construction: every slice in the code is shown to be on a boundary.
- **C27 Phonex codes have exactly the configured length** — loop invariant; witness for max = 1.
- **C28 DoubleMetaphone respects the maximum code length** — invariant of `append`: both buffers at most max.
- **C29 DoubleMetaphone truncation is stable** — simulation: every handler is a fixed list of appends and a new index, independent of the buffers.
- **C30 DoubleMetaphone never panics on ASCII** — byte index = char index on ASCII; every handler's slices are guarded.
- **C31 DoubleMetaphone code alphabet** — alphabet of every append call.
- **C32 DoubleMetaphone ignores surrounding whitespace and case** — cleanup depends only on trimmed uppercase.
- **C33 Daitch-Mokotoff codes have six characters** — `Branch` invariant: ASCII builder of at most 6 before padding.
- **C34 Daitch-Mokotoff encode is the first branch of soundex** — the non-branching run tracks the first branch of the branching run.
- **C35 Daitch-Mokotoff applies the longest matching rule** — stable sort lemma; `find` of the first match.
- **C36 Daitch-Mokotoff ignores whitespace and case, and folds when enabled** — cleanup lemma.
- **C37 Rule-file printing and parsing round-trip** — each combinator modelled on `Str`; round-trip by computation on `text ++ rest`.
- **C38 The Daitch-Mokotoff builder always returns** — every parser returns a strictly shorter rest.
- **C39 Daitch-Mokotoff parse errors name the offending line** — line numbering invariant; witness for the multi-line comment defect.
- **C40 CharSequence slices by character** — char_indices model at byte level equals take/drop.
- **C41 LanguageSet algebra** — denotational semantics of `LanguageSet`.
- **C42 Language guessing is rule-order independent** — fold of intersections/differences; membership characterisation.
- **C43 Optimised regular expressions agree with regex semantics** — regex semantics of the supported shapes given as a small declarative matcher.
- **C44 Beider-Morse output is a sorted set** — Spec.BMEngine defines the encoding of one text declaratively (segments, combine, passes); the loops are proved equal to it and its lists sorted. Any directory that loads, via parser and loader models.
- **C45 Beider-Morse respects max_phonemes while applying rules** — apply (loops with early exit) = first max combinations with distinct texts, sorted; length bounds by induction on segments; witness that the final rules may exceed the maximum.
- **C46 Name and rule types parse back what they print** — finite type round trip and case analysis.
- **C47 Phoneme ordering is the lexicographic order of texts** — comparison function vs lexicographic order.
- **C48 NYSIIS computes its published rules** — declarative definition in Spec/Nysiis; the loop is proved equal to it by induction on the remaining letters.
- **C49 Metaphone equals a position-wise table** — declarative definition in Spec/Metaphone (one code per position); loop invariant: code so far, skip counter determined by the letters before.
- **C50 Phonex computes its definition** — declarative definition in Spec/Phonex; loop invariant over (last, last_push, code) reduced to collapse of the digit stream.
- **C51 is_double_metaphone_equal compares codes** — corollary of C29/C30: both calls return, and the answer is equality of the stored codes.
- **C52 Beider-Morse encoding is total for rules that list any** — Loader model (directory, parsers, includes) proved to establish the invariant the encoder needs; strong induction on the length of the lower-cased name; witnesses for the panics.
- **C53 encode_with_languages returns unless the only language is unknown** — Exact characterisation of the rule table of a loaded configuration (buildRules_exact).
- **C54 Structure of Beider-Morse codes** — Recursion equation for encode (fuel eliminated), three cases, prefix and words specified relationally (NamePrefix, Words).
- **C55 Every Beider-Morse phoneme is a choice of alternatives** — Induction on segments with the relation Choice.
- **C56 Beider-Morse ignores case, and hyphens when languages are given** — encode depends on the cleaned name only.
- **C57 The Beider-Morse code of a blank text is empty** — Instance of the structure theorem.
- **C58 Lists of languages are read line by line** — Model of parse_liste (Model/BMLanguages). Specification: a file is a sequence of items (Spec.Reading, ListItem.Reads); proved by induction on readings that the loop follows every reading, and by length that every text has a maximal reading.
- **C59 Language-guessing rules are read line by line** — Model of parse_lang (Model/BMLang), regular expressions abstract (RegexEngine.error says whether one compiles). Specification LangItem.Reads/langRules; induction on readings.
- **C60 Phoneme expressions have one meaning** — Model of parse_phoneme and parse_phoneme_expr. Specification ExprReads (grammar); both directions proved by case analysis on the brackets and bars; totality by induction on the alternatives.
- **C61 Rule files mean what their lines say** — Model of parse_rule with an arbitrary resolver; includes nested at most `depth` deep. Specification FileRules/Collects, a relational meaning of the items. Both directions by induction on depth and readings, with the invariant that the map has no empty lists and no repeated keys.
- **C62 Errors in rule files** — As C61: a rank function on files bounds the recursion; a cycle is shown to exhaust every depth.
- **C63 A directory loads exactly when its files can be read** — Model of ConfigFiles::new on an abstract directory (entries, read). Specification Loadable/Loaded; both directions by induction on the loops over name types, rule types and languages.
- **C64 A missing list of languages panics** — The panic of Languages::get(..).unwrap() in build_langs is in the model; induction on the loop over name types.
- **C65 Match Rating compares codes by greedy matching** — Spec: the greedy matching as a list of pairs of positions (mraMatches), rating and minimum rating. The blanking loop of the model is related to the list of pairs by an invariant (length, contents and count of what is not blank).
- **C66 The embedded Beider-Morse rules always load, to the same configuration** — Model/BMEmbedded.lean contains the 18 files verbatim (generated). One kernel evaluation of the loader on them with ASCII tables and an engine that accepts seven expressions only; a transfer lemma by induction on the parsing loops carries the result to all tables, engines and depths.
- **C67 Encoders with the embedded rules are total** — Instances of C52 and C53 for the embedded origin, from C66.
- **C68 The alphabet of Beider-Morse codes** — Strong induction on the length of the name over the three cases of the encoding (prefix, words, text), with the origin of phonemes (C55); for the embedded rules the alphabet of the phonemes comes from the evaluation of C66.
- **C69 Embedded codes do not depend on the regex engine** — Congruence of the encoding in the regex engine, for engines that agree on the contexts of the rules; the contexts of the embedded rules come from the evaluation of C66. A specification of the seven expressions (pieces at the start or the end of the text) and a correct engine show that the hypothesis can be met.
- **C70 Double Metaphone: the rules of pronunciation** — A separate specification (Spec/DoubleMetaphone.lean) of the sound of a letter from the text before and after it. Byte offsets into an ASCII word become characters of the neighbourhood; each handler is then compared with its table, for all neighbourhoods, and the loop by induction on the rest of the word. Limits by C29.
- **C71 Double Metaphone: texts without English consonants** — Induction over the text: the branches taken never look at a neighbour, so byte offsets do not matter.
- **C72 Caverphone writes the sounds of the letters** — Every replacement before the compaction is a substitution of single letters selected by their neighbours; closed forms for the groups of rules are derived by rewriting predicates 'the letter at i is x' backwards through the stages. 3gh3 needs an invariant on non-overlapping matches. The compaction commutes with the later rules. The resulting text spells the sounds position by position.
- **C73 Huge limits panic** — String::with_capacity is modelled with its capacity check (whether the memory is available is not); Phonex: totality below the limit and evaluation above; Double Metaphone: C30 and evaluation.
- **C74 Repeated Daitch-Mokotoff codes** — Invariant of the partial codes of the specification (C35): no two are equal, the last alternatives are among those of the last group, and zeros are only at the start, so that padding is injective. The repeated code is an evaluation.
- **C75 Caverphone and strict NYSIIS panic exactly when the cut falls inside a letter** — From the specifications of the codes (C48, C72) and the meaning of slicing at a byte.
- **C76 Metaphone on every text** — The ASCII specification of C49 with the lookups that use byte offsets made explicit; induction over the letters with the same invariant.
- **C77 Double Metaphone beyond ASCII** — simulation between the run on the text and the pure specification run on the padded shadow of the text: every comparison the encoder makes is with ASCII text, so a slice that succeeds agrees with the slice of the padded text; handler by handler, then induction on the letters.
- **C78 Double Metaphone panics on misplaced accents** — per handler, the conditions before the offending comparison are never true, and that comparison slices inside a letter; an invariant on how many letters each sound can cover shows that the letter is not skipped, so the loop must handle it unless the limit is reached.
- **C79 Double Metaphone returns when accents stay out of the windows** — every slice of every handler starts and ends at a place inside the window, where ASCII letters make each byte position a letter boundary; then the loop by induction and C77 for the codes.
- **C80 Printed results and messages keep what they show apart** — codes contain no comma (C31), numerals no space, names no comma: the first separator splits two equal printed forms in the same way.
- **C81 encode_with_languages uses the given languages, or ignores them** — the recursion equation of encode_with_language_set (C54) with the languages free.
- **C82 Beider-Morse and blanks** — both sides rewritten to the structure theorem of C54 on the common list of words.
- **C83 Codes ignore case, punctuation and blanks** — Every encoder reads its text only through the cleaned letters (or the upper-cased text), so equal cleaned forms give equal outcomes; for Match Rating the reduced name of the specification is a function of the cleaned name. ASCII corollaries are stated with ASCII-only functions. The one-letter exception is proved for every letter.
- **C84 Doubled letters** — On the specifications: a doubled letter gives a doubled code, which collapsing removes; for Cologne a letter other than C, D, P, T, X has a code of its own, and the letters before and after it see the same neighbours. Transferred to the code by the equality with the specifications.
- **C85 A large enough max_phonemes makes no difference** — Define the passes without a maximum; each capped step equals the uncapped one once the maximum exceeds the number of combinations; fold over segments, phonemes and passes; strong induction on the length of the cleaned name for prefixes and words.
- **C86 Without language tags and with room enough, Beider-Morse lists all choices and nothing else** — The uncapped passes of C85 list exactly the choices: induction on segments for one pass, composition for the three passes, with the invariant that the languages of all phonemes stay non-empty.
- **C87 Daitch-Mokotoff codes are exactly the codes of the choices** — From the specification C35: membership in the fold over groups is the existence of a choice (induction on groups); the truncating fold writes the first six characters of the untruncated text.
- **C88 Codes of ASCII text do not depend on the Unicode tables** — Each use of a table (case mapping, trim, alphabetic, lower-case, whitespace) is shown equal on ASCII text, and the text at that point is shown to be ASCII; for Beider-Morse by induction on the recursion of the encoder.
- **C89 Beider-Morse codes can be taken apart** — Specification of balance and of cutting in Spec/BMPieces; balance by induction on the length of the lower-cased text, then the structure theorems of C54 with lemmas about cutting a concatenation.
- **C90 Codes of longer names extend codes** — The loops process a concatenation by continuing with the state reached; every step only extends the buffer. For Cologne only the step of the last letter depends on what follows, and it writes at most one digit.
- **C91 The beginning of a name decides the beginning of its code** — From the specifications: the start rules see only the first letters, the letter rules look at most two letters ahead, the ending rules rewrite at most a bounded suffix; so the codes of a word and of its continuation share all but a bounded tail.
- **C92 Loading a directory does not depend on how it is listed** — The loop over the entries fails exactly when a listed list is unreadable, otherwise its map has for each name type the parsed list; the later loops use that map only through look-ups, and read only files named ….txt.
- **C93 Which strings are codes** — The sets are defined in Spec/Codes.lean without reference to the encoders. Soundness from the specifications proved earlier; completeness by building a word with one syllable per code character and computing its code by induction.
- **C94 A directory that cannot be listed is an error, not a panic** — Model/BMPath.lean: the listing is a parameter whose entries may be errors; refinement to the loading of a directory without such errors; the failing cases by induction on the entries before the error.
- **C95 The order of Daitch-Mokotoff rules** — Via the meaning of rule files (C35): the applicable rule is the first of those with the longest pattern, and two patterns of the same length that start the same text are equal; so it depends only on the first rule of each pattern.
- **C96 Builders: the last call of each setter counts** — Induction over the sequence of calls.
- **C97 Refined Soundex is finer than Soundex, except for H and W** — Via the declarative definitions (C03, C09): collapsing runs of refined codes before mapping them to plain codes, dropping the silent ones and collapsing again gives the same digits.
- **C98 The layout of Beider-Morse rule files does not matter** — Spec/BMLayout defines what a file says as its items without layout. Rules are erased of location and line; the engine is shown to ignore those (induction on each loop, on the fuel); the rule table of a file is shown to depend, up to erasure, only on its lines (induction on the include depth and on items); parsing is deterministic.
- **C99 The beginning of a name decides the beginning of its Double Metaphone and Caverphone codes** — From the letter-by-letter specifications (C70, C72): each sound depends on at most five (two) following letters, so the sounds of all letters but the last ones agree by induction on the word; each sound gives at most two (one) characters.
- **C100 Exactly which letters an encoder confuses** — Interchangeable, together and the letter groups are defined in Spec/Interchange.lean. Exchange inside a group: mapping every letter to a representative of its group commutes with the encoder, by induction over the loops or over the declarative definitions. Telling letters apart: a few texts on which the codes of all letters of different groups differ, evaluated by the kernel at one Unicode table and transferred to all by C88 and to all maxima by truncation.
- **C101 Exactly which letters may be written twice** — Spec/Doubled.lean defines Doublable. One direction by proofs about the independent specifications (context lemmas: the code of the letter after itself is the code of the letter, collapsed or dropped by the encoder); the other by contexts in which every other letter is encoded differently, transferred from ASCII to every Unicode table.
- **C102 Exactly which letters may be left out** — Spec/Doubled.lean defines Omissible. Positive part by induction over the loop of Soundex and by the specification of the Match Rating code; negative part by contexts as for C101.
- **C103 Codes are hardly longer than names** — From the declarative specifications: weigh each letter (1, and 1 more for X or Z); by induction over the word the contribution of each letter weighs at most as much as the letters that it covers (Double Metaphone: two-character sounds cover a second letter), and the finishing steps only shorten.
- **C104 Names with one code** — Daitch-Mokotoff: a check of the embedded rules by the kernel (a rule with two alternatives starts with C, J, RS, RZ or a letter beyond ASCII), then induction over the text: the product of the numbers of alternatives is at most 2^k. Double Metaphone: from the rules of pronunciation (C70), letter by letter.
- **C105 Letters that are always heard, and names with a blank code** — From the specifications of the encoders. Cologne, Phonex, Match Rating: exact characterisations through the cleaned word. Metaphone: the first heard letter is coded, since only heard letters could absorb it. NYSIIS: a heard letter is never rewritten to A or S and cannot be dropped, then the ends. Caverphone: the replacement steps keep a heard letter or a capital. Double Metaphone: induction over the reading with an invariant of the places that can be reached with a blank code (what a silent sound covers and what follows). Daitch-Mokotoff: the heard letter belongs to a pattern all of whose alternatives have digits other than zero (checked on the embedded table), and such an alternative cannot repeat a blank code.
- **C106 What the first character of a code says about the beginning of the name** — Tables in Spec/FirstCharacter.lean. From the specifications of the encoders: the first piece written for the word is found by case analysis on the first letters; later steps (collapse, final rules, cuts, padding) keep the head. For the exact statements about vowels, the pieces written inside a word have no vowel. Daitch-Mokotoff: the first group uses the start alternatives of a rule whose pattern starts with the letter; all the embedded rules are checked against the table by the kernel.
- **C107 A code that is encoded again** — The earlier properties describe the set of codes of each algorithm (C51 and later). Applied to a code, the cleaning step keeps its letters only; the specification of the encoder is then evaluated on one letter (or, for Match Rating and Caverphone, on the letters of the code by induction). For Daitch-Mokotoff no embedded rule begins with a digit or |, so the loop never applies a rule.
- **C108 How many codes there are** — The exact sets of codes are known (C51 and later). A set of strings is counted by its first character: if the tails after each of finitely many first characters are counted, the whole is the sum; the counts follow by induction on the room that is left, with an automaton of two to four states for the codes whose letters restrict their neighbours. The last part is the pigeonhole principle.
- **C109 The embedded Beider-Morse rules are the lines of the files** — Spec/BMEmbeddedTable.lean lists the lines of the files; it was extracted by a script that shares nothing with the modelled parsers. The model of the loader is evaluated by the kernel once, for one regex engine and ASCII tables, and compared with what the lines mean (parse_quadruplet, whose meaning IsRule is proved in C61); the transfer lemma of C66 gives all engines and tables.
- **C110 The default Daitch-Mokotoff encoder computes its table** — Spec/DaitchMokotoffTable.lean is the table, extracted by a script that shares nothing with the modelled parser; the encoder of a file that consists of these lines is compared with the built one by the kernel, and C35 gives the meaning of a file.
- **C111 Equal codes stay equal when texts are put together** — From the declarative definitions (C03, C09): collapsing runs across a seam depends on the left text only through its collapsed codes and last code; three digits of a concatenation depend only on three digits of its parts.
- **C112 Different settings, different codes** — Metaphone and Double Metaphone: the sets of codes of C93 determine the limit. Phonex: the code of the empty text has the configured length. NYSIIS: a long name. Refined Soundex: the code of a single letter shows its entry in the mapping. Soundex (spec: Spec/Settings.lean, when a letter is passed over and as which digit it is heard): names of two letters show the digits, names a-b-c-b whether c is passed over, and names c-b whether the first letter suppresses the digit; conversely the lists of heard codes are equal.
- **C113 Comparing values** — Model/Order.lean spells the derived comparisons out (fields in order, variants in order); Spec/Orders.lean says what a total order is. Lexicographic combinations of total orders are total orders; the limit in a result is that of the encoder by the invariant of the main loop.
- **C114 When concat makes a difference, and which words are dropped** — Spec/Undivided.lean defines names that are not divided by induction over prefixes. From the structure of codes (C54): for one word the text that is encoded is the word, with or without concat; for a prefix by induction; names without words have empty codes (C57). Dropped words: the code is a function of the kept words and the languages.
- **C115 difference is a similarity** — From C02 (the difference counts agreeing positions): induction over the codes for the triangle inequality and for beginnings; from C93 (which strings are Soundex codes) a code with any wanted number of agreements is constructed.
- **C116 Codes are put together from the codes of parts** — From the positional definitions (C10, C09, C49): the codes of the letters after a vowel depend on the text before only through the vowel, by induction; a zero separates the runs that are collapsed; zeros after the first digit are dropped. Cases show that the conditions (vowel, not after C) are needed.
- **C117 A change inside a name changes only the inside of its code** — Two cuts by C116; the length of the part in the middle from the lengths of codes (C103).
- **C118 Stored values are read back as they were** — Model/Stored.lean writes out what the derives of serde generate, on serde's data model; Spec/Stored.lean says when data spells a value, without the readers. Each reader is characterised by an equivalence, from which round trip, order and missing entries follow.
- **C119 Comparing encoders and settings** — Model/OrderEncoders.lean spells the derived comparisons out. Lexicographic combinations of total orders are total (as for C113); the settings are recovered from the codes by C112.
- **C120 Exactly which neighbouring letters may change places** — Spec/Swapped.lean defines when two letters may change places. Letters that are confused (C100) may change places: replace one by the other and back. H and W, and vowels in Match Rating, are ignored (C102). For NYSIIS a canonical map that sends A, O to U commutes with all rules but MAC, and an exchange of two vowels neither makes nor breaks MAC. For Caverphone the sounds of the letters (C72) are the same letter by letter if a and o, or e and i, change places; only at the end of a word of the second version one vowel becomes two. For the other pairs of letters the kernel evaluates the code in a few contexts, one of which tells them apart.

## Trusted base

* Lean's kernel, and the axioms `propext`, `Classical.choice`, `Quot.sound` at most (the core library's own; many theorems
  use fewer). No other axiom, no compiled evaluation: `decide +kernel` evaluates in the kernel.
* The reading of the Rust code by the author of the model. Each definition cites the lines it models; the test vectors in
  `lean/Verif/Tests/*` (kernel evaluation) and the runs described in `conformance/README.md` check this reading on the crate's
  own vectors.
* The `Unicode` structure in `Basic.lean` as a statement about Rust's standard library: the case, letter, number and white-space
  tables of `char` are arbitrary functions, subject to the listed laws (ASCII behaviour; upper and lower case are never empty;
  lower-casing is idempotent on characters; the umlauts and the two lower-case sigmas). `str::to_lowercase` treats the final sigma
  by an arbitrary test on the context.
* Standard library functions on strings as defined in `Basic.lean` and `Model/Lib.lean`: slicing by bytes panics off a character
  boundary, `str::replace` replaces the leftmost non-overlapping occurrences, `char_indices`, `starts_with`, `split`, `trim`,
  `parse`, `String::with_capacity` (panics beyond `isize::MAX`; lack of memory is not modelled).
* `BTreeSet<String>`/`BTreeMap` are sorted lists without repetition (`Model/BMLanguages.lean`); the order of `String` is the order
  of its bytes, which is that of its characters.
* The `nom` combinators used by `rules_parser.rs` are modelled by hand-written parsers on the remaining text
  (`Model/RulesParser.lean`): `tag`, `take_until`, `take_while`, `is_not`, `delimited`, `opt`, `alt`, `many`-style loops, with their
  first-match semantics. Theorems C37, C58 to C63 state the resulting grammar.
* The `regex` crate is the parameter `RegexEngine`: which expressions compile, and which texts match. The theorems hold for every
  engine, C66 and C69 for every engine that accepts (is right about) seven listed expressions. The crate's own `OptimizedRegex` is
  modelled completely (C43).
* The file system is the parameter `Directory`: a list of entries and the contents (or failure) of reading each name (`Path`, where
  the listing may fail too: C94). It does not
  change while a configuration is loaded. Errors of the operating system are opaque.
* `enum_iterator::all`, `either`, `lazy_static` have their documented meaning. The static tables
  (name prefixes, embedded files) are constants of the model.

## What is modelled

All functions of the following files outside tests, with the exceptions below; names follow the source.
`caverphone.rs`, `cologne.rs`, `daitch_mokotoff.rs` (with the embedded rules, `Model/DaitchMokotoffRules.lean`),
`double_metaphone.rs`, `helper.rs`, `lib.rs`, `match_rating_approach.rs`, `metaphone.rs`, `nysiis.rs`, `phonex.rs`,
`refined_soundex.rs`, `rules_parser.rs`, `soundex.rs`, `beider_morse/engine.rs`, `lang.rs`, `languages.rs`, `mod.rs`,
`regex_optim.rs`, `rule.rs` (with the embedded files verbatim, `Model/BMEmbedded.lean`).

## What is not modelled

* Derived implementations of `Clone`, `Debug` and `Hash`, and the derived orders of `DaitchMokotoffSoundex` and of internal types (those of
  the other encoders, public results, sets and errors are modelled, `Model/Order.lean`, `Model/OrderEncoders.lean`). The derived `Serialize` and `Deserialize` of the public types with
  content are modelled on serde's data model (`Model/Stored.lean`), not those of internal types (phonemes, optimised regexes) and not
  how a format (JSON, ...) spells the data. Values can be read that no constructor would return (an inconsistent `CharSequence`, C118;
  `charSequence_any` of C40 is about those too).
* `Display` of rules (`Rule`, `LangRule`), which is only used for debugging. The texts of operating-system and regex errors.
* Running time and memory, except where the code never ends (an `#include` cycle) or asks for an impossible capacity.
* Integer overflow of `usize` additions on lengths: strings longer than `isize::MAX` bytes do not exist. Subtractions are checked.
* The benches, examples and build configuration. Feature flags: the embedded rules are modelled as if enabled.

## Wrong programs

`seeded/LOG.jsonl` records edits of the model and which theorems fail on them. Besides edits made by hand, rounds of random edits
(operators, constants, strings, swapped branches) of every definition in `lean/Verif/Model` were built in a scratch copy with
the tests removed; the few survivors are equivalent programs (explained in the log) or led to tightened theorems.

## What the proofs found in the code

These are facts about the code that the theorems state; none of them contradicts a proved property.

* Double Metaphone panics on many ordinary accented names, such as García or Gómez (C78), because it slices by bytes; Metaphone
  mixes byte and character offsets, so that it can panic, or look at the wrong letters, beyond ASCII (C76).
* Strict NYSIIS and Caverphone panic when the cut falls inside a letter (C75). Soundex panics on letters outside A to Z (C07).
* In Double Metaphone the comparison with `VAN`/`VON` in the CH rule compares a slice of four bytes with three-letter words and
  never holds; handlers for G and T compare with `"VAN "` and `"VON "`.
* The Caverphone rule `3gh3` misses overlapping matches (C72).
* Daitch-Mokotoff codes can repeat in the output (C74).
* Huge limits make Phonex and Double Metaphone panic at allocation (C73).
* Beider-Morse files: `#include` replaces the rules of the same letter read before; a bad regular expression in a language file is
  reported with the line after it; errors in phonemes carry no line; a missing list of languages panics (C64); a cycle of includes
  never ends; a rule with an empty pattern panics.
* Match Rating comparison panics on names without real letters (C22).
