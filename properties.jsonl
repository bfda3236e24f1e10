{"id": "C01", "title": "is_encoded_equals is code equality and an equivalence relation", "statement": "For every encoder that inherits the trait's default is_encoded_equals (all but MatchRatingApproach), is_encoded_equals(a,b) returns true exactly when encode(a) and encode(b) return the same code; hence on strings that encode accepts it is reflexive, symmetric and transitive, and it panics exactly when encoding a or b panics.", "quantifier": "every encoder, every pair / triple of strings", "why_tests_cant": "Equivalence laws quantify over all pairs and triples of texts and over every encoder that inherits the default method; a test compares a few pairs, and a pair that breaks transitivity or panics in one order only would go unnoticed.", "anchors": ["src/lib.rs: Encoder::is_encoded_equals"]}
{"id": "C02", "title": "difference counts the agreeing positions", "statement": "difference(a,b) is the number of positions i at which both codes have a character and the characters are equal; it is symmetric, at most the shorter code's length, 0 when either code is empty, and difference(a,a) is the length of a's code. For Soundex it is at most 4 and equals 4 exactly when both codes are equal and non-empty.", "quantifier": "every mapping, every pair of strings", "why_tests_cant": "The count depends on both codes at every position and on their lengths; symmetry and the bound are claims about all pairs of texts and all mappings, of which a test sees a handful.", "anchors": ["src/lib.rs: SoundexCommons::difference"]}
{"id": "C03", "title": "Soundex computes the declarative American-Soundex definition", "statement": "For every mapping table, every H/W flag and every string, Soundex::encode returns the code defined declaratively: keep the letters, uppercase them, keep the first; map the others (dropping H/W when flagged, dropping silent '-' letters), collapse runs of equal codes (including with the first letter's code), drop '0', keep three, pad with '0'.", "quantifier": "every 26-entry mapping, every flag, every string whose cleaned letters are A-Z", "why_tests_cant": "Agreement of a loop that carries state (last digit, H/W handling, early stop) with a definition in one sentence must hold for every text, every table of 26 codes and both flags; tests fix three tables and a list of names.", "anchors": ["src/soundex.rs: Soundex::encode", "src/lib.rs: SoundexUtils::soundex_clean"]}
{"id": "C04", "title": "Soundex code shape", "statement": "The code is empty exactly when the input has no alphabetic character; otherwise it has exactly 4 characters: the uppercased first letter followed by non-'0', non-'-' codes of the mapping and then only '0' padding; with the default mapping the last three are digits 0-6.", "quantifier": "every mapping, every string accepted by encode", "why_tests_cant": "That a code never has another shape is a negative claim about all texts and tables; a text with unusual letters, or a table with unusual codes, is not in the test list.", "anchors": ["src/soundex.rs: Soundex::encode"]}
{"id": "C05", "title": "Soundex ignores case and non-letters", "statement": "Two ASCII strings with the same sequence of letters up to case have the same Soundex code (and difference/is_encoded_equals treat them alike); inserting spaces, digits, punctuation anywhere never changes the code.", "quantifier": "every mapping, every pair of strings", "why_tests_cant": "The noise can be inserted anywhere, in any amount and any case; a test inserts a few characters in a few names.", "anchors": ["src/lib.rs: SoundexUtils::soundex_clean", "src/soundex.rs: Soundex::encode"]}
{"id": "C06", "title": "Soundex treats H and W after the first letter as transparent", "statement": "With the H/W flag, deleting every H and W after the first letter leaves the code unchanged, so a letter of the same class as the letter before it is not coded when only H, W or non-letters separate them, for every mapping and anywhere in the word, while a vowel (code '0') between them makes both coded.", "quantifier": "every mapping, every ASCII string", "why_tests_cant": "The rule involves letters at any distance (any run of H and W between two letters), every table and every place in the word.", "anchors": ["src/soundex.rs: Soundex::encode"]}
{"id": "C07", "title": "Soundex panics exactly on letters outside A-Z that it reaches", "statement": "encode never panics on ASCII input; it panics exactly when a cleaned character outside A-Z is examined before four code characters have been produced (e.g. \"é\").", "quantifier": "every mapping, every Unicode string", "why_tests_cant": "Exactness has two sides: no panic on infinitely many accepted texts, and a panic on each of the others; whether a letter is reached depends on everything before it.", "anchors": ["src/soundex.rs: Soundex::get_mapping_code", "src/soundex.rs: Soundex::encode"]}
{"id": "C08", "title": "Soundex and RefinedSoundex constructors validate the mapping", "statement": "Parsing a mapping string (from_str, TryFrom<&str>, TryFrom<String>) succeeds exactly when it has 26 characters and the resulting encoder uses exactly those characters in order; on failure the error is the list of its characters. For Soundex the H/W special case is enabled exactly when no entry is '-'.", "quantifier": "every string", "why_tests_cant": "Acceptance and rejection range over all strings and arrays of any length; tests try a few lengths.", "anchors": ["src/soundex.rs: From<[char;26]>, TryFrom<&str>, FromStr, TryFrom<String>", "src/refined_soundex.rs: FromStr, TryFrom"]}
{"id": "C09", "title": "RefinedSoundex computes first letter plus run-collapsed codes", "statement": "For every mapping and string, RefinedSoundex::encode is empty iff there is no letter; otherwise it is the uppercased first letter followed by the codes of all letters with consecutive equal codes collapsed: no two adjacent codes are equal, and the length is at most number of cleaned letters + 1; it panics exactly when some cleaned character is not A-Z.", "quantifier": "every mapping, every string", "why_tests_cant": "The loop collapses runs across the whole word; agreement with the definition must hold for every table and every text.", "anchors": ["src/refined_soundex.rs: RefinedSoundex::encode"]}
{"id": "C10", "title": "Cologne computes the positional Kölner-Phonetik definition", "statement": "For every string, Cologne::encode equals: uppercase, replace Ä/Ö/Ü, give every letter A-Z the code(s) determined only by the letter, the previous letter, the character right after it and whether only H's came before; then collapse equal neighbours (H separates), drop H's, drop '0' except in first position.", "quantifier": "every string", "why_tests_cant": "Each rule looks at the neighbours, at the beginning of the word and at what was written last; the combinations of contexts are unbounded, and the published vectors visit few of them.", "anchors": ["src/cologne.rs: Cologne::encode", "src/cologne.rs: CologneOutput::push"]}
{"id": "C11", "title": "Cologne is total with a digit code", "statement": "Cologne::encode never panics; its code contains only the digits 0-8, contains '0' at most in first position and never contains more than two digits per letter; it is empty exactly when the (uppercased, umlaut-folded) input has no A-Z letter other than H.", "quantifier": "every Unicode string", "why_tests_cant": "Absence of panics and of other characters in the code is a claim about every Unicode text.", "anchors": ["src/cologne.rs: Cologne::encode"]}
{"id": "C12", "title": "Cologne ignores case and umlauts", "statement": "Strings with the same uppercase form have the same code, and replacing ä/ö/ü (either case) by a/o/u never changes the code.", "quantifier": "every string", "why_tests_cant": "Every text with any combination of case and umlauts has to agree with its plain form; tests compare a few spellings.", "anchors": ["src/cologne.rs: Cologne::encode"]}
{"id": "C13", "title": "Caverphone codes have fixed length", "statement": "Caverphone1 codes always have exactly 6 bytes and Caverphone2 codes exactly 10, on every input on which encode returns; the result for input with no lowercase letters after lowercasing is all '1'.", "quantifier": "every string", "why_tests_cant": "The length of the padded code must be right for texts of every length, including those that are cut and those that are empty.", "anchors": ["src/caverphone.rs: Caverphone1::encode, Caverphone2::encode"]}
{"id": "C14", "title": "Caverphone never panics on ASCII and uses a fixed alphabet", "statement": "On ASCII input neither Caverphone panics, and the code is a (possibly empty) run of letters of A F K L M N P R S T W Y followed by '1' padding.", "quantifier": "every ASCII string", "why_tests_cant": "A dozen global replacements are applied one after the other; that none leaves a stray character, and none slices inside a letter, is a claim about all texts.", "anchors": ["src/caverphone.rs: Caverphone1::encode, Caverphone2::encode"]}
{"id": "C15", "title": "Caverphone ignores case and non-letters", "statement": "Two ASCII strings whose letters are the same up to case have the same Caverphone 1 and 2 codes.", "quantifier": "every pair of ASCII strings", "why_tests_cant": "Noise may appear anywhere in any amount; it must never separate letters that a replacement looks for together.", "anchors": ["src/caverphone.rs", "src/helper.rs: remove_all_non_letter"]}
{"id": "C16", "title": "Caverphone2 ignores a final e", "statement": "Appending one 'e' to a word that contains no capital sigma and whose letters do not already end in 'e' does not change its Caverphone2 code. (With a capital sigma it can: lower-casing sigma depends on whether it ends the word.)", "quantifier": "every string without capital sigma", "why_tests_cant": "Must hold for every text that ends in e, whatever the rules do with the letters before it.", "anchors": ["src/caverphone.rs: Caverphone2::encode", "src/helper.rs: replace_end"]}
{"id": "C17", "title": "Strict NYSIIS is the 6-character prefix of the full code", "statement": "For ASCII input the strict NYSIIS code is exactly the first six characters of the non-strict code, hence at most six long; neither panics.", "quantifier": "every ASCII string", "why_tests_cant": "The prefix relation between the two modes must hold for texts of every length, including those shorter than the cut.", "anchors": ["src/nysiis.rs: Nysiis::encode"]}
{"id": "C18", "title": "NYSIIS code alphabet", "statement": "On ASCII input every character of the code is an uppercase letter, and after the first character none of E I O U Q Z M K occurs; the code of an input without letters is empty.", "quantifier": "every ASCII string", "why_tests_cant": "That a character never occurs in a code is a claim about the codes of all texts.", "anchors": ["src/nysiis.rs: Nysiis::encode"]}
{"id": "C19", "title": "NYSIIS ignores case and non-letters", "statement": "Two ASCII strings with the same letters up to case have the same NYSIIS code in both modes.", "quantifier": "every pair of ASCII strings", "why_tests_cant": "Case and noise may change at every position of every text.", "anchors": ["src/nysiis.rs: Nysiis::encode", "src/lib.rs: SoundexUtils::soundex_clean"]}
{"id": "C20", "title": "Match Rating codes have at most six characters, first three and last three", "statement": "MatchRatingApproach::encode never returns more than 6 bytes; when the reduced name is longer than 6 it returns its first three followed by its last three bytes; it never panics on ASCII input; blank or one-byte names give the empty code.", "quantifier": "every string", "why_tests_cant": "The code is cut in the middle; its length and the letters kept must be right for words of every length and for doubled letters anywhere.", "anchors": ["src/match_rating_approach.rs: MatchRatingApproach::encode"]}
{"id": "C21", "title": "Match Rating comparison laws", "statement": "MatchRatingApproach::is_encoded_equals is symmetric, true for identical names of at least two bytes (after trimming), false when either name is blank or one byte or when code lengths differ by three or more, and true whenever both names have the same non-empty code.", "quantifier": "every pair of strings (for the law on equal codes: those whose encoding returns)", "why_tests_cant": "Symmetry, reflexivity and the effect of lengths are claims about all pairs of names.", "anchors": ["src/match_rating_approach.rs: is_encoded_equals, left_to_right_then_right_to_left_processing"]}
{"id": "C22", "title": "Exactly when the Match Rating comparison panics", "statement": "is_encoded_equals returns a boolean for every pair of ASCII names that contain something else than white space and removable punctuation. For names whose encoding returns it panics exactly when the names differ, have at least two bytes after trimming, and one code is empty while the other is shorter than three bytes (a length subtraction underflows). In general, for names in any alphabet, it panics exactly when the names differ, have at least two bytes after trimming, and either the cut to the first and last three bytes of one reduced name falls inside a letter, or one name reduces to nothing and the other to less than three bytes.", "quantifier": "every pair of strings", "why_tests_cant": "Exactness of the set of panicking pairs is a claim about all pairs of Unicode texts; tests cannot show that no other pair panics.", "anchors": ["src/match_rating_approach.rs: is_encoded_equals, left_to_right_then_right_to_left_processing"]}
{"id": "C23", "title": "Metaphone respects the maximum code length", "statement": "Metaphone::encode with Some(n) returns at most n characters for every text whose upper case is not a single byte; a single-byte text is returned as is, whatever n (so n = 0 is exceeded there).", "quantifier": "every limit, every string", "why_tests_cant": "The limit must hold for every limit and every text, also where one letter writes two characters (X) at the limit.", "anchors": ["src/metaphone.rs: Metaphone::encode"]}
{"id": "C24", "title": "Metaphone truncation is stable", "statement": "For every text whose upper case is not a single byte, the code produced with limit n is the first n characters of the code produced with any larger limit or without limit, so raising the limit only extends a code and codes equal at a larger limit are equal at a smaller one.", "quantifier": "every pair of limits, every string", "why_tests_cant": "Relates the codes of every text for every two limits.", "anchors": ["src/metaphone.rs: Metaphone::encode"]}
{"id": "C25", "title": "Metaphone never panics on ASCII and uses its documented alphabet", "statement": "On ASCII input encode never panics and, for inputs with more than one letter, every character of the code is one of B X S K J T F H L M N P R 0 W Y or a vowel A E I O U, which appears only in first position.", "quantifier": "every ASCII string, every limit", "why_tests_cant": "Absence of panics and of other characters over all ASCII texts, where every rule looks several letters ahead or back.", "anchors": ["src/metaphone.rs: Metaphone::encode"]}
{"id": "C26", "title": "Phonex is total", "statement": "Phonex::encode never panics on any Unicode string, for any maximum length up to isize::MAX.", "quantifier": "every maximum length up to isize::MAX, every Unicode string", "why_tests_cant": "A function without panics on every Unicode text and every limit cannot be shown by samples: slicing and indexing depend on the bytes of the text.", "anchors": ["src/phonex.rs: Phonex::encode"]}
{"id": "C27", "title": "Phonex codes have exactly the configured length", "statement": "For ASCII input Phonex::encode returns exactly max characters, an uppercase letter followed by digits 0-6 (all '0' when there is nothing to encode), except that with max = 1 a word that starts (after preprocessing) with M or N followed by D or G gets its whole code, of at least two characters.", "quantifier": "every maximum length up to isize::MAX, every ASCII string", "why_tests_cant": "The length must be right for every limit and every text, including empty ones and those longer than the limit.", "anchors": ["src/phonex.rs: Phonex::encode"]}
{"id": "C28", "title": "DoubleMetaphone respects the maximum code length", "statement": "Both the primary and the alternate code have at most max_code_length characters, for every input on which encoding returns.", "quantifier": "every maximum length up to isize::MAX, every string", "why_tests_cant": "Every limit and every text; the handlers write up to two characters to each of two codes at once.", "anchors": ["src/double_metaphone.rs: DoubleMetaphoneResult, DoubleMetaphone::double_metaphone"]}
{"id": "C29", "title": "DoubleMetaphone truncation is stable", "statement": "Primary and alternate codes with limit n are the first n characters of those with any larger limit.", "quantifier": "every pair of limits up to isize::MAX, every string", "why_tests_cant": "Relates the codes of every text for every two limits; the loop stops early depending on both codes.", "anchors": ["src/double_metaphone.rs: DoubleMetaphone::double_metaphone"]}
{"id": "C30", "title": "DoubleMetaphone never panics on ASCII", "statement": "For every ASCII string and every limit up to isize::MAX, double_metaphone and encode return normally (no slice, index or arithmetic panic).", "quantifier": "every ASCII string, every limit up to isize::MAX", "why_tests_cant": "More than twenty handlers slice the word at computed offsets before and after the current letter; that no offset is ever out of range is a claim about every ASCII text.", "anchors": ["src/double_metaphone.rs"]}
{"id": "C31", "title": "DoubleMetaphone code alphabet", "statement": "Every character of both codes is one of P S K T F J H L M N R X 0, except that 'A' may be the first character of either code and a space may be the last character of the alternate code (a final J), for every input on which encoding returns.", "quantifier": "every string, every limit up to isize::MAX", "why_tests_cant": "That no handler ever writes another character is a claim about all texts.", "anchors": ["src/double_metaphone.rs"]}
{"id": "C32", "title": "DoubleMetaphone ignores surrounding whitespace and case", "statement": "Adding leading/trailing whitespace or changing ASCII case never changes either code; encode returns the primary code.", "quantifier": "every string", "why_tests_cant": "Must hold for any white space around and any case within every text.", "anchors": ["src/double_metaphone.rs: DoubleMetaphone::double_metaphone, encode"]}
{"id": "C33", "title": "Daitch-Mokotoff codes have six characters", "statement": "Every code returned by any encoder that can be built has exactly six bytes. If the alternatives in the rules are ASCII, encoding never panics, returns at least one code, and each code has exactly six ASCII characters; the embedded rules build, and their encoder returns six-digit codes for every string, never panicking. (With a non-ASCII alternative encoding may panic: witness.)", "quantifier": "every rule set, every string", "why_tests_cant": "Every branch of every text under every rule file must be padded or cut to six characters.", "anchors": ["src/daitch_mokotoff.rs: DaitchMokotoffSoundex::inner_soundex, Branch"]}
{"id": "C34", "title": "Daitch-Mokotoff encode is the first branch of soundex", "statement": "For every encoder that can be built, whenever soundex returns, its text split at '|' is the list of inner_soundex(.., true), which is not empty, and encode and inner_soundex(.., false) return exactly its first code.", "quantifier": "every rule set, every string", "why_tests_cant": "The two methods run the same loop with and without branching; their agreement is a claim about all texts and all rule files.", "anchors": ["src/daitch_mokotoff.rs: encode, soundex, inner_soundex"]}
{"id": "C35", "title": "Daitch-Mokotoff applies the longest matching rule", "statement": "The codes of an encoder built from a rule text are those of a declarative specification on the rules in the text: at each position the rule applied is a longest one (in bytes) that matches there and the earliest of those in the file; its alternatives depend on the start of the word or a following vowel; an alternative that repeats the end of the last one is dropped except between m and n; all paths in order without duplicates, cut to six bytes, padded with zeros; encode takes the first alternative everywhere. Every text that builds is covered: with alternatives that are not ASCII the encoder panics exactly when the cut after six bytes falls inside a character. (Known defect included in the specification: a pattern with accented letters skips as many characters as it has bytes; witness on the embedded rules.)", "quantifier": "every rule text, every string", "why_tests_cant": "The longest match must be found for every rule file (any number of rules with a common beginning, in any order) and every text.", "anchors": ["src/daitch_mokotoff.rs: DaitchMokotoffSoundexBuilder::build, inner_soundex"]}
{"id": "C36", "title": "Daitch-Mokotoff ignores whitespace and case, and folds when enabled", "statement": "Removing whitespace anywhere, changing the case of characters that have the same lower case (in particular ASCII letters), or (with ASCII folding) replacing a character by the folding of its lower case never changes the codes.", "quantifier": "every rule set, every string", "why_tests_cant": "All texts with any white space and case, and all folding tables.", "anchors": ["src/daitch_mokotoff.rs: cleanup"]}
{"id": "C37", "title": "Rule-file printing and parsing round-trip", "statement": "Each line parser (rule, folding, empty line or // comment, /* */ comment, language rule, include, language name) accepts exactly the texts that start with such a line in the documented syntax, returns its fields and leaves exactly what follows.", "quantifier": "every field content permitted by the syntax, every following text", "why_tests_cant": "A round trip over all rule tables: any fields with any characters, any number of rules.", "anchors": ["src/rules_parser.rs"]}
{"id": "C38", "title": "The Daitch-Mokotoff builder always returns", "statement": "build ends on every text: it returns an encoder or an error, except that it panics on a rule with an empty pattern (exactly then: a text in which a rule with an empty pattern follows correct lines panics).", "quantifier": "every text", "why_tests_cant": "Must hold for every string given as rule file, however malformed.", "anchors": ["src/rules_parser.rs", "src/daitch_mokotoff.rs: build"]}
{"id": "C39", "title": "Daitch-Mokotoff parse errors name the offending line", "statement": "A text is rejected when, after lines that are recognised, comes a line that no syntax recognises; the reported content is the text of that line, and the reported number is its 1-based number, plus one for each /* */ comment before it (a defect, with a witness), provided no newline is quoted or folded.", "quantifier": "every rule text", "why_tests_cant": "The line must be right whatever comes before it: any number of rules, comments and blank lines.", "anchors": ["src/lib.rs: build_error", "src/daitch_mokotoff.rs: build"]}
{"id": "C40", "title": "CharSequence slices by character", "statement": "Indexing a CharSequence by any range returns exactly the characters whose position lies in the range (the empty string when out of bounds or inverted) and never panics, on any UTF-8 string; the only exception is an inclusive range ending at usize::MAX, whose end overflows. Neighbouring slices join and a slice of a slice is a slice. Even a CharSequence whose length is not that of its text (one can be deserialised) does not panic: open ranges then end where the length says.", "quantifier": "every string, every range", "why_tests_cant": "Slices must be right for all strings of multi-byte characters and all ranges.", "anchors": ["src/helper.rs: CharSequence"]}
{"id": "C41", "title": "LanguageSet algebra", "statement": "restrict_to is intersection and merge is union of the denoted sets of languages (Any being everything, NoLanguages empty), so they are commutative, associative and idempotent up to denotation; is_empty and is_singleton decide emptiness / exactly one language; any() is the least listed language; two language sets with the same languages are equal except for the two representations of the empty set.", "quantifier": "every triple of language sets", "why_tests_cant": "Laws of restriction and merging are about all sets of languages, pairs and triples of them.", "anchors": ["src/beider_morse/languages.rs: LanguageSet"]}
{"id": "C42", "title": "Language guessing is rule-order independent", "statement": "guess_languages returns the set of supported languages that every matching accept rule allows and no matching reject rule forbids (Any when none is left), independent of the order of the rules.", "quantifier": "every rule list, every word", "why_tests_cant": "All permutations of all lists of rules, all texts and all regex engines.", "anchors": ["src/beider_morse/lang.rs: Lang::guess_languages"]}
{"id": "C43", "title": "Optimised regular expressions agree with regex semantics", "statement": "For every pattern in the supported shapes (a literal without special characters, or one bracket class without special characters, with an anchor ^ or $), the optimised matcher accepts a text exactly when the regular expression would find a match in it, so the optimisation cannot be observed; recognising a pattern never panics. (It does not extend to other patterns: alternations, '.' and ranges in a class are taken literally.)", "quantifier": "every such pattern, every text", "why_tests_cant": "The optimised forms must agree with regex semantics on every text for every expression that is recognised; tests try a few expressions on a few texts.", "anchors": ["src/beider_morse/regex_optim.rs"]}
{"id": "C44", "title": "Beider-Morse output is a sorted set", "statement": "For a name that is encoded as one text (no prefix, and one word or concatenation) the output is a list of strictly increasing, hence distinct, phoneme texts joined by '|'; when no phoneme of the rules contains a '|', splitting the output at the bars gives that list back.", "quantifier": "every directory of rules that loads and lists the language any, all settings, every name", "why_tests_cant": "The codes of every name for all rule files must be sorted and without repetition.", "anchors": ["src/beider_morse/engine.rs: apply_final_rule, encode_with_language_set"]}
{"id": "C45", "title": "Beider-Morse respects max_phonemes while applying rules", "statement": "After each rule application the number of phonemes does not exceed the configured maximum; every kept phoneme joins a phoneme and an alternative of the rule, its languages are exactly those that both have, and there is at least one; and below the maximum no combination with a common language is lost. The output as a whole has at most max(1,n)^3 phonemes, at most max(1,n) when the final rules are empty (the final rules may exceed n). With n = 0 the code is empty.", "quantifier": "every rule set, every word, every maximum", "why_tests_cant": "The bound must hold at every step of every name under every rule file; a rule set that multiplies alternatives is easily missed.", "anchors": ["src/beider_morse/engine.rs: PhonemeBuilder::apply, RulesApplication::invoke"]}
{"id": "C46", "title": "Name and rule types parse back what they print", "statement": "Parsing the printed form of a NameType or RuleType returns the same value, and every other string is rejected.", "quantifier": "every string", "why_tests_cant": "The rejection of every string that is not a printed name is a claim about all strings.", "anchors": ["src/beider_morse/mod.rs: NameType, RuleType"]}
{"id": "C47", "title": "Phoneme ordering is the lexicographic order of texts", "statement": "Comparing two phonemes compares their texts lexicographically by character: it is a total order whose equality is text equality (so it ignores the languages, unlike ==).", "quantifier": "every pair/triple of phonemes", "why_tests_cant": "Laws of an order, and its agreement with the order of texts, for all pairs and triples.", "anchors": ["src/beider_morse/rule.rs: Phoneme Ord"]}
{"id": "C48", "title": "NYSIIS computes its published rules", "statement": "The NYSIIS code equals a declarative definition: translate the first and last letters, rewrite each further letter from its neighbours, drop repeated keys, then trim the final S, AY and A; the default instance is strict.", "quantifier": "every string, both modes", "why_tests_cant": "The code works on a vector with lookahead and rewrites letters it has yet to read; agreement with the published rules must hold for every text.", "anchors": ["src/nysiis.rs: Nysiis::encode, Nysiis::transcode_remaining"]}
{"id": "C49", "title": "Metaphone equals a position-wise table", "statement": "On ASCII words the unlimited Metaphone code is the concatenation of one code per letter, which is a function of the letters before and after it only (with DGE/DGI/DGY groups and repeated letters silent), after rewriting of the first letters; a limit n keeps the first n characters (a text of a single character is always its own code, even with limit 0).", "quantifier": "every ASCII string, every limit", "why_tests_cant": "The code skips letters and looks around by offsets; agreement with a table of letters and contexts must hold for every text.", "anchors": ["src/metaphone.rs: Metaphone::encode"]}
{"id": "C50", "title": "Phonex computes its definition", "statement": "Phonex::encode equals a declarative definition: rewrite the start of the word, give each letter a digit from its successor (a D or G after M or N is silent), drop zeros and repeated digits, and cut or pad to the maximum; the limit has no effect once the first letter alone exceeds it.", "quantifier": "every maximum length up to isize::MAX, every Unicode string whose prepared form does not start with a digit 0-6 (upper-casing a letter never gives one in real Unicode)", "why_tests_cant": "Preprocessing of the beginning and the end, and the digits in between, interact; agreement with the definition must hold for every text and limit.", "anchors": ["src/phonex.rs: Phonex::encode, Phonex::preprocess, Phonex::transcode"]}
{"id": "C51", "title": "is_double_metaphone_equal compares codes", "statement": "is_double_metaphone_equal says whether the chosen (primary or alternate) codes are the same: it never panics on ASCII, is reflexive, symmetric and transitive, and texts equal at some limit are equal at every smaller one.", "quantifier": "every pair/triple of strings, every limit up to isize::MAX", "why_tests_cant": "All pairs of texts, both choices of the code.", "anchors": ["src/double_metaphone.rs: DoubleMetaphone::is_double_metaphone_equal"]}
{"id": "C52", "title": "Beider-Morse encoding is total for rules that list any", "statement": "From a directory of rules that loads, an encoder is built with any settings; if the list of languages names any, encode returns for every text. If the language whose rules are needed (the guessed one, or any) is not listed, encode panics.", "quantifier": "every directory, all settings, every Unicode text", "why_tests_cant": "Totality for every rule file (any contexts, any phonemes) and every text; tests run the embedded files on a few names.", "anchors": ["src/beider_morse/mod.rs: ConfigFiles::new, BeiderMorseBuilder::build", "src/beider_morse/engine.rs: PhoneticEngine::encode"]}
{"id": "C53", "title": "encode_with_languages returns unless the only language is unknown", "statement": "With rules that list any, encode_with_languages returns a code if and only if the given set is not a single language that the rules do not list (in which case it panics).", "quantifier": "every directory, all settings, every text, every set of languages", "why_tests_cant": "Exactness: every set of languages, every rule file, every text, on both sides.", "anchors": ["src/beider_morse/mod.rs: BeiderMorse::encode_with_languages", "src/beider_morse/engine.rs: encode_with_language_set"]}
{"id": "C54", "title": "Structure of Beider-Morse codes", "statement": "The code of a generic name with a prefix (d' or a listed prefix and a space) is '(' code of the rest ')-(' code of prefix and rest joined ')'; without concatenation the code of several words is their codes joined by '-'; otherwise the code is the list of phonemes of the whole text under the two-phase rule system: segments from left to right, first applicable rule, combinations of alternatives with common languages cut to the maximum, then the two passes of final rules.", "quantifier": "every directory of rules that loads and lists any, all settings, every name", "why_tests_cant": "Prefixes and words can nest to any depth; the structure of the code is a claim about all texts.", "anchors": ["src/beider_morse/engine.rs: encode_with_language_set, apply_final_rule, PhonemeBuilder, RulesApplication::invoke"]}
{"id": "C55", "title": "Every Beider-Morse phoneme is a choice of alternatives", "statement": "Every phoneme of the main pass is the concatenation of one alternative for each segment that a rule covers, and its languages are exactly the initial languages that all these alternatives have; every phoneme in the output of a name encoded at once comes from such a choice, whose alternatives have a guessed language in common, refined by the common final rules and then by those of the language.", "quantifier": "every rule set, every text, every maximum, every initial set of languages", "why_tests_cant": "Every phoneme of every code must come from a choice of rules, for all rule files; an extra phoneme would show only on names no one tested.", "anchors": ["src/beider_morse/engine.rs: encode_with_language_set, PhonemeBuilder::apply"]}
{"id": "C56", "title": "Beider-Morse ignores case, and hyphens when languages are given", "statement": "Texts with the same lower case have the same code; with given languages also hyphens and spaces are interchangeable.", "quantifier": "every encoder, every pair of texts", "why_tests_cant": "All texts in any case with hyphens anywhere, all rule files.", "anchors": ["src/beider_morse/engine.rs: encode, encode_with_language_set", "src/beider_morse/lang.rs: guess_languages"]}
{"id": "C57", "title": "The Beider-Morse code of a blank text is empty", "statement": "A text of whitespace and hyphens only has the empty code.", "quantifier": "every directory of rules that loads and lists any, all settings, every blank text", "why_tests_cant": "All texts of white space, all rule files and settings.", "anchors": ["src/beider_morse/engine.rs: encode_with_language_set"]}
{"id": "C58", "title": "Lists of languages are read line by line", "statement": "A list of languages (xxx_languages.txt) made of names, blank lines and comments is accepted and gives exactly the set of its names; any other text is rejected with the number and content of the first line that cannot be read.", "quantifier": "every text", "why_tests_cant": "All files: any number of lines, comments, blank lines.", "anchors": ["src/beider_morse/languages.rs: parse_liste", "src/rules_parser.rs"]}
{"id": "C59", "title": "Language-guessing rules are read line by line", "statement": "A file of rules that guess languages (xxx_lang.txt) is accepted exactly when every line is a rule with a valid expression, blank or a comment; the rules then are those of the file, in order, with their line numbers. Otherwise the error carries the number of the first line that cannot be read or whose expression is invalid (for the latter, the content quoted is that of the line after it).", "quantifier": "every text, every regular-expression engine", "why_tests_cant": "All files: any lines, any comments, any expressions, and every regex engine.", "anchors": ["src/beider_morse/lang.rs: parse_lang"]}
{"id": "C60", "title": "Phoneme expressions have one meaning", "statement": "The phonemes of a rule are read by a grammar: one phoneme, or alternatives in parentheses separated by bars, each with optional languages in brackets; an empty first or last alternative counts twice; an expression has at most one meaning and any other text is rejected with an error, never a panic.", "quantifier": "every text", "why_tests_cant": "All phoneme expressions, of any nesting and length.", "anchors": ["src/beider_morse/rule.rs: parse_phoneme, parse_phoneme_expr"]}
{"id": "C61", "title": "Rule files mean what their lines say", "statement": "Loading a rule file gives, for each first letter, the rules of its lines in order with their file, line, contexts and phonemes; an include adds the rules of the included file, which replace the rules read so far for every letter for which the included file has any; this does not depend on the nesting of includes.", "quantifier": "every set of files, every nesting of includes", "why_tests_cant": "All files with any number of lines, includes and comments.", "anchors": ["src/beider_morse/rule.rs: parse_rule"]}
{"id": "C62", "title": "Errors in rule files", "statement": "Loading a rule file returns (rules or an error) if no file includes itself, directly or not, and no rule has an empty pattern; an unreadable line is reported with file, line number and content; an error inside an included file is reported with the include's file and line unless it names a line itself. A cycle of includes is never loaded (the recursion does not end), and a rule with an empty pattern panics.", "quantifier": "every set of files", "why_tests_cant": "Every malformed file must give the right error and line, whatever precedes the mistake.", "anchors": ["src/beider_morse/rule.rs: parse_rule"]}
{"id": "C63", "title": "A directory loads exactly when its files can be read", "statement": "ConfigFiles::new succeeds if and only if for each name type the list of languages is in the directory and can be read, the file of guessing rules can be read, and there is a readable rule file of each rule type for each listed language and a common one for the final rule types; the configuration then contains exactly the listed languages, the guessing rules and the rules of these files.", "quantifier": "every directory, every regular-expression engine", "why_tests_cant": "All directories: any files present or missing, readable or not, well formed or not; exactness on both sides.", "anchors": ["src/beider_morse/mod.rs: ConfigFiles::new", "src/beider_morse/lang.rs: build_langs", "src/beider_morse/rule.rs: build_rules", "src/beider_morse/languages.rs: TryFrom<&PathBuf> for Languages"]}
{"id": "C64", "title": "A missing list of languages panics", "statement": "If a directory lacks the list of languages of some name type and is correct otherwise, ConfigFiles::new panics instead of returning an error; so it does for an empty directory.", "quantifier": "every such directory", "why_tests_cant": "All directories without the file, whatever else they contain.", "anchors": ["src/beider_morse/lang.rs: build_langs", "src/beider_morse/mod.rs: ConfigFiles::new"]}
{"id": "C65", "title": "Match Rating compares codes by greedy matching", "statement": "For two distinct ASCII names with non-empty codes, is_encoded_equals of Match Rating is true exactly when the lengths of the codes differ by at most two and the rating reaches the minimum for the total length (5 up to four letters, 4 up to seven, 3 up to eleven, 2 for twelve); the rating is six minus the number of letters of the longer code left unpaired when equal letters are paired position by position, from the left and from the right in turn. The same holds for names in any alphabet whose codes are non-empty and without blanks, with lengths counted in bytes and the rating being six minus the larger number of bytes left unpaired.", "quantifier": "every pair of names", "why_tests_cant": "Greedy matching from both ends must agree with the definition on every pair of codes of all lengths; tests compare some pairs of names.", "anchors": ["src/match_rating_approach.rs: is_encoded_equals, left_to_right_then_right_to_left_processing, get_minimum_rating"]}
{"id": "C66", "title": "The embedded Beider-Morse rules always load, to the same configuration", "statement": "ConfigFiles::default() returns, with every regex engine that accepts the seven regular expressions that occur in the rules, and always gives the same configuration: no rules that guess languages, and for each name type the main, approximate and exact rules for any and the common rules, with exactly the rules of the 18 embedded files. An encoder can be built from it with every name type, rule type, concat and max_phonemes.", "quantifier": "every regex engine that accepts seven expressions, all Unicode tables, all settings", "why_tests_cant": "Independence of the regex engine is a claim about all engines; the configuration is the result of parsing all embedded files.", "anchors": ["src/beider_morse/rule.rs: EMBEDDED_RULES, Rules::default", "src/beider_morse/mod.rs: ConfigFiles::default", "src/beider_morse/lang.rs: Langs::default", "rules/bm"]}
{"id": "C67", "title": "Encoders with the embedded rules are total", "statement": "With the embedded rules, encode returns for every text and never guesses a language; encode_with_languages panics exactly when it is given a single language other than any.", "quantifier": "every text, every set of languages, all settings", "why_tests_cant": "All texts, settings and languages: a panic in one rare rule would not be met by tests.", "anchors": ["src/beider_morse/engine.rs: encode, encode_with_language_set", "src/beider_morse/mod.rs: encode_with_languages"]}
{"id": "C68", "title": "The alphabet of Beider-Morse codes", "statement": "Every character of a Beider-Morse code occurs in a phoneme of the rules or is one of | ( ) -, so no character of the input leaks into the code; with the embedded rules all characters are among 39 ASCII letters and these four separators.", "quantifier": "every configuration that loads and offers any, every text", "why_tests_cant": "That no other character is ever written is a claim about all names; the alternatives of the embedded rules combine in unboundedly many ways.", "anchors": ["src/beider_morse/engine.rs: encode_with_language_set, apply_final_rule", "rules/bm"]}
{"id": "C69", "title": "Embedded codes do not depend on the regex engine", "statement": "Two regex engines that find the seven regular expressions of the embedded rules correctly give the same codes for every text, with encode and with encode_with_languages.", "quantifier": "every pair of engines correct on seven expressions, every text, all settings", "why_tests_cant": "A test runs with one regex engine; the claim is about every engine and every name.", "anchors": ["src/beider_morse/regex_optim.rs", "src/beider_morse/rule.rs: pattern_and_context_matches", "src/beider_morse/engine.rs"]}
{"id": "C70", "title": "Double Metaphone: the rules of pronunciation", "statement": "For every ASCII text, the primary and alternate codes are those given by the table of sounds of the letters (each letter's sound depends on its neighbours, the beginning and the end of the word and on whether the word looks Slavic or Germanic), read from left to right on the trimmed text in upper case and cut to the limit.", "quantifier": "every ASCII text, every limit up to isize::MAX", "why_tests_cant": "More than a hundred rules with contexts on both sides; agreement of code and rules must hold for every text.", "anchors": ["src/double_metaphone.rs: double_metaphone, handle_c, handle_cc, handle_ch, handle_d, handle_g, handle_gh, handle_h, handle_j, handle_l, handle_p, handle_r, handle_s, handle_sc, handle_t, handle_w, handle_x, handle_z"]}
{"id": "C71", "title": "Double Metaphone: texts without English consonants", "statement": "In a text, in any alphabet, without English consonants, an initial vowel gives A, C with cedilla gives S, N with tilde gives N and nothing else contributes; encoding returns.", "quantifier": "every text whose upper case form has none of the letters BCDFGHJKLMNPQRSTVWXZ, every limit up to isize::MAX", "why_tests_cant": "All texts without such letters, of any length.", "anchors": ["src/double_metaphone.rs: double_metaphone"]}
{"id": "C72", "title": "Caverphone writes the sounds of the letters", "statement": "For every text, the code of each Caverphone version is obtained by reading the lower-case letters of the lower-cased text one by one (the second version without a final e): every letter is silent, a vowel or one consonant, as given by a table that looks only at the letters before and after it in the original word; adjacent equal consonants S, T, P, K, F, M, N are written once, vowels and silent letters are not written, except that the second version writes a final vowel as A; the result is filled up with 1 and cut.", "quantifier": "every text, both versions", "why_tests_cant": "Global replacements, one after the other, must amount to the rules of pronunciation on every text; overlapping matches are the cases tests miss.", "anchors": ["src/caverphone.rs: Caverphone1::encode, Caverphone2::encode", "src/helper.rs: replace_compact_all_to_uppercase, replace_end, replace_char, remove_all_non_letter"]}
{"id": "C73", "title": "Huge limits panic", "statement": "Phonex::encode panics (capacity overflow), whatever the text, exactly when the maximum length exceeds isize::MAX; so does DoubleMetaphone::double_metaphone on ASCII texts (and beyond that limit on every text). With limits up to isize::MAX neither does.", "quantifier": "every maximum length, every string (every ASCII string for the converse of Double Metaphone)", "why_tests_cant": "All limits beyond the bound, and none below it, for every text.", "anchors": ["src/phonex.rs: Phonex::encode", "src/double_metaphone.rs: DoubleMetaphoneResult::new, DoubleMetaphone::double_metaphone"]}
{"id": "C74", "title": "Repeated Daitch-Mokotoff codes", "statement": "With the embedded rules soundex lists each code at most twice; more generally at most k times when the rules have at most k alternatives and use zeros only at the start of a word, and exactly one code is returned when no rule has alternatives. A code can indeed be listed twice: soundex(\"Oberndorfbach\") is \"079639|079639\".", "quantifier": "every string; every rule file with the stated shape and every k", "why_tests_cant": "Which codes repeat depends on all rules that branch; the claim is about all texts and rule files.", "anchors": ["src/daitch_mokotoff.rs: Branch (derived equality), DaitchMokotoffSoundex::inner_soundex, DaitchMokotoffSoundex::soundex"]}
{"id": "C75", "title": "Caverphone and strict NYSIIS panic exactly when the cut falls inside a letter", "statement": "For every text, Caverphone 1 (2) returns the first 6 (10) bytes of the sounds of its letters (C72) followed by '1's and panics exactly if there is no such prefix, i.e. byte 6 (10) lies inside a letter; strict NYSIIS returns the full code if it has at most six bytes and else its first six bytes, and panics exactly if byte 6 lies inside a letter; non-strict NYSIIS always returns. In particular Caverphone returns whenever the letters of the text are a-z, whatever other characters it contains.", "quantifier": "every Unicode string", "why_tests_cant": "Exactness: where the cut falls depends on the bytes of the whole code, for every Unicode text.", "anchors": ["src/caverphone.rs: Caverphone1::encode, Caverphone2::encode", "src/nysiis.rs: Nysiis::encode"]}
{"id": "C76", "title": "Metaphone on every text", "statement": "For every text whose upper case is not a single byte and every limit, Metaphone returns the code of a specification that compares at byte offsets, and panics exactly when that specification has none, i.e. when a comparison for C, G, S or T would start inside a letter before the limit is reached. In particular it returns whenever only ASCII characters come before each C, G, S and T; and in a text with a letter beyond ASCII a final B after M is not silent.", "quantifier": "every Unicode string, every Unicode upper-casing, every limit", "why_tests_cant": "Byte and character offsets are mixed: the result for a text beyond ASCII depends on the bytes of all letters before; only a statement about every text settles it.", "anchors": ["src/metaphone.rs: Metaphone::encode, region_match, is_last_char"]}
{"id": "C77", "title": "Double Metaphone beyond ASCII", "statement": "For every text, in any alphabet, whenever Double Metaphone returns, its primary and alternate codes are those given by the sounds specification (C70) to the trimmed text in upper case, read with each multi-byte letter followed by one placeholder character for each of its further UTF-8 bytes, and cut to the limit: letters beyond ASCII are silent, except C with cedilla (S) and N with tilde (N), and only their byte width can influence the letters around them.", "quantifier": "all texts in any alphabet, all limits, all Unicode case and white-space tables in which upper-case text contains no ASCII lower-case letter", "why_tests_cant": "All Unicode texts and all contexts around the letters in question.", "anchors": ["src/double_metaphone.rs: DoubleMetaphone::double_metaphone, contains, char_at, handle_*", "src/helper.rs"]}
{"id": "C78", "title": "Double Metaphone panics on misplaced accents", "statement": "If in the trimmed upper-case text a letter beyond ASCII comes directly after C, D, G, P, S, T or W (where the letter before these is none of C, D, G, P, S, T, W, X or a space), or directly before H, or directly before a C, M or S that is not at the end (other than MM and CHIA), then Double Metaphone without a limit panics, and with a limit it can return only if both codes have already reached the limit. Ordinary names such as García, Gómez or Éclair are affected.", "quantifier": "all texts with such a place, whatever surrounds it, all limits, all Unicode case tables", "why_tests_cant": "The claim is about every text around the place; tests only try single names.", "anchors": ["src/double_metaphone.rs: DoubleMetaphone::double_metaphone, contains, char_at, handle_c, handle_d, handle_g, handle_h, handle_p, handle_s, handle_t, handle_w, condition_c0, condition_m0"]}
{"id": "C79", "title": "Double Metaphone returns when accents stay out of the windows", "statement": "Each letter of the trimmed upper-case text has a window: the letters at most so far behind it and ahead of it, and the first and last letters of the text, which Double Metaphone may compare (for C two behind, five ahead and the first five; for P one ahead; for vowels, B, F, K, N, Q, V and letters beyond ASCII none; and so on). If nothing beyond ASCII lies in any of these windows, Double Metaphone with an allocatable limit returns instead of panicking, and its codes are exactly those of the specification cut to the limit. Names such as Müller, François and Núñez qualify.", "quantifier": "all texts, all limits below 2^63, all Unicode case tables whose upper case has no ASCII lower-case letters", "why_tests_cant": "Absence of panics over every accented text cannot be established by examples.", "anchors": ["src/double_metaphone.rs: DoubleMetaphone::double_metaphone, contains, char_at, handle_c, handle_g, handle_l, handle_r, handle_s, handle_t, handle_w, handle_x, condition_l0, condition_m0"]}
{"id": "C80", "title": "Printed results and messages keep what they show apart", "statement": "The printed forms of two Double Metaphone results are equal exactly when their primary codes and their alternate codes are. The message of a Daitch-Mokotoff builder error is \"Error parsing rule file Unknown:N Can't recognize line : L\" with N the line number in decimal and L the line, and two such messages are equal exactly when number and line are. The printed forms of two language sets whose languages have non-empty names without comma, other than the two reserved words, are equal exactly when the sets are.", "quantifier": "all texts, limits and case tables; all rule texts; all language sets", "why_tests_cant": "That no two different values are ever printed alike is a claim about all pairs of values.", "anchors": ["src/double_metaphone.rs: Display for DoubleMetaphoneResult, primary, alternate", "src/lib.rs: ParseError, PhoneticError", "src/beider_morse/languages.rs: Display for LanguageSet"]}
{"id": "C81", "title": "encode_with_languages uses the given languages, or ignores them", "statement": "BeiderMorse::encode is encode_with_languages with the guessed languages. A name that is encoded at once is encoded with the given languages; but for a generic name with a prefix (d', de, van ...), or several words when concat is off, the given languages are ignored and the result is that of encode.", "quantifier": "every configuration that lists \"any\", every name, every set of languages that is not a single unlisted language", "why_tests_cant": "Must hold for every rule file, every name and every set of languages.", "anchors": ["src/beider_morse/mod.rs: BeiderMorse::encode_with_languages", "src/beider_morse/engine.rs: PhoneticEngine::encode_with_language_set"]}
{"id": "C82", "title": "Beider-Morse and blanks", "statement": "With given languages, the code of an Ashkenazi or Sephardic name, or of a generic name without a prefix, depends on its words only: blanks at the ends, repeated blanks and hyphens instead of blanks make no difference. (Known defect: a blank before a generic name hides its prefix and changes the code; witness.)", "quantifier": "every configuration that lists \"any\", every two texts with the same words, every set of languages", "why_tests_cant": "Must hold for every rule file and every pair of texts that differ in blanks.", "anchors": ["src/beider_morse/engine.rs: PhoneticEngine::encode_with_language_set"]}
{"id": "C83", "title": "Codes ignore case, punctuation and blanks", "statement": "Soundex, Refined Soundex, Phonex and NYSIIS are functions of the upper-cased letters of a text, in every alphabet and for every mapping and limit: texts with the same upper-cased letters get the same code, or both panic. Metaphone is a function of the upper-cased text. Match Rating gives names of two bytes or more (blanks around them not counted) the same code when they differ only in case, white space, the characters - & ' . , and the accents it knows, and rates such names equal when that code is not empty; a single letter, however, has the empty code while the letter followed by a full stop has the letter as code.", "quantifier": "all pairs of texts over any Unicode table, all mappings, limits and modes", "why_tests_cant": "Infinitely many pairs of texts, and all mappings and settings.", "anchors": ["src/lib.rs: soundex_clean (trait SoundexUtils)", "src/refined_soundex.rs: encode", "src/phonex.rs: preprocess, encode", "src/nysiis.rs: encode", "src/metaphone.rs: encode", "src/match_rating_approach.rs: clean_name, encode"]}
{"id": "C84", "title": "Doubled letters", "statement": "Writing a letter of an ASCII word twice (in either case) changes neither its Soundex nor its Refined Soundex code, for every mapping and every treatment of H and W. Writing a letter twice in a text in any alphabet does not change its Cologne code unless the letter is C, D, P, T or X; for each of these five there is a word whose code does change.", "quantifier": "all words, positions and letters; all mappings and both treatments of H and W", "why_tests_cant": "All words, all positions of the doubled letter, all mappings.", "anchors": ["src/soundex.rs: encode", "src/refined_soundex.rs: encode", "src/cologne.rs: encode"]}
{"id": "C85", "title": "A large enough max_phonemes makes no difference", "statement": "For every name there is a number N such that all Beider-Morse encoders that differ only in max_phonemes, and whose maximum is at least N, give the same code (guessed or given languages). (Raising a smaller maximum may lose phonemes that a smaller one kept; witness.)", "quantifier": "every configuration that lists \"any\", every setting, every name, every maximum from some number on", "why_tests_cant": "The bound depends on the name and the rules, and the claim is about all of the infinitely many larger maxima.", "anchors": ["src/beider_morse/engine.rs: PhonemeBuilder::apply, PhoneticEngine::encode_with_language_set, apply_final_rule", "src/beider_morse/mod.rs: BeiderMorseBuilder::max_phonemes"]}
{"id": "C86", "title": "Without language tags and with room enough, Beider-Morse lists all choices and nothing else", "statement": "If the rules used carry no language tags, then with a large enough maximum the code of a name that is encoded at once lists, sorted and without duplicates, exactly the texts obtained by choosing one alternative for each segment that a main rule covers and refining by the common final rules and those of the language.", "quantifier": "every configuration that lists \"any\" and has no language tags in the rules used, every name encoded at once, every maximum from some number on", "why_tests_cant": "Completeness and soundness of the whole set of alternatives for every text and rule set; the number of choices grows exponentially.", "anchors": ["src/beider_morse/engine.rs: PhonemeBuilder::apply, apply_final_rule, encode_with_language_set"]}
{"id": "C87", "title": "Daitch-Mokotoff codes are exactly the codes of the choices", "statement": "For every encoder that can be built with ASCII alternatives, the codes returned by inner_soundex(.., true) are exactly those obtained by choosing one alternative for each group of the text, writing the chosen alternatives one after the other except those that are the end of the one before (always written between m and n), cutting to six characters and filling up with zeros; there are at most as many codes as choices, and encode returns the code of the first alternatives. With the embedded rules every group has one or two alternatives, so there are at most 2^k codes for k ambiguous groups.", "quantifier": "every rule text that builds (ASCII alternatives), every string; the embedded rules, every string", "why_tests_cant": "The set of codes is exponential in the number of ambiguous groups, and the claim is an equivalence over all texts and rule sets.", "anchors": ["src/daitch_mokotoff.rs: inner_soundex, encode, Branch"]}
{"id": "C88", "title": "Codes of ASCII text do not depend on the Unicode tables", "statement": "For ASCII text every encoder of the crate (Soundex, Refined Soundex, Cologne, Caverphone 1 and 2, NYSIIS, Match Rating and its comparison, Metaphone, Double Metaphone, Phonex, Daitch-Mokotoff, Beider-Morse with any configuration, with guessed or given languages) gives the same result, whether a code, an error or a panic, under any two versions of the Unicode tables of the standard library: codes stored with one toolchain stay valid with another.", "quantifier": "every pair of Unicode tables that agree with ASCII on ASCII, every ASCII string, every option and rule set", "why_tests_cant": "A test suite runs with the one version of the tables that its toolchain ships.", "anchors": ["src/lib.rs: Encoder", "src/soundex.rs: encode", "src/metaphone.rs: encode", "src/double_metaphone.rs: double_metaphone", "src/daitch_mokotoff.rs: inner_soundex", "src/match_rating_approach.rs: encode, is_encoded_equals", "src/beider_morse/mod.rs: encode, encode_with_languages"]}
{"id": "C89", "title": "Beider-Morse codes can be taken apart", "statement": "When no phoneme of the rules contains one of | ( ) - (true of the embedded rules), the parentheses of every code are balanced, and cutting a code at the hyphens outside parentheses gives back its parts: the two codes in parentheses for a generic name with a prefix, the parts of the codes of the words, in order, for words encoded separately, and the code itself, without a parenthesis, for a name encoded at once.", "quantifier": "every directory of rules that loads and lists any, without separators in phonemes; the embedded rules; all settings, every text", "why_tests_cant": "Prefixes and words nest to any depth, so codes have unboundedly many shapes.", "anchors": ["src/beider_morse/engine.rs: encode_with_language_set, make_string", "src/beider_morse/mod.rs: encode"]}
{"id": "C90", "title": "Codes of longer names extend codes", "statement": "The Refined Soundex code of a text is a prefix of the code of every text that continues it; the same holds of Soundex codes without the zeros that fill them up; the Cologne code of a text without its last digit is a prefix of the code of every continuation, and the whole code is when the text ends in an ASCII character that is not a letter. In particular, when the longer text does not panic, neither does the shorter one. (So prefix search on codes finds all continuations.)", "quantifier": "every mapping, every pair of strings", "why_tests_cant": "Both the text and its continuation range over all strings.", "anchors": ["src/refined_soundex.rs: encode", "src/soundex.rs: encode", "src/cologne.rs: encode"]}
{"id": "C91", "title": "The beginning of a name decides the beginning of its code", "statement": "Appending letters to a word changes at most the end of its code: at most the last two characters of an unlimited Metaphone code, at most the last four characters of a non-strict NYSIIS code (any Unicode text) and at most the last character before the padding of a Phonex code; everything before is the beginning of the code of the longer word. Hence a limited code is settled by a long enough beginning: a word whose unlimited Metaphone code exceeds the limit by two, whose full NYSIIS code has ten characters (nine are not enough), or whose Phonex code with one more character needs no padding, has the limited code of every word that begins with it.", "quantifier": "every ASCII word (for NYSIIS extension every Unicode text), every continuation, every limit", "why_tests_cant": "Both the word and its continuation range over all strings, and rules look ahead and rewrite endings.", "anchors": ["src/metaphone.rs: encode", "src/nysiis.rs: encode", "src/phonex.rs: encode"]}
{"id": "C92", "title": "Loading a directory does not depend on how it is listed", "statement": "ConfigFiles::new gives the same result for two directories with the same text files (….txt) and the same lists of languages, in whatever order the system lists them, however often, and whatever other files there are: the same configuration, the same panic or, when every list of languages can be read, the same error. If some list cannot be read both fail with an error; only then the error may depend on the order (witness).", "quantifier": "every directory, every order of its listing, every set of further files", "why_tests_cant": "The order in which read_dir returns entries cannot be chosen by a test, and differs between systems and runs.", "anchors": ["src/beider_morse/languages.rs: TryFrom<&PathBuf> for Languages", "src/beider_morse/lang.rs: build_langs", "src/beider_morse/rule.rs: build_rules, Resolver::resolve", "src/beider_morse/mod.rs: ConfigFiles::new"]}
{"id": "C93", "title": "Which strings are codes", "statement": "For each of these encoders the set of all codes it ever returns is known exactly: every code has the described shape, and every string of that shape is the code of some text. Soundex: nothing, or a letter, up to three digits 1-6, zeros up to four characters. Refined Soundex: nothing, or a letter, its own digit, then digits without equal neighbours. Cologne: digits 0-8, 0 only in front. Metaphone (texts that are not a single byte): at most one leading vowel, then letters of 0BFHJKLMNPRSTWXY, up to the maximal length. Phonex with length n >= 2 (ASCII texts): n zeros, or one of fifteen letters, digits 1-6 without equal neighbours, zeros. Match Rating (ASCII): up to six ASCII characters that are not small letters, white space or -&'., and no vowels after the first. Caverphone 1 (ASCII): A or nothing, then FKLMNPRSTWY, ones up to six. Caverphone 2 (ASCII): A, Y or nothing, then FKLMNPRSTW, an A at the end unless the last is none of LRWY, ones up to ten. Daitch-Mokotoff with the embedded rules (encode, and the codes with branching): a digit, then digits other than 0 and 2, then zeros, six in all. NYSIIS (ASCII): nothing, A, or a key that does not end in A, possibly followed by a Y; a key is any capital but K, then letters of ABCDFGHJLNPRSTVWXY, without equal neighbours, without W after a vowel, and with H only after a vowel and before A or at the end; in strict mode these cut to six. Double Metaphone (ASCII), primary: A or nothing, then letters of 0FHJKLMNPRSTX; alternate: A or nothing, then letters of FHJKLMNPRSTX, then possibly a blank; both up to the maximal length.", "quantifier": "every text and every candidate code string, every maximal length", "why_tests_cant": "That no other string is ever a code is a claim about all texts, and that every one of the shape is needs a text for each of infinitely many codes.", "anchors": ["src/soundex.rs: Soundex::encode", "src/refined_soundex.rs: RefinedSoundex::encode", "src/cologne.rs: Cologne::encode", "src/metaphone.rs: Metaphone::encode", "src/phonex.rs: Phonex::encode", "src/match_rating_approach.rs: MatchRatingApproach::encode", "src/caverphone.rs: Caverphone1::encode, Caverphone2::encode", "src/daitch_mokotoff.rs: DaitchMokotoffSoundex::encode, soundex", "rules/dmrules.txt", "src/nysiis.rs: Nysiis::encode", "src/double_metaphone.rs: DoubleMetaphone::encode, encode_alternate"]}
{"id": "C94", "title": "A directory that cannot be listed is an error, not a panic", "statement": "ConfigFiles::new on a path whose listing fails (it does not exist, is not a directory, cannot be read) returns a Beider-Morse configuration error with the message of the system. If reading one entry of the listing fails, an error is returned too: that of a list of languages listed earlier which cannot be loaded, or else the configuration error with the message of the system. If the listing succeeds entirely, loading behaves as on the directory with these entries, to which all properties of loading apply.", "quantifier": "every path, listing with or without errors, contents of files, nesting of includes", "why_tests_cant": "The error may occur at any place of any listing, before or after lists that are correct or wrong.", "anchors": ["src/beider_morse/languages.rs: TryFrom<&PathBuf> for Languages", "src/beider_morse/mod.rs: ConfigFiles::new, From<io::Error> for BMError", "src/lib.rs: From<io::Error> for PhoneticError"]}
{"id": "C95", "title": "The order of Daitch-Mokotoff rules", "statement": "Of a Daitch-Mokotoff rule file only the first rule of each pattern and the last folding of each character matter: two files that agree on these give the same codes (encode, soundex, inner_soundex), or the same panic, on every text, wherever the rules, comments and blanks stand. In particular the lines of a file in which each pattern and each folded character occurs once can be reordered freely. With a repeated pattern the order does matter (witness).", "quantifier": "all pairs of rule files, folding on or off, all texts, all Unicode tables", "why_tests_cant": "The rules are stored in a map of sorted lists; independence of the order concerns all permutations of all files and all texts.", "anchors": ["src/daitch_mokotoff.rs: DaitchMokotoffSoundexBuilder::build", "src/daitch_mokotoff.rs: DaitchMokotoffSoundex::inner_soundex"]}
{"id": "C96", "title": "Builders: the last call of each setter counts", "statement": "After any sequence of calls of the setters of BeiderMorseBuilder, in any order and repeated at will, build returns an encoder that has for each setting the value of the last call, or the default (generic, approximate, concat, 20 phonemes); sequences with the same last calls build the same encoder. The same holds for ascii_folding of DaitchMokotoffSoundexBuilder, whose default is on.", "quantifier": "all sequences of setter calls, all loaded configurations (directories and embedded), all rule texts", "why_tests_cant": "Ranges over all histories of calls of the setters, of any length and in any order.", "anchors": ["src/beider_morse/mod.rs: BeiderMorseBuilder", "src/daitch_mokotoff.rs: DaitchMokotoffSoundexBuilder"]}
{"id": "C97", "title": "Refined Soundex is finer than Soundex, except for H and W", "statement": "ASCII names with the same Refined Soundex code have the same Soundex code, for all mappings such that letters with the same refined code have the same plain code (true of the predefined ones), if the Soundex encoder does not skip H and W (as with the genealogical mapping) or the names have no H and W. For names with H between letters of the same group the default encoders violate this (Ashcraft, Asecraft); the converse does not hold.", "quantifier": "all pairs of ASCII names, all pairs of mappings of which one is finer", "why_tests_cant": "Ranges over all pairs of names, and over all mappings.", "anchors": ["src/soundex.rs: Soundex", "src/refined_soundex.rs: RefinedSoundex"]}
{"id": "C98", "title": "The layout of Beider-Morse rule files does not matter", "statement": "Two rule directories that say the same — the same listed languages (in any order, with repetitions), the same language-guessing rules in order, and rule files with the same rules and includes in order — whatever comments, empty lines, blanks between the parts of a line and trailing comments they contain, either both load or both fail to load, and encoders built from them with the same settings give the same result for every name, with guessed or with given languages. What a file says is unique. For instance, a comment line at the start of every file of any directory changes nothing.", "quantifier": "all pairs of directories that say the same, all include depths, all settings, all names and all sets of languages, any regex engine and Unicode tables", "why_tests_cant": "Quantifies over all pairs of directories and all layouts of their files; tests load a few fixed files.", "anchors": ["src/beider_morse/rule.rs: parse_rule, build_rules", "src/beider_morse/lang.rs: parse_lang, build_langs", "src/beider_morse/languages.rs: TryFrom<&PathBuf> for Languages", "src/rules_parser.rs: end_of_line, multiline_comment, quadruplet, include", "src/beider_morse/engine.rs: PhoneticEngine::encode"]}
{"id": "C99", "title": "The beginning of a name decides the beginning of its Double Metaphone and Caverphone codes", "statement": "Appending letters to a word changes at most the last ten characters of its primary Double Metaphone code without a limit, provided the longer word looks Slavic or Germanic (contains W, K or CZ) only if the shorter does; the same holds of the alternate code if both or neither of the words have one of the endings -as, -os, -a, -o. Both provisos are needed. Hence a word whose unlimited primary code exceeds a limit by ten characters has the limited code of every such continuation. Appending letters to a word changes at most the last two characters of its Caverphone 1 and 2 codes before the ones that fill them up, and two can change.", "quantifier": "every ASCII word, every ASCII continuation, every limit", "why_tests_cant": "Quantifies over all words and all their continuations.", "anchors": ["src/double_metaphone.rs: DoubleMetaphone::double_metaphone, is_slavo_germanic, handle_l", "src/caverphone.rs: Caverphone1::encode, Caverphone2::encode"]}
{"id": "C100", "title": "Exactly which letters an encoder confuses", "statement": "For two capital letters A-Z the following are exact characterisations of when one can be written for the other between any two texts without changing the code. Soundex and Refined Soundex (default tables): never for the first letter; after a letter, exactly within the groups AEIOUY BFPV CGJKQSXZ DT HW MN (Soundex) and AEHIOUWY BP CKS DT FV GJ MN QXZ (Refined Soundex). Cologne: exactly within AOU EIJY DT FVW KQ MN SZ, everywhere. Caverphone 1 and 2 (texts without capital sigma): exactly within SZ FV KX. NYSIIS, strict or not: never for the first letter; after a letter exactly within OU GQ. Phonex with a maximum of at least 2: within AEIOUY FV everywhere, within AEIOUY BP FV KQ after a letter. Match Rating: never for the first letter, after a letter exactly within AEIOU. Metaphone and Double Metaphone (either code alone), without a maximum or with one of at least 2: never, not even after a letter. Daitch-Mokotoff (all codes, embedded rules): exactly within BFVW GQ, everywhere. All other pairs are told apart by some text.", "quantifier": "all pairs of capital letters, all Unicode texts before and after them, all Unicode tables, NYSIIS modes, maxima", "why_tests_cant": "That two letters are never distinguished is a statement about all texts around them; the vowel, digraph and end rules of the encoders look at several neighbours.", "anchors": ["src/soundex.rs: encode", "src/refined_soundex.rs: encode", "src/cologne.rs: encode", "src/caverphone.rs: encode", "src/nysiis.rs: encode", "src/phonex.rs: encode", "src/match_rating_approach.rs: encode", "src/metaphone.rs: encode", "src/double_metaphone.rs: double_metaphone"]}
{"id": "C101", "title": "Exactly which letters may be written twice", "statement": "For a capital letter A-Z the following are exact characterisations of when it can be written twice instead of once between any two texts without changing the code. Soundex and Refined Soundex (default tables, ASCII text): every letter. Cologne: every letter but C D P T X. Caverphone 1 (text without capital sigma): F J K L M Q S V W X Y Z anywhere, and also R after a letter. Caverphone 2: F K L M Q S V X Z. NYSIIS, strict or not: B F G J L S W X Y anywhere, B F G J L M O Q S U W X Y Z after a letter. Metaphone (ASCII text, no maximum or one of at least 2): F J L M N R anywhere, F J K L M N Q R V X Z after a letter. Phonex (ASCII text, maximum at least 2): A E I O U Y anywhere, also H and W after a letter. Match Rating: none anywhere, A E I O U after a letter. Double Metaphone (no maximum or one of at least 2): none, even after a letter, for either of its codes alone. Daitch-Mokotoff (all codes, embedded rules, after an ASCII text): B F G L P Q V W anywhere, also X after a letter; after a letter like ţ it can fail. For every other letter some text is encoded differently.", "quantifier": "all capital letters, all texts (ASCII or Unicode as said) before and after them, all Unicode tables, NYSIIS modes, maxima", "why_tests_cant": "That a letter may always be doubled is a claim about every word and every place in it; that another may not needs the right word, which a test must guess.", "anchors": ["src/soundex.rs: encode", "src/refined_soundex.rs: encode", "src/cologne.rs: encode", "src/caverphone.rs: encode", "src/nysiis.rs: encode", "src/phonex.rs: encode", "src/match_rating_approach.rs: encode", "src/metaphone.rs: encode", "src/double_metaphone.rs: double_metaphone"]}
{"id": "C102", "title": "Exactly which letters may be left out", "statement": "For a capital letter A-Z the following are exact characterisations of when it can be left out between any two texts, the first of which has a letter, without changing the code. Soundex (default table): exactly H and W, in any alphabet; without a letter before, none. Match Rating: exactly A E I O U, in any alphabet, provided that two letters remain; without that proviso none. Refined Soundex, Cologne, Caverphone 1 and 2, NYSIIS (strict or not), Metaphone, Phonex, Double Metaphone (either code alone; maximum, if any, at least 2) and Daitch-Mokotoff (all codes, embedded rules): none.", "quantifier": "all capital letters, all texts before and after them, all Unicode tables, NYSIIS modes, maxima", "why_tests_cant": "That a letter may always be left out is a claim about every word and every place in it; that another may not needs the right word, which a test must guess.", "anchors": ["src/soundex.rs: encode", "src/refined_soundex.rs: encode", "src/cologne.rs: encode", "src/caverphone.rs: encode", "src/nysiis.rs: encode", "src/phonex.rs: encode", "src/match_rating_approach.rs: encode, remove_vowels", "src/metaphone.rs: encode", "src/double_metaphone.rs: double_metaphone"]}
{"id": "C103", "title": "Codes are hardly longer than names", "statement": "The code of an ASCII name without a length limit is bounded by the number of letters of the name: NYSIIS codes have at most that many characters, Refined Soundex codes (with any mapping) at most one more; Cologne digits, Metaphone codes (of names other than a single character, which is its own code) and Double Metaphone primary codes at most one more for each letter X, Double Metaphone alternate codes at most one more for each X and each Z; Match Rating codes at most six characters and at most as many as the name has without white space and ignored punctuation. The bounds are attained.", "quantifier": "all ASCII names, all Refined Soundex mappings, all Unicode tables", "why_tests_cant": "Whoever sizes a column or a buffer for codes needs a bound for names of any length; tests only measure some codes.", "anchors": ["src/nysiis.rs: Nysiis::encode", "src/refined_soundex.rs: RefinedSoundex::encode", "src/cologne.rs: Cologne::encode", "src/metaphone.rs: Metaphone::encode", "src/double_metaphone.rs: DoubleMetaphone::double_metaphone", "src/match_rating_approach.rs: MatchRatingApproach::encode"]}
{"id": "C104", "title": "Names with one code", "statement": "With the embedded rules Daitch-Mokotoff Soundex returns at most 2^k codes for an ASCII name in which k letters can be coded in two ways (C, J, and R before S or Z, white space aside); in particular a name without such letters has exactly one code, and soundex returns what encode returns. The primary and the alternate Double Metaphone code of an ASCII name are the same, for every limit, if the name (without surrounding white space) contains none of C, G, J, S, W, Z, LL, TH and does not end in IER; each of these can make them differ.", "quantifier": "all ASCII names, all limits (that can be allocated), all Unicode tables", "why_tests_cant": "Whether a name is ambiguous, and how many codes must be stored for it, has to be known for every name, not for the names of a test.", "anchors": ["src/daitch_mokotoff.rs: DaitchMokotoffSoundex::soundex, DaitchMokotoffSoundex::encode", "rules/dmrules.txt", "src/double_metaphone.rs: DoubleMetaphone::encode, DoubleMetaphone::encode_alternate"]}
{"id": "C105", "title": "Letters that are always heard, and names with a blank code", "statement": "A name with at least one letter that an encoder never ignores does not get the code of an empty text. For ASCII names: the Cologne code is empty exactly if all the letters are H; the Phonex code (2 or more characters long) is all zeros exactly if the letters are a run of S, possibly after an initial H; the Match Rating code is empty exactly if the name without surrounding blanks has at most one character or nothing is left after removing blanks and punctuation. The Metaphone code is not empty if one of BCDFJKLMNPQRSTVXZ occurs or the first character is a vowel; the (unlimited) NYSIIS code is not empty if one of BDFGJKLMNPQRTVXY occurs or the first letter is not A; the Caverphone 1 code is not 111111 if one of BCFKMNPQSTVXZ occurs and the Caverphone 2 code is not 1111111111 if one of ABCFIJKMNOPQSTUVXYZ occurs; the Double Metaphone primary code is not empty if one of BCDFJKLMNPQTVZ occurs, the alternate code if one of BCDFJKMNPQRSTVZ occurs, and both if the first character is a letter other than H and W; no Daitch-Mokotoff code is 000000 if a letter other than AEHIJOUY occurs or the first letter is not one of AEIOU. Every other letter can be silent: for each there is a name with a blank code.", "quantifier": "every ASCII name; every code length for Phonex; every choice of the Unicode tables", "why_tests_cant": "Names of any length and any surroundings of the letter: a letter can be dropped by the context (GH, silent endings, repeated codes, covered letters), which samples cannot exhaust.", "anchors": ["src/cologne.rs:Cologne::encode", "src/phonex.rs:Phonex::encode", "src/match_rating_approach.rs:MatchRatingApproach::encode", "src/metaphone.rs:Metaphone::encode", "src/nysiis.rs:Nysiis::encode", "src/caverphone.rs:Caverphone1::encode", "src/caverphone.rs:Caverphone2::encode", "src/double_metaphone.rs:DoubleMetaphone::encode", "src/daitch_mokotoff.rs:DaitchMokotoffSoundex::inner_soundex"]}
{"id": "C106", "title": "What the first character of a code says about the beginning of the name", "statement": "The first character of a code depends on the beginning of the name only, in the way of a small table. For ASCII names: Soundex and Refined Soundex codes (with any mapping) start with the first letter, so names with equal codes start with the same letter. A Match Rating code that is not empty starts with the first character that is neither blank nor punctuation. A Phonex code (2 or more characters long) starts with a character given by the first two letters (N for KN, F for PH, R for WR, an initial H is skipped, then AEIOUY, BP, FV, CKQ, GJ, SZ count as one letter each), after S at the end of the name is removed. A NYSIIS code of three or more letters starts, unless it is empty, with N for KN, C for other K, F for PH and PF, else with the first letter. The first Cologne digit is one of the digits of the first letter that is not an H. A Caverphone code whose first letter is one of ABCEFHIKMNOPQSTUVXZ (but not the single letter E in version 2), a Metaphone code whose first letter is one of ABCDEFIJKLMNOPQRSTUVXZ and that is not a single character, a Double Metaphone code whose first letter is one of ABCDEFGIJKLMNOPQRSTUVXYZ, and each Daitch-Mokotoff code start with a character from the table of this letter; every entry of the tables occurs. A Caverphone 1 code starts with A exactly if the first letter is one of AEIOUH. A Metaphone code starts with a vowel exactly if the name does (AE counting as E). A primary Double Metaphone code starts with A exactly if the name starts with one of AEIOUY or with W before one of AEIOUYH, and an alternate one exactly if it starts with one of AEIOUY, with WH, or with J but not JOSE.", "quantifier": "every ASCII name of any length; every mapping for Soundex and Refined Soundex; every maximal code length but zero for Metaphone and Double Metaphone, 2 or more for Phonex; strict and full NYSIIS; every choice of the Unicode tables", "why_tests_cant": "The rest of the name is arbitrary: endings are rewritten before the beginning (NYSIIS, Phonex, Caverphone 2), equal neighbours are collapsed, silent first letters hand over to later ones, so that any part of the name could reach the first place of the code.", "anchors": ["src/soundex.rs:Soundex::encode", "src/refined_soundex.rs:RefinedSoundex::encode", "src/match_rating_approach.rs:MatchRatingApproach::encode", "src/phonex.rs:Phonex::encode", "src/nysiis.rs:Nysiis::encode", "src/cologne.rs:Cologne::encode", "src/caverphone.rs:Caverphone1::encode", "src/caverphone.rs:Caverphone2::encode", "src/metaphone.rs:Metaphone::encode", "src/double_metaphone.rs:DoubleMetaphone::encode", "src/daitch_mokotoff.rs:DaitchMokotoffSoundex::inner_soundex"]}
{"id": "C107", "title": "A code that is encoded again", "statement": "What an encoder returns for one of its own codes. The digits of a code are ignored: for ASCII names the Soundex code of a code is its first letter followed by three zeros (so a name and its code are encoded-equal exactly if the code is empty or has only zeros after its letter), and the Refined Soundex code of a code is its first two characters, for every mapping of ASCII non-letters. A Cologne code has the empty code, for text in any alphabet. A Phonex code becomes its letter followed by zeros, only zeros for S, H or 0. With the embedded Daitch-Mokotoff rules, the code of a code and of a list of codes is 000000, for text in any alphabet. A Match Rating code is changed only by dropping one letter of every pair of equal consonants (and a code of a single character has the empty code), so it is its own code exactly if its length is not one and no consonant stands beside itself. A Caverphone code made of the letters FKMNPST without equal neighbours, perhaps after an A (and in version 2 perhaps before a final A), padded with 1, is its own code. NYSIIS, Metaphone and the other Caverphone codes are not stable in general: there are codes that change.", "quantifier": "every ASCII name of any length (every text for Cologne and Daitch-Mokotoff); every mapping of ASCII non-letters; every Phonex length from 2; every choice of the Unicode tables", "why_tests_cant": "A code is the result of encoding an arbitrary name; that the second encoding always has this form is a statement about all of them, and the exact condition for stability needs all the codes an algorithm can return.", "anchors": ["src/soundex.rs:Soundex::encode", "src/refined_soundex.rs:RefinedSoundex::encode", "src/cologne.rs:Cologne::encode", "src/phonex.rs:Phonex::encode", "src/daitch_mokotoff.rs:DaitchMokotoffSoundex::inner_soundex", "src/match_rating_approach.rs:MatchRatingApproach::encode", "src/caverphone.rs:Caverphone1::encode", "src/caverphone.rs:Caverphone2::encode"]}
{"id": "C108", "title": "How many codes there are", "statement": "The exact number of codes each algorithm can return. Soundex: 6735 (with the empty code). Daitch-Mokotoff with the embedded rules: 374490. Caverphone 1: 2125873; Caverphone 2: 14266666665; strict NYSIIS: 27912450; Match Rating: 1 + 91 (1 + 86 + ... + 86^5), for ASCII names. Metaphone with max n+1: 1 + 21 (1 + 16 + ... + 16^n), that is 91750 for the default encoder (texts whose upper-case form is not a single byte); Double Metaphone with max n+1: 1 + 14 (1 + 13 + ... + 13^n) primary codes, 33321 by default, and with max n+2 exactly 2 + 13 (W(n+1) + W(n)) alternate codes, where W(k) = 1 + 12 + ... + 12^k, 26548 by default; Phonex with length n+2: 1 + 15 (1 + 6 (1 + 5 + ... + 5^n)), 2806 by default. So among more names than codes two have the same code, for instance among any 6736 ASCII texts for Soundex.", "quantifier": "every name (every ASCII name where stated), every maximal length, every choice of the Unicode tables, every list of names", "why_tests_cant": "The number of codes is a statement about the codes of all names; no sample can show that no further code exists, and there are too many codes to exhibit a name for each.", "anchors": ["src/soundex.rs:Soundex::encode", "src/daitch_mokotoff.rs:DaitchMokotoffSoundex::encode", "src/metaphone.rs:Metaphone::encode", "src/double_metaphone.rs:DoubleMetaphone::double_metaphone", "src/phonex.rs:Phonex::encode", "src/caverphone.rs:Caverphone1::encode", "src/caverphone.rs:Caverphone2::encode", "src/nysiis.rs:Nysiis::encode", "src/match_rating_approach.rs:MatchRatingApproach::encode"]}
{"id": "C109", "title": "The embedded Beider-Morse rules are the lines of the files", "statement": "For every name type, rule type and language (any, or the common rules), the rules held by ConfigFiles::default(), and by every encoder built from it, are exactly the rules of the files under rules/bm, one by one and in order: for each first character, the i-th rule has the pattern, contexts, phonemes, file name and line number of the i-th line whose pattern starts with this character; the common rules start with those of the included file. There are 254+106+211+9+58 rules for Ashkenazi, 274+85+215+15+58 for generic and 112+1+112+1+56 for Sephardic names. Exactly the 18 files can be resolved.", "quantifier": "every name type, rule type, language and character; every regex engine that accepts the seven expressions; every encoder built from the embedded configuration, all Unicode tables", "why_tests_cant": "A mapping that swaps two files, or a parser that drops, merges or misplaces a line, changes only the codes of names to which a rule applies; tests of a few names do not see it.", "anchors": ["src/beider_morse/rule.rs: EMBEDDED_RULES, Rules::default, parse_rule, build_rules, Resolver::resolve", "src/rules_parser.rs: quadruplet, include, multiline_comment", "rules/bm"]}
{"id": "C110", "title": "The default Daitch-Mokotoff encoder computes its table", "statement": "For every text the codes of the encoder built from the embedded rules are those of the table of 124 rules in rules/dmrules.txt (longest pattern first, first in the file among equally long ones), applied to the text without whitespace, in lower case and with the letters of the 37 foldings replaced; soundex returns them all, separated by bars, encode the first one. With ascii_folding(false) it is the same without the foldings.", "quantifier": "every text in any alphabet, folding on or off, every choice of the Unicode tables", "why_tests_cant": "The table and the choice of rules meet in infinitely many texts; tests of a few names exercise a few of the rules and foldings, in a few contexts.", "anchors": ["src/daitch_mokotoff.rs: DEFAULT_RULES, DaitchMokotoffSoundexBuilder::build, inner_soundex, soundex, encode", "rules/dmrules.txt", "src/rules_parser.rs: quadruplet, folding"]}
{"id": "C111", "title": "Equal codes stay equal when texts are put together", "statement": "With Refined Soundex and any mapping, equality of codes is a congruence: if s and s' have the same code, and t and t' too, then s+t and s'+t' have the same code (ASCII texts). With Soundex (any mapping) this holds if s and s' end with the same letter, and this letter and the first letter of t separate: their code is not silent and they are not H or W where these are special; texts with the same code have the same code after any text if their first letter separates, and before any text if they also end with the same separating letter. The conditions are needed, and for every other encoder there are texts with the same code and last letter that a further letter distinguishes.", "quantifier": "every pair of ASCII texts with equal codes, every text added before or after, every mapping, all Unicode tables", "why_tests_cant": "It ranges over all texts around all pairs of names with equal codes; the interaction of the truncation with the seam shows only for some lengths.", "anchors": ["src/soundex.rs:Soundex::encode", "src/refined_soundex.rs:RefinedSoundex::encode"]}
{"id": "C112", "title": "Different settings, different codes", "statement": "Settings are not ignored, and values of an encoder that are not equal behave differently. Two Metaphone encoders give every ASCII text the same code exactly if their limits are equal (no limit differs from every limit). Two Double Metaphone encoders give every ASCII text the same primary code, or the same alternate code, exactly if their limits are equal or both are beyond isize::MAX, where encoding always panics; the same for the lengths of Phonex. The strict and the full NYSIIS encoder differ. Two Refined Soundex encoders give every ASCII text the same code exactly if their mappings are equal. Two Soundex encoders whose mappings give a common letter the code 0 or '-' agree on every ASCII text exactly if after the first letter they hear the same digits in the same letters and, unless no letter is heard at all, pass over the same letters (silent codes, and H and W if these are ignored), and for every digit heard the same first letters suppress it. So there are different Soundex settings that cannot be told apart: if H and W are ignored, H may have the code 0 or '-'.", "quantifier": "all pairs of settings (limits, lengths, flags, mappings), all ASCII texts", "why_tests_cant": "That two encoders agree is a claim about every text, and that they differ has to be shown for every pair of settings, of which there are infinitely many.", "anchors": ["src/metaphone.rs: Metaphone::new, encode", "src/double_metaphone.rs: DoubleMetaphone::new, encode, encode_alternate", "src/phonex.rs: Phonex::new, encode", "src/nysiis.rs: Nysiis::new, encode", "src/refined_soundex.rs: RefinedSoundex::new, encode", "src/soundex.rs: Soundex::new, encode"]}
{"id": "C113", "title": "Comparing values", "statement": "The derived comparisons of CharSequence, DoubleMetaphoneResult, LanguageSet and ParseError are total orders that agree with == (reflexive, antisymmetric, transitive, total, and Equal exactly for equal values), so the values can be keys of sorted collections. A CharSequence compares, prints and converts back as its text. A DoubleMetaphoneResult remembers the limit of the encoder that made it: two results are == exactly if the limits, the primary codes and the alternate codes agree, so that results with the same codes and the same printed form can be unequal if they come from encoders with different limits; the order is that of the primary codes, then the alternate codes, then the limits (no limit first). Among sets of languages Any comes first, then NoLanguages, then the sets of names in lexicographic order. Parse errors are ordered by line first.", "quantifier": "all values of these types; all pairs of results of Double Metaphone, whatever the texts, limits and Unicode tables", "why_tests_cant": "Laws of an order are about all pairs and triples of values; that equality of results depends on the limit is a statement about all encoders and texts.", "anchors": ["src/helper.rs: CharSequence (derive Ord, Eq; Display; From)", "src/double_metaphone.rs: DoubleMetaphoneResult (derive Ord, Eq)", "src/beider_morse/languages.rs: LanguageSet (derive Ord, Eq)", "src/lib.rs: ParseError (derive Ord, Eq)"]}
{"id": "C114", "title": "When concat makes a difference, and which words are dropped", "statement": "The setting concat of a Beider-Morse encoder makes no difference to the code of a name that is not divided: a text of at most one word of which nothing is dropped (a generic name; an Ashkenazi name other than bar, ben, da, de, van, von; a Sephardic name without apostrophe other than al, el, da, dal, ... von), or a generic name with a prefix (d' or da, dal, de, ..., von and a space) such that the rest and the prefix with the rest are such names. The conditions are needed. With concat, Ashkenazi and Sephardic encoders ignore prefixes (and Sephardic ones what precedes the last apostrophe of a word): names that agree in the other words have the same code if the same languages are given to encode_with_languages, or if the same languages are guessed.", "quantifier": "all encoders built from any directory of rules that lists any, or from the embedded rules, with any settings; all texts, all sets of languages, all Unicode tables and regex engines", "why_tests_cant": "It ranges over all rule files and all texts, and over the recursion for prefixed names; tests compare a few names.", "anchors": ["src/beider_morse/engine.rs: PhoneticEngine::encode_with_language_set, NAME_PREFIXES", "src/beider_morse/mod.rs: BeiderMorseBuilder::concat, BeiderMorse::encode, encode_with_languages"]}
{"id": "C115", "title": "difference is a similarity", "statement": "difference obeys a triangle inequality: difference(a, b) + difference(b, c) is at most difference(a, c) plus the length of the code of b; for Soundex four minus the difference is a distance between texts with a letter. The difference is the length of a code exactly when that code is a beginning of the other code. Two texts have the same code exactly when no third text tells them apart by difference, and comparing them with themselves is enough. With the default Soundex encoder, for every text with a letter every value from 0 to 4, and no other, is the difference with some text.", "quantifier": "all encoders with difference (all codes), all texts for which they return; all Soundex mappings; all texts with a code and all values", "why_tests_cant": "Triangle inequalities and existence of a text for every value quantify over all pairs and triples of texts; tests compare a few pairs.", "anchors": ["src/lib.rs: SoundexCommons::difference", "src/soundex.rs: Soundex::encode", "src/refined_soundex.rs: RefinedSoundex::encode"]}
{"id": "C116", "title": "Codes are put together from the codes of parts", "statement": "Cologne: a text can be cut at any vowel (a, e, i, j, o, u, y, ä, ö, ü in either case). Its code is the code of the part up to the vowel followed by the code of the part from the vowel on without its first digit, which is 0; so with any number of cuts. If the second of two texts begins with a vowel and the first does not end in C, the code of both together is the code of the first followed by that of the second without its 0 (or that of the second, if the first has the empty code). Soundex: an ASCII text can be cut at any letter that separates (with the default mapping, any but H and W); the digits of the two codes, without the zeros that fill them up, are put together and cut or filled up to three. Refined Soundex: an ASCII text can be cut at any letter, the code of the second part losing its letter and first digit. Metaphone (no limit): an ASCII text can be cut at any a, e, o or u, the code of the second part losing its first letter, unless what comes before is just CH or the second part begins with AE.", "quantifier": "all texts (any Unicode text for Cologne), all vowels and all positions of them, any number of cuts; all Refined Soundex mappings; all ASCII texts for Metaphone", "why_tests_cant": "The rules of Cologne look at the letters before and after, at the beginning of the word and at the last digit written; that a vowel stops all of these is a statement about every text and every position.", "anchors": ["src/cologne.rs: Cologne::encode, CologneOutput", "src/refined_soundex.rs: RefinedSoundex::encode", "src/metaphone.rs: Metaphone::encode"]}
{"id": "C117", "title": "A change inside a name changes only the inside of its code", "statement": "Whatever is written between two given letters, the beginning and the end of the code remain. Refined Soundex: between any two letters of an ASCII text; the code of the text up to the first letter stays in front, that of the text from the second letter on (without its letter and digit) stays behind, and at most one character more than is written comes between them. Soundex: between any two letters that separate, the first letter and the digits before stay in front and those after stay behind, as far as three digits reach. Cologne: between any two vowels of any text, with at most two digits for each character written. Metaphone without limit: between any two of a, e, o, u of an ASCII text, with at most two letters for each character written, unless the text before the first vowel is just CH or AE arises at a vowel.", "quantifier": "all texts before, between and after, all pairs of letters (vowels), all Refined Soundex mappings; the beginning and the end of the code are the same for all texts between", "why_tests_cant": "Rules look at neighbours, collapse runs and treat first and last letters specially; that a typing error cannot reach beyond the next vowel is a claim about every text and every error.", "anchors": ["src/cologne.rs: Cologne::encode", "src/refined_soundex.rs: RefinedSoundex::encode", "src/metaphone.rs: Metaphone::encode"]}
{"id": "C118", "title": "Stored values are read back as they were", "statement": "Through serde, in a self-describing format, what was stored is read back as the same value: Soundex, Refined Soundex, Metaphone, Double Metaphone, Nysiis and Phonex encoders, Double Metaphone results, parse errors, name and rule types and sets of languages. A struct is read from a map exactly if each required field occurs once with a value of its kind (a mapping has 26 characters, a number fits 64 bits); the order of the entries does not matter and others are ignored. A Metaphone or Double Metaphone encoder without an entry for the limit is read as one without limit, not as the default. A name type is stored as it is displayed and read from exactly the names from which it is parsed. A list of languages is read as the set of them, whatever its order and repetitions. A CharSequence is read with the length written, even if that is not the length of the text.", "quantifier": "all values of these types (numbers of 64 bits), all maps and sequences to read from, all orders of the entries, all lists of languages", "why_tests_cant": "Every encoder has infinitely many stored forms (orders of the entries, foreign entries, strings for characters); that each of them is read as the one value, and nothing else is read, is a claim about all of them.", "anchors": ["src/soundex.rs: Soundex", "src/refined_soundex.rs: RefinedSoundex", "src/metaphone.rs: Metaphone", "src/double_metaphone.rs: DoubleMetaphone, DoubleMetaphoneResult", "src/nysiis.rs: Nysiis", "src/phonex.rs: Phonex", "src/lib.rs: ParseError", "src/helper.rs: CharSequence", "src/beider_morse/mod.rs: NameType", "src/beider_morse/rule.rs: RuleType", "src/beider_morse/languages.rs: LanguageSet"]}
{"id": "C119", "title": "Comparing encoders and settings", "statement": "The comparisons of Soundex, Refined Soundex, Metaphone, Double Metaphone, Nysiis and Phonex encoders, name types and rule types are total orders that agree with ==. Metaphone and Double Metaphone encoders are ordered by their limits, no limit being the first; Phonex encoders by the limit; Soundex encoders by their mappings as texts, then by the flag; name types as their names. Encoders that compare equal encode every text alike; Metaphone, Nysiis and Refined Soundex encoders that encode all ASCII texts alike compare equal.", "quantifier": "all encoders of these kinds (all mappings, limits, flags), all texts, all Unicode tables", "why_tests_cant": "Totality and transitivity are claims about all pairs and triples of encoders, and 'encode alike' about all texts.", "anchors": ["src/soundex.rs: Soundex", "src/refined_soundex.rs: RefinedSoundex", "src/metaphone.rs: Metaphone", "src/double_metaphone.rs: DoubleMetaphone", "src/nysiis.rs: Nysiis", "src/phonex.rs: Phonex", "src/beider_morse/mod.rs: NameType", "src/beider_morse/rule.rs: RuleType"]}
{"id": "C120", "title": "Exactly which neighbouring letters may change places", "statement": "Transposed letters. Soundex (default): after a letter, H and W may change places with every neighbouring letter, and letters with the same digit, and the vowels with Y, with each other, without a change of the code, whatever stands before and after; no other two letters may. Match Rating: after a letter, a vowel may change places with every letter, no other two letters may. Refined Soundex: letters with the same code. NYSIIS: A, O and U (though A is not confused with O and U), and G and Q. Phonex (length at least 2): AEIOUY, BP, FV, KQ, also at the beginning. Cologne: AOU, EIJY, DT, FVW, KQ, MN, SZ, also at the beginning. Daitch-Mokotoff (embedded rules): BFVW, GQ, also at the beginning. Caverphone 1 and 2: SZ, FV, KX, and A and O, E and I (which are not confused), also at the beginning, except E and I in Caverphone 2. Metaphone and Double Metaphone (either code), without limit or with one of at least 3: no two letters. At the beginning of a text no two letters may change places for Soundex, Refined Soundex, NYSIIS and Match Rating.", "quantifier": "all pairs of capital letters, all texts before and after them (in any alphabet; without capital sigma for Caverphone), all Unicode tables, all limits", "why_tests_cant": "That two letters may always change places is a claim about all pairs of surrounding texts; tests see some of them.", "anchors": ["src/soundex.rs: Soundex::encode", "src/refined_soundex.rs: RefinedSoundex::encode", "src/cologne.rs: Cologne::encode", "src/caverphone.rs: Caverphone1::encode, Caverphone2::encode", "src/nysiis.rs: Nysiis::encode", "src/match_rating_approach.rs: MatchRatingApproach::encode", "src/phonex.rs: Phonex::encode", "src/metaphone.rs: Metaphone::encode", "src/double_metaphone.rs: DoubleMetaphone::double_metaphone", "src/daitch_mokotoff.rs: DaitchMokotoffSoundex::soundex"]}
