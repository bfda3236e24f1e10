{
 "claims": [
  {
   "property": "C01",
   "status": "proved",
   "theorems": [
    "Verif.Props.isEncodedEquals_spec",
    "Verif.Props.isEncodedEquals_equivalence"
   ],
   "note": ""
  },
  {
   "property": "C02",
   "status": "proved",
   "theorems": [
    "Verif.Props.difference_eq_agreements",
    "Verif.Props.difference_laws",
    "Verif.Props.soundex_difference_four"
   ],
   "note": ""
  },
  {
   "property": "C03",
   "status": "proved",
   "theorems": [
    "Verif.Props.soundex_eq_spec",
    "Verif.Props.soundex_ascii",
    "Verif.Props.soundex_full_prefix"
   ],
   "note": ""
  },
  {
   "property": "C04",
   "status": "proved",
   "theorems": [
    "Verif.Props.soundex_shape",
    "Verif.Props.soundex_default_digits",
    "Verif.Props.soundex_difference_four"
   ],
   "note": ""
  },
  {
   "property": "C05",
   "status": "proved",
   "theorems": [
    "Verif.Props.soundex_case_insensitive",
    "Verif.Props.soundex_ignores_nonletters",
    "Verif.Props.soundex_case_insensitive_compare"
   ],
   "note": ""
  },
  {
   "property": "C06",
   "status": "proved",
   "theorems": [
    "Verif.Props.soundex_hw_transparent",
    "Verif.Props.soundex_hw_coded_once",
    "Verif.Props.soundex_vowel_separates",
    "Verif.Props.soundex_hw_vs_vowel",
    "Verif.Props.soundex_vowel_separates_anywhere",
    "Verif.Props.soundex_vowel_separates_example"
   ],
   "note": ""
  },
  {
   "property": "C07",
   "status": "proved",
   "theorems": [
    "Verif.Props.soundex_panic_iff",
    "Verif.Props.soundex_ascii_no_panic",
    "Verif.Props.soundex_panics_on_accent"
   ],
   "note": ""
  },
  {
   "property": "C08",
   "status": "proved",
   "theorems": [
    "Verif.Props.soundex_fromStr",
    "Verif.Props.refinedSoundex_fromStr",
    "Verif.Props.default_mappings"
   ],
   "note": ""
  },
  {
   "property": "C09",
   "status": "proved",
   "theorems": [
    "Verif.Props.refinedSoundex_eq_spec",
    "Verif.Props.refinedSoundex_panic_iff",
    "Verif.Props.refinedSoundex_shape",
    "Verif.Props.refinedSoundex_ascii"
   ],
   "note": ""
  },
  {
   "property": "C10",
   "status": "proved",
   "theorems": [
    "Verif.Props.cologne_eq_spec"
   ],
   "note": ""
  },
  {
   "property": "C11",
   "status": "proved",
   "theorems": [
    "Verif.Props.cologne_shape",
    "Verif.Props.cologne_empty_iff"
   ],
   "note": ""
  },
  {
   "property": "C12",
   "status": "proved",
   "theorems": [
    "Verif.Props.cologne_case",
    "Verif.Props.cologne_ascii_case",
    "Verif.Props.cologne_umlaut"
   ],
   "note": ""
  },
  {
   "property": "C40",
   "status": "proved",
   "theorems": [
    "Verif.Props.charSequence_range",
    "Verif.Props.charSequence_other_ranges",
    "Verif.Props.charSequence_len",
    "Verif.Props.charSequence_slices",
    "Verif.Props.charSequence_any"
   ],
   "note": ""
  },
  {
   "property": "C13",
   "status": "proved",
   "theorems": [
    "Verif.Props.caverphone_fixed_length"
   ],
   "note": ""
  },
  {
   "property": "C14",
   "status": "proved",
   "theorems": [
    "Verif.Props.caverphone1_ascii",
    "Verif.Props.caverphone2_ascii",
    "Verif.Props.caverphone_panics_outside_ascii"
   ],
   "note": ""
  },
  {
   "property": "C15",
   "status": "proved",
   "theorems": [
    "Verif.Props.caverphone_case_insensitive",
    "Verif.Props.caverphone_ignores_nonletters"
   ],
   "note": ""
  },
  {
   "property": "C16",
   "status": "proved",
   "theorems": [
    "Verif.Props.caverphone2_final_e",
    "Verif.Props.caverphone2_final_e_sigma"
   ],
   "note": "Restricted to text without capital sigma, whose lower-casing depends on the end of the word; caverphone2_final_e_sigma is the counterexample for the unrestricted claim."
  },
  {
   "property": "C17",
   "status": "proved",
   "theorems": [
    "Verif.Props.nysiis_strict_prefix",
    "Verif.Props.nysiis_strict_panics"
   ],
   "note": ""
  },
  {
   "property": "C18",
   "status": "proved",
   "theorems": [
    "Verif.Props.nysiis_alphabet",
    "Verif.Props.nysiis_no_letters",
    "Verif.Props.nysiis_empty_name"
   ],
   "note": ""
  },
  {
   "property": "C19",
   "status": "proved",
   "theorems": [
    "Verif.Props.nysiis_case_insensitive",
    "Verif.Props.nysiis_ignores_nonletters"
   ],
   "note": ""
  },
  {
   "property": "C20",
   "status": "proved",
   "theorems": [
    "Verif.Props.mra_encode_spec",
    "Verif.Props.mra_code_short",
    "Verif.Props.mra_ascii_no_panic",
    "Verif.Props.mra_encode_panics"
   ],
   "note": ""
  },
  {
   "property": "C21",
   "status": "proved",
   "theorems": [
    "Verif.Props.mra_compare_symm",
    "Verif.Props.mra_compare_laws",
    "Verif.Props.mra_compare_equal_codes"
   ],
   "note": ""
  },
  {
   "property": "C48",
   "status": "proved",
   "theorems": [
    "Verif.Props.nysiis_eq_spec",
    "Verif.Props.nysiis_default"
   ],
   "note": ""
  },
  {
   "property": "C22",
   "status": "proved",
   "theorems": [
    "Verif.Props.mra_compare_panic_any",
    "Verif.Props.mra_compare_panic_iff",
    "Verif.Props.mra_compare_panics",
    "Verif.Props.mra_compare_total"
   ],
   "note": ""
  },
  {
   "property": "C23",
   "status": "proved",
   "theorems": [
    "Verif.Props.metaphone_limit",
    "Verif.Props.metaphone_one_letter",
    "Verif.Props.metaphone_limit_zero_exceeded"
   ],
   "note": ""
  },
  {
   "property": "C24",
   "status": "proved",
   "theorems": [
    "Verif.Props.metaphone_truncation"
   ],
   "note": ""
  },
  {
   "property": "C25",
   "status": "proved",
   "theorems": [
    "Verif.Props.metaphone_ascii",
    "Verif.Props.metaphone_panics",
    "Verif.Props.metaphone_case_insensitive"
   ],
   "note": ""
  },
  {
   "property": "C49",
   "status": "proved",
   "theorems": [
    "Verif.Props.metaphone_eq_spec",
    "Verif.Props.metaphone_one_letter"
   ],
   "note": ""
  },
  {
   "property": "C26",
   "status": "proved",
   "theorems": [
    "Verif.Props.phonex_total"
   ],
   "note": ""
  },
  {
   "property": "C27",
   "status": "proved",
   "theorems": [
    "Verif.Props.phonex_length",
    "Verif.Props.phonex_one_overshoots",
    "Verif.Props.phonex_default_length"
   ],
   "note": ""
  },
  {
   "property": "C50",
   "status": "proved",
   "theorems": [
    "Verif.Props.phonex_eq_spec"
   ],
   "note": ""
  },
  {
   "property": "C28",
   "status": "proved",
   "theorems": [
    "Verif.Props.double_metaphone_limit"
   ],
   "note": ""
  },
  {
   "property": "C29",
   "status": "proved",
   "theorems": [
    "Verif.Props.double_metaphone_truncation"
   ],
   "note": ""
  },
  {
   "property": "C30",
   "status": "proved",
   "theorems": [
    "Verif.Props.double_metaphone_ascii",
    "Verif.Props.double_metaphone_panics"
   ],
   "note": ""
  },
  {
   "property": "C31",
   "status": "proved",
   "theorems": [
    "Verif.Props.double_metaphone_alphabet",
    "Verif.Props.double_metaphone_space"
   ],
   "note": ""
  },
  {
   "property": "C32",
   "status": "proved",
   "theorems": [
    "Verif.Props.double_metaphone_trim",
    "Verif.Props.double_metaphone_case",
    "Verif.Props.double_metaphone_encode"
   ],
   "note": ""
  },
  {
   "property": "C51",
   "status": "proved",
   "theorems": [
    "Verif.Props.double_metaphone_equal_iff",
    "Verif.Props.double_metaphone_equal_equivalence"
   ],
   "note": ""
  },
  {
   "property": "C33",
   "status": "proved",
   "theorems": [
    "Verif.Props.dm_codes_six_bytes",
    "Verif.Props.dm_codes_ascii",
    "Verif.Props.dm_default_builds",
    "Verif.Props.dm_default_digits",
    "Verif.Props.dm_non_ascii_alternative_panics"
   ],
   "note": ""
  },
  {
   "property": "C34",
   "status": "proved",
   "theorems": [
    "Verif.Props.dm_encode_first"
   ],
   "note": ""
  },
  {
   "property": "C35",
   "status": "proved",
   "theorems": [
    "Verif.Props.dm_build_meaning",
    "Verif.Props.dm_built_meaning",
    "Verif.Props.dm_built_meaning_any",
    "Verif.Props.dm_codes_agree",
    "Verif.Props.dm_best_rule",
    "Verif.Props.dm_letter_lost"
   ],
   "note": ""
  },
  {
   "property": "C36",
   "status": "proved",
   "theorems": [
    "Verif.Props.dm_whitespace",
    "Verif.Props.dm_case",
    "Verif.Props.dm_ascii_case",
    "Verif.Props.dm_folding"
   ],
   "note": ""
  },
  {
   "property": "C37",
   "status": "proved",
   "theorems": [
    "Verif.Props.parse_rule_iff",
    "Verif.Props.parse_folding_iff",
    "Verif.Props.parse_blank_iff",
    "Verif.Props.parse_comment_iff",
    "Verif.Props.parse_lang_iff",
    "Verif.Props.parse_include_iff",
    "Verif.Props.parse_language_iff"
   ],
   "note": ""
  },
  {
   "property": "C38",
   "status": "proved",
   "theorems": [
    "Verif.Props.dm_build_terminates",
    "Verif.Props.dm_empty_pattern_panics"
   ],
   "note": ""
  },
  {
   "property": "C39",
   "status": "proved",
   "theorems": [
    "Verif.Props.dm_error_line",
    "Verif.Props.dm_error_shape",
    "Verif.Props.dm_error_line_after_comment"
   ],
   "note": ""
  },
  {
   "property": "C41",
   "status": "proved",
   "theorems": [
    "Verif.Props.languageSet_restrictTo",
    "Verif.Props.languageSet_merge",
    "Verif.Props.languageSet_wf",
    "Verif.Props.languageSet_isEmpty",
    "Verif.Props.languageSet_isSingleton",
    "Verif.Props.languageSet_any",
    "Verif.Props.languageSet_ext"
   ],
   "note": ""
  },
  {
   "property": "C42",
   "status": "proved",
   "theorems": [
    "Verif.Props.guess_some",
    "Verif.Props.guess_any",
    "Verif.Props.guess_order",
    "Verif.Props.guess_case"
   ],
   "note": ""
  },
  {
   "property": "C43",
   "status": "proved",
   "theorems": [
    "Verif.Props.optimizedRegex_correct",
    "Verif.Props.optimisation_invisible",
    "Verif.Props.optimizedRegex_total",
    "Verif.Props.optimizedRegex_alternation_literal",
    "Verif.Props.optimizedRegex_range_literal"
   ],
   "note": ""
  },
  {
   "property": "C46",
   "status": "proved",
   "theorems": [
    "Verif.Props.nameType_parse",
    "Verif.Props.nameType_parse_error",
    "Verif.Props.nameType_filename",
    "Verif.Props.ruleType_parse",
    "Verif.Props.ruleType_parse_error",
    "Verif.Props.printed_forms"
   ],
   "note": ""
  },
  {
   "property": "C47",
   "status": "proved",
   "theorems": [
    "Verif.Props.phoneme_less",
    "Verif.Props.phoneme_equal",
    "Verif.Props.phoneme_greater",
    "Verif.Props.phoneme_order",
    "Verif.Props.phoneme_order_ignores_languages"
   ],
   "note": ""
  },
  {
   "property": "C44",
   "status": "proved",
   "theorems": [
    "Verif.Props.bm_output_sorted",
    "Verif.Props.bm_output_split_sorted"
   ],
   "note": "example: bm_output_sorted_example"
  },
  {
   "property": "C45",
   "status": "proved",
   "theorems": [
    "Verif.Props.bm_apply_rule",
    "Verif.Props.bm_apply_rule_complete",
    "Verif.Props.bm_output_count",
    "Verif.Props.bm_output_exceeds_max",
    "Verif.Props.bm_max_zero",
    "Verif.Props.bm_same_text_loses_languages"
   ],
   "note": "example: bm_apply_rule_example"
  },
  {
   "property": "C52",
   "status": "proved",
   "theorems": [
    "Verif.Props.bm_build_returns",
    "Verif.Props.bm_encode_returns",
    "Verif.Props.bm_encode_panics"
   ],
   "note": "example: bm_encode_returns_example"
  },
  {
   "property": "C53",
   "status": "proved",
   "theorems": [
    "Verif.Props.bm_encode_with_languages_returns",
    "Verif.Props.bm_unknown_language_panics"
   ],
   "note": ""
  },
  {
   "property": "C54",
   "status": "proved",
   "theorems": [
    "Verif.Props.bm_encode_prefix",
    "Verif.Props.bm_encode_words",
    "Verif.Props.bm_encode_text",
    "Verif.Props.bm_encode_cases"
   ],
   "note": "example: bm_encode_structure_example"
  },
  {
   "property": "C55",
   "status": "proved",
   "theorems": [
    "Verif.Props.bm_main_phonemes",
    "Verif.Props.bm_output_choices"
   ],
   "note": "example: bm_main_phonemes_example"
  },
  {
   "property": "C56",
   "status": "proved",
   "theorems": [
    "Verif.Props.bm_encode_case",
    "Verif.Props.bm_encode_with_languages_case"
   ],
   "note": ""
  },
  {
   "property": "C57",
   "status": "proved",
   "theorems": [
    "Verif.Props.bm_encode_blank",
    "Verif.Props.bm_encode_blank_ascii"
   ],
   "note": ""
  },
  {
   "property": "C58",
   "status": "proved",
   "theorems": [
    "Verif.Props.list_file_accepted",
    "Verif.Props.list_file_rejected",
    "Verif.Props.list_file_cases"
   ],
   "note": ""
  },
  {
   "property": "C59",
   "status": "proved",
   "theorems": [
    "Verif.Props.lang_file_accepted",
    "Verif.Props.lang_file_rejected",
    "Verif.Props.lang_file_invalid",
    "Verif.Props.lang_file_cases"
   ],
   "note": ""
  },
  {
   "property": "C60",
   "status": "proved",
   "theorems": [
    "Verif.Props.phoneme_expression",
    "Verif.Props.phoneme_expression_rejected",
    "Verif.Props.phoneme_expression_unique"
   ],
   "note": ""
  },
  {
   "property": "C61",
   "status": "proved",
   "theorems": [
    "Verif.Props.rule_file",
    "Verif.Props.rule_file_depth",
    "Verif.Props.rule_file_include_replaces",
    "Verif.Props.rule_file_include_keeps"
   ],
   "note": ""
  },
  {
   "property": "C62",
   "status": "proved",
   "theorems": [
    "Verif.Props.rule_file_rejected",
    "Verif.Props.rule_file_returns",
    "Verif.Props.rule_file_cycle",
    "Verif.Props.rule_file_self_include",
    "Verif.Props.rule_file_empty_pattern",
    "Verif.Props.rule_file_rule_error",
    "Verif.Props.rule_file_include_error"
   ],
   "note": ""
  },
  {
   "property": "C63",
   "status": "proved",
   "theorems": [
    "Verif.Props.config_loads",
    "Verif.Props.config_contents",
    "Verif.Props.config_loads_example"
   ],
   "note": ""
  },
  {
   "property": "C65",
   "status": "proved",
   "theorems": [
    "Verif.Props.mra_compare_spec",
    "Verif.Props.mra_compare_any",
    "Verif.Props.mra_compare_codes"
   ],
   "note": ""
  },
  {
   "property": "C64",
   "status": "proved",
   "theorems": [
    "Verif.Props.config_missing_list",
    "Verif.Props.config_empty_directory",
    "Verif.Props.config_missing_list_example"
   ],
   "note": ""
  },
  {
   "property": "C66",
   "status": "proved",
   "theorems": [
    "Verif.Props.bm_embedded_loads",
    "Verif.Props.bm_embedded_contents",
    "Verif.Props.bm_embedded_build"
   ],
   "note": ""
  },
  {
   "property": "C67",
   "status": "proved",
   "theorems": [
    "Verif.Props.bm_embedded_guess",
    "Verif.Props.bm_embedded_encode_returns",
    "Verif.Props.bm_embedded_encode_with_languages"
   ],
   "note": ""
  },
  {
   "property": "C68",
   "status": "proved",
   "theorems": [
    "Verif.Props.bm_code_characters",
    "Verif.Props.bm_embedded_alphabet",
    "Verif.Props.bm_embedded_no_bars"
   ],
   "note": ""
  },
  {
   "property": "C69",
   "status": "proved",
   "theorems": [
    "Verif.Props.bm_embedded_engine_independent",
    "Verif.Tests.bm_embedded_angelo"
   ],
   "note": ""
  },
  {
   "property": "C70",
   "status": "proved",
   "theorems": [
    "Verif.Props.double_metaphone_spec"
   ],
   "note": ""
  },
  {
   "property": "C71",
   "status": "proved",
   "theorems": [
    "Verif.Props.double_metaphone_vocalic"
   ],
   "note": ""
  },
  {
   "property": "C72",
   "status": "proved",
   "theorems": [
    "Verif.Props.caverphone1_spec",
    "Verif.Props.caverphone2_spec",
    "Verif.Props.caverphone_spec_ascii"
   ],
   "note": ""
  },
  {
   "property": "C73",
   "status": "proved",
   "theorems": [
    "Verif.Props.phonex_panics_iff",
    "Verif.Props.double_metaphone_capacity"
   ],
   "note": ""
  },
  {
   "property": "C74",
   "status": "proved",
   "theorems": [
    "Verif.Props.dm_repeat_bound",
    "Verif.Props.dm_single",
    "Verif.Props.dm_default_at_most_twice",
    "Verif.Props.dm_default_repeats"
   ],
   "note": ""
  },
  {
   "property": "C75",
   "status": "proved",
   "theorems": [
    "Verif.Props.caverphone1_outcome",
    "Verif.Props.caverphone2_outcome",
    "Verif.Props.caverphone_ascii_letters",
    "Verif.Props.nysiis_outcome"
   ],
   "note": ""
  },
  {
   "property": "C76",
   "status": "proved",
   "theorems": [
    "Verif.Props.metaphone_any",
    "Verif.Props.metaphone_returns",
    "Verif.Props.metaphone_final_mb"
   ],
   "note": ""
  },
  {
   "property": "C77",
   "status": "proved",
   "theorems": [
    "Verif.Props.double_metaphone_beyond_ascii"
   ],
   "note": ""
  },
  {
   "property": "C78",
   "status": "proved",
   "theorems": [
    "Verif.Props.double_metaphone_awkward"
   ],
   "note": ""
  },
  {
   "property": "C79",
   "status": "proved",
   "theorems": [
    "Verif.Props.double_metaphone_returns"
   ],
   "note": ""
  },
  {
   "property": "C80",
   "status": "proved",
   "theorems": [
    "Verif.Props.double_metaphone_display",
    "Verif.Props.dm_error_message",
    "Verif.Props.languageSet_display",
    "Verif.Props.languageSet_display_comma"
   ],
   "note": ""
  },
  {
   "property": "C81",
   "status": "proved",
   "theorems": [
    "Verif.Props.bm_encode_guesses",
    "Verif.Props.bm_given_languages_text",
    "Verif.Props.bm_given_languages_ignored"
   ],
   "note": ""
  },
  {
   "property": "C82",
   "status": "proved",
   "theorems": [
    "Verif.Props.bm_words_only",
    "Verif.Props.bm_words_blank",
    "Verif.Props.bm_leading_blank"
   ],
   "note": ""
  },
  {
   "property": "C83",
   "status": "proved",
   "theorems": [
    "Verif.Props.same_letters_same_codes",
    "Verif.Props.metaphone_same_upper",
    "Verif.Props.ascii_case",
    "Verif.Props.mra_same_clean",
    "Verif.Props.mra_ascii_case",
    "Verif.Props.mra_initial"
   ],
   "note": ""
  },
  {
   "property": "C84",
   "status": "proved",
   "theorems": [
    "Verif.Props.soundex_doubled_letter",
    "Verif.Props.cologne_doubled_letter",
    "Verif.Props.cologne_doubled_exceptions"
   ],
   "note": ""
  },
  {
   "property": "C85",
   "status": "proved",
   "theorems": [
    "Verif.Props.bm_max_settles",
    "Verif.Props.bm_max_settles_languages",
    "Verif.Props.bm_build_max",
    "Verif.Props.bm_max_not_monotone",
    "Verif.Props.bm_all_choices_example"
   ],
   "note": ""
  },
  {
   "property": "C86",
   "status": "proved",
   "theorems": [
    "Verif.Props.bm_all_choices",
    "Verif.Props.bm_all_choices_example"
   ],
   "note": ""
  },
  {
   "property": "C87",
   "status": "proved",
   "theorems": [
    "Verif.Props.dm_codes_choices",
    "Verif.Props.dm_default_choices",
    "Verif.Props.dm_codes_choices_example"
   ],
   "note": ""
  },
  {
   "property": "C88",
   "status": "proved",
   "theorems": [
    "Verif.Props.ascii_tables",
    "Verif.Props.ascii_tables_mra",
    "Verif.Props.ascii_tables_bm"
   ],
   "note": ""
  },
  {
   "property": "C89",
   "status": "proved",
   "theorems": [
    "Verif.Props.bm_code_balanced",
    "Verif.Props.bm_pieces_prefix",
    "Verif.Props.bm_pieces_words",
    "Verif.Props.bm_pieces_text",
    "Verif.Props.bm_embedded_no_separators"
   ],
   "note": ""
  },
  {
   "property": "C90",
   "status": "proved",
   "theorems": [
    "Verif.Props.refined_soundex_extends",
    "Verif.Props.soundex_extends",
    "Verif.Props.cologne_extends"
   ],
   "note": ""
  },
  {
   "property": "C91",
   "status": "proved",
   "theorems": [
    "Verif.Props.metaphone_extends",
    "Verif.Props.metaphone_beginning",
    "Verif.Props.nysiis_extends",
    "Verif.Props.nysiis_beginning",
    "Verif.Props.nysiis_extends_sharp",
    "Verif.Props.phonex_extends",
    "Verif.Props.phonex_beginning"
   ],
   "note": ""
  },
  {
   "property": "C92",
   "status": "proved",
   "theorems": [
    "Verif.Props.config_listing",
    "Verif.Props.config_order",
    "Verif.Props.config_error_order",
    "Verif.Props.config_depth"
   ],
   "note": ""
  },
  {
   "property": "C93",
   "status": "proved",
   "theorems": [
    "Verif.Props.soundex_codes",
    "Verif.Props.refined_soundex_codes",
    "Verif.Props.cologne_codes",
    "Verif.Props.metaphone_codes",
    "Verif.Props.phonex_codes",
    "Verif.Props.mra_codes",
    "Verif.Props.caverphone1_codes",
    "Verif.Props.caverphone2_codes",
    "Verif.Props.dm_codes",
    "Verif.Props.nysiis_codes",
    "Verif.Props.nysiis_codes_example",
    "Verif.Props.double_metaphone_codes",
    "Verif.Props.double_metaphone_codes_example"
   ],
   "note": ""
  },
  {
   "property": "C94",
   "status": "proved",
   "theorems": [
    "Verif.Props.config_unlistable",
    "Verif.Props.config_unlistable_entry",
    "Verif.Props.config_unlistable_example",
    "Verif.Props.config_listed"
   ],
   "note": ""
  },
  {
   "property": "C95",
   "status": "proved",
   "theorems": [
    "Verif.Props.dm_rules_that_matter",
    "Verif.Props.dm_rule_order",
    "Verif.Props.dm_rule_order_example",
    "Verif.Props.dm_repeated_pattern"
   ],
   "note": ""
  },
  {
   "property": "C96",
   "status": "proved",
   "theorems": [
    "Verif.Props.bm_builder_calls",
    "Verif.Props.bm_builder_history",
    "Verif.Props.dm_builder_history",
    "Verif.Props.dm_builder_history_example"
   ],
   "note": ""
  },
  {
   "property": "C97",
   "status": "proved",
   "theorems": [
    "Verif.Props.refined_finer",
    "Verif.Props.refined_finer_default",
    "Verif.Props.refined_finer_examples"
   ],
   "note": ""
  },
  {
   "property": "C98",
   "status": "proved",
   "theorems": [
    "Verif.Props.bm_layout_loads",
    "Verif.Props.bm_layout_codes",
    "Verif.Props.bm_layout_unique",
    "Verif.Props.bm_layout_comment"
   ],
   "note": ""
  },
  {
   "property": "C99",
   "status": "proved",
   "theorems": [
    "Verif.Props.double_metaphone_extends",
    "Verif.Props.double_metaphone_extends_alternate",
    "Verif.Props.double_metaphone_beginning",
    "Verif.Props.double_metaphone_extends_sharp",
    "Verif.Props.caverphone_extends"
   ],
   "note": ""
  },
  {
   "property": "C100",
   "status": "proved",
   "theorems": [
    "Verif.Props.soundex_interchangeable",
    "Verif.Props.refined_interchangeable",
    "Verif.Props.cologne_interchangeable",
    "Verif.Props.caverphone_interchangeable",
    "Verif.Props.nysiis_interchangeable",
    "Verif.Props.phonex_interchangeable",
    "Verif.Props.mra_interchangeable",
    "Verif.Props.metaphone_interchangeable",
    "Verif.Props.double_metaphone_interchangeable",
    "Verif.Props.dm_interchangeable"
   ],
   "note": ""
  },
  {
   "property": "C101",
   "status": "proved",
   "theorems": [
    "Verif.Props.soundex_doublable",
    "Verif.Props.cologne_doublable",
    "Verif.Props.caverphone1_doublable",
    "Verif.Props.caverphone2_doublable",
    "Verif.Props.nysiis_doublable",
    "Verif.Props.metaphone_doublable",
    "Verif.Props.phonex_doublable",
    "Verif.Props.mra_doublable",
    "Verif.Props.double_metaphone_doublable",
    "Verif.Props.dm_doublable",
    "Verif.Props.dm_doublable_ascii"
   ],
   "note": ""
  },
  {
   "property": "C102",
   "status": "proved",
   "theorems": [
    "Verif.Props.soundex_omissible",
    "Verif.Props.mra_omissible",
    "Verif.Props.plain_omissible",
    "Verif.Props.limited_omissible",
    "Verif.Props.dm_omissible"
   ],
   "note": ""
  },
  {
   "property": "C103",
   "status": "proved",
   "theorems": [
    "Verif.Props.nysiis_length_le",
    "Verif.Props.refined_soundex_length",
    "Verif.Props.metaphone_length",
    "Verif.Props.cologne_length",
    "Verif.Props.mra_length",
    "Verif.Props.double_metaphone_length",
    "Verif.Props.lengths_attained"
   ],
   "note": ""
  },
  {
   "property": "C104",
   "status": "proved",
   "theorems": [
    "Verif.Props.dm_few_codes",
    "Verif.Props.dm_one_code",
    "Verif.Props.double_metaphone_one_code",
    "Verif.Props.one_code_needed"
   ],
   "note": ""
  },
  {
   "property": "C105",
   "status": "proved",
   "theorems": [
    "Verif.Props.cologne_blank",
    "Verif.Props.phonex_blank",
    "Verif.Props.mra_blank",
    "Verif.Props.metaphone_heard",
    "Verif.Props.nysiis_heard",
    "Verif.Props.caverphone_heard",
    "Verif.Props.double_metaphone_heard",
    "Verif.Props.dm_heard",
    "Verif.Props.heard_sharp",
    "Verif.Props.blank_names"
   ],
   "note": ""
  },
  {
   "property": "C106",
   "status": "proved",
   "theorems": [
    "Verif.Props.soundex_onset",
    "Verif.Props.soundex_same_start",
    "Verif.Props.mra_onset",
    "Verif.Props.phonex_onset",
    "Verif.Props.nysiis_onset",
    "Verif.Props.nysiis_onset_short",
    "Verif.Props.cologne_onset",
    "Verif.Props.cologne_onset_sharp",
    "Verif.Props.caverphone_onset",
    "Verif.Props.caverphone1_vowel",
    "Verif.Props.metaphone_onset",
    "Verif.Props.metaphone_vowel",
    "Verif.Props.english_onset_sharp",
    "Verif.Props.double_metaphone_onset",
    "Verif.Props.double_metaphone_vowel",
    "Verif.Props.double_metaphone_onset_sharp",
    "Verif.Props.dm_onset",
    "Verif.Props.dm_onset_sharp"
   ],
   "note": ""
  },
  {
   "property": "C107",
   "status": "proved",
   "theorems": [
    "Verif.Props.soundex_again",
    "Verif.Props.soundex_own_code",
    "Verif.Props.refined_soundex_again",
    "Verif.Props.cologne_again",
    "Verif.Props.phonex_again",
    "Verif.Props.dm_again",
    "Verif.Props.mra_again",
    "Verif.Props.mra_fixed",
    "Verif.Props.caverphone1_fixed",
    "Verif.Props.caverphone2_fixed",
    "Verif.Props.others_again"
   ],
   "note": ""
  },
  {
   "property": "C108",
   "status": "proved",
   "theorems": [
    "Verif.Props.soundex_how_many",
    "Verif.Props.dm_how_many",
    "Verif.Props.metaphone_how_many",
    "Verif.Props.double_metaphone_how_many",
    "Verif.Props.mra_how_many",
    "Verif.Props.phonex_how_many",
    "Verif.Props.caverphone1_how_many",
    "Verif.Props.caverphone2_how_many",
    "Verif.Props.double_metaphone_alternates",
    "Verif.Props.nysiis_how_many",
    "Verif.Props.more_names_than_codes",
    "Verif.Props.default_how_many",
    "Verif.Props.soundex_shared"
   ],
   "note": ""
  },
  {
   "property": "C109",
   "status": "proved",
   "theorems": [
    "Verif.Props.bm_embedded_rules_exact",
    "Verif.Props.bm_embedded_encoder_rules",
    "Verif.Props.bm_embedded_number_of_rules",
    "Verif.Props.bm_embedded_files"
   ],
   "note": ""
  },
  {
   "property": "C110",
   "status": "proved",
   "theorems": [
    "Verif.Props.dm_default_table",
    "Verif.Props.dm_default_table_folding"
   ],
   "note": ""
  },
  {
   "property": "C111",
   "status": "proved",
   "theorems": [
    "Verif.Props.soundex_before",
    "Verif.Props.soundex_after",
    "Verif.Props.soundex_together",
    "Verif.Props.refined_soundex_together",
    "Verif.Props.soundex_together_needs",
    "Verif.Props.others_not_together"
   ],
   "note": ""
  },
  {
   "property": "C112",
   "status": "proved",
   "theorems": [
    "Verif.Props.metaphone_settings",
    "Verif.Props.double_metaphone_settings",
    "Verif.Props.phonex_settings",
    "Verif.Props.nysiis_settings",
    "Verif.Props.refined_soundex_settings",
    "Verif.Props.soundex_settings",
    "Verif.Props.soundex_settings_alike"
   ],
   "note": ""
  },
  {
   "property": "C113",
   "status": "proved",
   "theorems": [
    "Verif.Props.orders_total",
    "Verif.Props.charSequence_order",
    "Verif.Props.double_metaphone_result_order",
    "Verif.Props.double_metaphone_result_unequal",
    "Verif.Props.languageSet_order",
    "Verif.Props.parseError_order"
   ],
   "note": ""
  },
  {
   "property": "C114",
   "status": "proved",
   "theorems": [
    "Verif.Props.bm_concat_undivided",
    "Verif.Props.bm_concat_one_word",
    "Verif.Props.bm_dropped_words",
    "Verif.Props.bm_concat_matters"
   ],
   "note": ""
  },
  {
   "property": "C115",
   "status": "proved",
   "theorems": [
    "Verif.Props.difference_triangle",
    "Verif.Props.difference_full",
    "Verif.Props.difference_determines",
    "Verif.Props.soundex_distance",
    "Verif.Props.soundex_difference_every"
   ],
   "note": ""
  },
  {
   "property": "C116",
   "status": "proved",
   "theorems": [
    "Verif.Props.cologne_cut",
    "Verif.Props.cologne_parts",
    "Verif.Props.cologne_compound",
    "Verif.Props.refined_soundex_cut",
    "Verif.Props.metaphone_cut",
    "Verif.Props.soundex_cut"
   ],
   "note": ""
  },
  {
   "property": "C117",
   "status": "proved",
   "theorems": [
    "Verif.Props.refined_soundex_typo",
    "Verif.Props.cologne_typo",
    "Verif.Props.metaphone_typo",
    "Verif.Props.soundex_typo"
   ],
   "note": ""
  },
  {
   "property": "C118",
   "status": "proved",
   "theorems": [
    "Verif.Props.soundex_read",
    "Verif.Props.refined_soundex_read",
    "Verif.Props.metaphone_read",
    "Verif.Props.double_metaphone_read",
    "Verif.Props.double_metaphone_result_read",
    "Verif.Props.nysiis_read",
    "Verif.Props.phonex_read",
    "Verif.Props.parse_error_read",
    "Verif.Props.char_sequence_read",
    "Verif.Props.stored_round_trip",
    "Verif.Props.stored_apart",
    "Verif.Props.stored_any_order",
    "Verif.Props.stored_unknown",
    "Verif.Props.stored_missing",
    "Verif.Props.stored_positions",
    "Verif.Props.name_type_stored",
    "Verif.Props.settings_stored_names",
    "Verif.Props.language_set_stored",
    "Verif.Props.char_sequence_stored"
   ],
   "note": "The derives are modelled on serde's data model; how a format spells that data is not."
  },
  {
   "property": "C119",
   "status": "proved",
   "theorems": [
    "Verif.Props.encoder_orders_total",
    "Verif.Props.encoder_order_limits",
    "Verif.Props.encoder_order_mappings",
    "Verif.Props.encoder_order_codes",
    "Verif.Props.settings_order"
   ],
   "note": ""
  },
  {
   "property": "C120",
   "status": "proved",
   "theorems": [
    "Verif.Props.soundex_swappable",
    "Verif.Props.refined_swappable",
    "Verif.Props.cologne_swappable",
    "Verif.Props.caverphone_swappable",
    "Verif.Props.caverphone_swappable_exactly",
    "Verif.Props.nysiis_swappable",
    "Verif.Props.mra_swappable",
    "Verif.Props.phonex_swappable",
    "Verif.Props.phonex_swappable_beginning",
    "Verif.Props.metaphone_swappable",
    "Verif.Props.double_metaphone_swappable",
    "Verif.Props.dm_swappable"
   ],
   "note": ""
  }
 ]
}