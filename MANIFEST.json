{
 "claims": [
  {
   "property": "C04",
   "status": "proved",
   "theorems": [
    "Sudachi.C04_replace_splice",
    "Sudachi.C04_reachable_valid",
    "Sudachi.C04_progress",
    "Sudachi.C04_empty_replacement_breaks_map"
   ],
   "note": ""
  },
  {
   "property": "C05",
   "status": "proved",
   "theorems": [
    "Sudachi.C05_invalid_refused",
    "Sudachi.C05_end_clipped",
    "Sudachi.C05_otherwise_succeeds",
    "Sudachi.C05_short_map",
    "Sudachi.C05_insert_at_end_breaks_map"
   ],
   "note": ""
  },
  {
   "property": "C06",
   "status": "proved",
   "theorems": [
    "Sudachi.C06_byte_of_char",
    "Sudachi.C06_ends_and_cover",
    "Sudachi.C06_substring",
    "Sudachi.C06_build_outcome"
   ],
   "note": ""
  },
  {
   "property": "C07",
   "status": "proved",
   "theorems": [
    "Sudachi.C07_lengths"
   ],
   "note": ""
  },
  {
   "property": "C08",
   "status": "proved",
   "theorems": [
    "Sudachi.C08_can_bow",
    "Sudachi.C08_word_candidate_length"
   ],
   "note": ""
  },
  {
   "property": "C09",
   "status": "proved",
   "theorems": [
    "Sudachi.C09_continuous_length",
    "Sudachi.C09_common_categories",
    "Sudachi.C09_sound",
    "Sudachi.C09_incomplete_witness"
   ],
   "note": ""
  },
  {
   "property": "C10",
   "status": "proved",
   "theorems": [
    "Sudachi.C10_categories",
    "Sudachi.C10_empty_definition_raises"
   ],
   "note": ""
  },
  {
   "property": "C11",
   "status": "proved",
   "theorems": [
    "Sudachi.C11_order_irrelevant"
   ],
   "note": ""
  },
  {
   "property": "C12",
   "status": "proved",
   "theorems": [
    "Sudachi.C12_default_rewrite",
    "Sudachi.C12_normalised_unique"
   ],
   "note": "str.lower and NFKC are parameters with non-empty results"
  },
  {
   "property": "C13",
   "status": "proved",
   "theorems": [
    "Sudachi.C13_psm_rewrite",
    "Sudachi.C13_collapsed_unique",
    "Sudachi.C13_long_symbol_witness"
   ],
   "note": ""
  },
  {
   "property": "C14",
   "status": "proved",
   "theorems": [
    "Sudachi.C14_cheapest_path"
   ],
   "note": "within the safe range of C17"
  },
  {
   "property": "C15",
   "status": "proved",
   "theorems": [
    "Sudachi.C15_path_of_offered",
    "Sudachi.C15_headword_bytes"
   ],
   "note": ""
  },
  {
   "property": "C16",
   "status": "proved",
   "theorems": [
    "Sudachi.C16_fails_iff_no_path"
   ],
   "note": "within the safe range of C17"
  },
  {
   "property": "C17",
   "status": "proved",
   "theorems": [
    "Sudachi.C17_totals_exact",
    "Sudachi.C17_overflow_witness"
   ],
   "note": ""
  },
  {
   "property": "C23",
   "status": "proved",
   "theorems": [
    "Sudachi.C23_mecab_candidates",
    "Sudachi.C23_prefixes_suppressed"
   ],
   "note": ""
  },
  {
   "property": "C24",
   "status": "proved",
   "theorems": [
    "Sudachi.C24_simple"
   ],
   "note": ""
  },
  {
   "property": "C25",
   "status": "proved",
   "theorems": [
    "Sudachi.C25_nooovbow"
   ],
   "note": ""
  },
  {
   "property": "C57",
   "status": "proved",
   "theorems": [
    "Sudachi.C57_all_words_considered",
    "Sudachi.C57_first_provider_asked"
   ],
   "note": ""
  },
  {
   "property": "C26",
   "status": "proved",
   "theorems": [
    "Sudachi.C26_value_preserved",
    "Sudachi.C26_value_unique"
   ],
   "note": ""
  },
  {
   "property": "C27",
   "status": "proved",
   "theorems": [
    "Sudachi.C27_canonical"
   ],
   "note": ""
  },
  {
   "property": "C28",
   "status": "proved",
   "theorems": [
    "Sudachi.C28_comma_groups",
    "Sudachi.C28_not_enforced_with_units"
   ],
   "note": ""
  },
  {
   "property": "C58",
   "status": "proved",
   "theorems": [
    "Sudachi.C58_canonical_fixed",
    "Sudachi.C58_idempotent",
    "Sudachi.C58_get_normalized_once"
   ],
   "note": ""
  },
  {
   "property": "C29",
   "status": "proved",
   "theorems": [
    "Sudachi.C29_only_coarsens",
    "Sudachi.C29_still_tiles"
   ],
   "note": ""
  },
  {
   "property": "C30",
   "status": "proved",
   "theorems": [
    "Sudachi.C30_terminates",
    "Sudachi.C30_may_loop_forever"
   ],
   "note": "explicit quadratic bound on the number of loop turns; divergence for a number word with normalised form '.5' proved for every fuel"
  },
  {
   "property": "C31",
   "status": "proved",
   "theorems": [
    "Sudachi.C31_terminates",
    "Sudachi.C31_exact",
    "Sudachi.C31_only_coarsens",
    "Sudachi.C31_lattice_ok"
   ],
   "note": ""
  },
  {
   "property": "C32",
   "status": "proved",
   "theorems": [
    "Sudachi.C32_concatenate",
    "Sudachi.C32_concatenate_oov",
    "Sudachi.C32_concatenate_ok"
   ],
   "note": ""
  },
  {
   "property": "C59",
   "status": "partial",
   "theorems": [
    "Sudachi.C59_value_preserved_partial",
    "Sudachi.C59_value_or_refused_partial",
    "Sudachi.C59_wrong_value"
   ],
   "note": "false in general: C59_wrong_value is a kernel-checked counterexample; proved for paths without separator words and for parts that form an acceptable number"
  },
  {
   "property": "C60",
   "status": "proved",
   "theorems": [
    "Sudachi.C60_cut_at_breaker",
    "Sudachi.C60_run_joined",
    "Sudachi.C60_run_joined_in_context"
   ],
   "note": ""
  },
  {
   "property": "C01",
   "status": "proved",
   "theorems": [
    "Sudachi.C01_partition",
    "Sudachi.C01_str"
   ],
   "note": "in every history, including after failed calls"
  },
  {
   "property": "C02",
   "status": "proved",
   "theorems": [
    "Sudachi.C02_partition",
    "Sudachi.C02_inconsistent_split"
   ],
   "note": "with consistent splits; the negation without consistency is proved by a witness"
  },
  {
   "property": "C03",
   "status": "proved",
   "theorems": [
    "Sudachi.C03_offsets"
   ],
   "note": "for every mode and dictionary wherever begin()/end() return; that they return for every morpheme is C01/C02"
  },
  {
   "property": "C18",
   "status": "proved",
   "theorems": [
    "Sudachi.C18_stateless"
   ],
   "note": "results and exceptions"
  },
  {
   "property": "C19",
   "status": "partial",
   "theorems": [
    "Sudachi.C19_violated",
    "Sudachi.C19_harmless_partial",
    "Sudachi.C19_still_partition_partial",
    "Sudachi.C19_recovers_partial",
    "Sudachi.C19_lasts"
   ],
   "note": "the claim is false of the code: C19_violated is a kernel-checked counterexample; proved: harmless failures, what survives a harmful one, and that the tokenizer recovers with the first success on a text as long as any before (not with shorter ones: C19_lasts)"
  },
  {
   "property": "C20",
   "status": "proved",
   "theorems": [
    "Sudachi.C20_large_enough",
    "Sudachi.C20_insert_in_range",
    "Sudachi.C20_clear"
   ],
   "note": ""
  },
  {
   "property": "C22",
   "status": "proved",
   "theorems": [
    "Sudachi.C22_empty",
    "Sudachi.C22_nothing",
    "Sudachi.C22_only_empty"
   ],
   "note": ""
  },
  {
   "property": "C33",
   "status": "proved",
   "theorems": [
    "Sudachi.C33_split_agrees",
    "Sudachi.C33_errors_agree",
    "Sudachi.C33_same_node"
   ],
   "note": "results and exceptions"
  },
  {
   "property": "C54",
   "status": "proved",
   "theorems": [
    "Sudachi.C54_getItem",
    "Sudachi.C54_iter"
   ],
   "note": ""
  },
  {
   "property": "C56",
   "status": "proved",
   "theorems": [
    "Sudachi.C56_oov",
    "Sudachi.C56_joined_number"
   ],
   "note": ""
  },
  {
   "property": "C21",
   "status": "proved",
   "theorems": [
    "Sudachi.C21_no_exception",
    "Sudachi.C21_succeeds",
    "Sudachi.C21_needs_single_categories",
    "Sudachi.C21_needs_no_prefixes",
    "Sudachi.C21_needs_simple",
    "Sudachi.C21_shipped_char_def"
   ],
   "note": "for texts in the range where 32-bit path costs cannot overflow; JoinNumericPlugin's loop needs number words without separators (C30)"
  },
  {
   "property": "C35",
   "status": "proved",
   "theorems": [
    "Sudachi.C35_round_trip",
    "Sudachi.C35_what_is_read",
    "Sudachi.C35_size",
    "Sudachi.C35_accepts",
    "Sudachi.C35_refuses_long",
    "Sudachi.C35_refuses"
   ],
   "note": "a negative creation time is read as unsigned"
  },
  {
   "property": "C36",
   "status": "proved",
   "theorems": [
    "Sudachi.C36_disjoint",
    "Sudachi.C36_unknown_version_refused",
    "Sudachi.C36_system_loader",
    "Sudachi.C36_user_loader",
    "Sudachi.C36_wrong_kind",
    "Sudachi.C36_features"
   ],
   "note": ""
  },
  {
   "property": "C37",
   "status": "proved",
   "theorems": [
    "Sudachi.C37_round_trip",
    "Sudachi.C37_reads",
    "Sudachi.C37_violated_long_component",
    "Sudachi.C37_violated_comma",
    "Sudachi.C37_violated_bom",
    "Sudachi.C37_component"
   ],
   "note": "round trip under the stated conditions; witnesses of what happens without them"
  },
  {
   "property": "C38",
   "status": "proved",
   "theorems": [
    "Sudachi.C38_round_trip",
    "Sudachi.C38_violated_non_square",
    "Sudachi.C38_violated_non_square_value",
    "Sudachi.C38_violated_last_cell_missing",
    "Sudachi.C38_bad_line_refused",
    "Sudachi.C38_any_shape",
    "Sudachi.C38_source_unique",
    "Sudachi.C38_own_place",
    "Sudachi.C38_refused",
    "Sudachi.C38_shape"
   ],
   "note": "for matrices that are not square every cell that is read is determined (C38_any_shape)"
  },
  {
   "property": "C34",
   "status": "proved",
   "theorems": [
    "Sudachi.C34_units_exist",
    "Sudachi.C34_number",
    "Sudachi.C34_system"
   ],
   "note": ""
  },
  {
   "property": "C39",
   "status": "proved",
   "theorems": [
    "Sudachi.C39_round_trip",
    "Sudachi.C39_set_cost",
    "Sudachi.C39_set_cost_infos"
   ],
   "note": ""
  },
  {
   "property": "C40",
   "status": "proved",
   "theorems": [
    "Sudachi.C40_round_trip",
    "Sudachi.C40_violated_long_surface",
    "Sudachi.C40_violated_accepted"
   ],
   "note": "for strings of at most 32767 UTF-16 units; longer ones are accepted and read back wrong, as proved"
  },
  {
   "property": "C41",
   "status": "proved",
   "theorems": [
    "Sudachi.C41_form",
    "Sudachi.C41_answers",
    "Sudachi.C41_cycle"
   ],
   "note": ""
  },
  {
   "property": "C42",
   "status": "proved",
   "theorems": [
    "Sudachi.C42_lookup",
    "Sudachi.C42_violated_spelling"
   ],
   "note": "the trie is a parameter with a contract (Darts.Ok); a left id spelled other than -1 but equal to it is still found"
  },
  {
   "property": "C43",
   "status": "proved",
   "theorems": [
    "Sudachi.C43_loads",
    "Sudachi.C43_no_overlap"
   ],
   "note": "parameters, infos and lookup of the loaded file are C39, C40 and C42"
  },
  {
   "property": "C44",
   "status": "proved",
   "theorems": [
    "Sudachi.C44_accepted",
    "Sudachi.C44_entry",
    "Sudachi.C44_refused"
   ],
   "note": ""
  },
  {
   "property": "C45",
   "status": "proved",
   "theorems": [
    "Sudachi.C45_decodes",
    "Sudachi.C45_distinct",
    "Sudachi.C45_refused",
    "Sudachi.C45_violated_overflow"
   ],
   "note": ""
  },
  {
   "property": "C46",
   "status": "proved",
   "theorems": [
    "Sudachi.C46_lookup",
    "Sudachi.C46_parameters",
    "Sudachi.C46_refused",
    "Sudachi.C46_info",
    "Sudachi.C46_compiled",
    "Sudachi.C46_no_dictionary",
    "Sudachi.C46_negative"
   ],
   "note": ""
  },
  {
   "property": "C48",
   "status": "proved",
   "theorems": [
    "Sudachi.C48_transparent",
    "Sudachi.C48_violated_negative"
   ],
   "note": "for ids that are not negative; -1, which is no word id but is answered, is not transparent, as proved"
  },
  {
   "property": "C49",
   "status": "partial",
   "theorems": [
    "Sudachi.C49_violated",
    "Sudachi.C49_single_partial",
    "Sudachi.C49_exact_partial",
    "Sudachi.C49_sound_partial"
   ],
   "note": "the claim is false of the code with several dictionaries; proved for a single one, and for several: what it answers exactly, and that an answer other than -1 is right"
  },
  {
   "property": "C47",
   "status": "proved",
   "theorems": [
    "Sudachi.C47_user",
    "Sudachi.C47_system"
   ],
   "note": ""
  },
  {
   "property": "C50",
   "status": "proved",
   "theorems": [
    "Sudachi.C50_others",
    "Sudachi.C50_automatic",
    "Sudachi.C50_raises"
   ],
   "note": ""
  },
  {
   "property": "C51",
   "status": "proved",
   "theorems": [
    "Sudachi.C51_ids",
    "Sudachi.C51_refused",
    "Sudachi.C51_provider_needed",
    "Sudachi.C51_accepted",
    "Sudachi.C51_cells_needed"
   ],
   "note": ""
  },
  {
   "property": "C52",
   "status": "proved",
   "theorems": [
    "Sudachi.C52_type",
    "Sudachi.C52_type_errors",
    "Sudachi.C52_warns",
    "Sudachi.C52_refused",
    "Sudachi.C52_configured",
    "Sudachi.C52_core",
    "Sudachi.C52_users",
    "Sudachi.C52_absolute",
    "Sudachi.C52_fresh",
    "Sudachi.C52_char_def",
    "Sudachi.C52_items",
    "Sudachi.C52_lazy",
    "Sudachi.C52_contains",
    "Sudachi.C52_unread",
    "Sudachi.C52_assigned",
    "Sudachi.C52_violated_user_text"
   ],
   "note": "a userDict that is a single string is taken apart letter by letter, as proved"
  },
  {
   "property": "C53",
   "status": "proved",
   "theorems": [
    "Sudachi.C53_blocks",
    "Sudachi.C53_interrupted",
    "Sudachi.C53_one_eos",
    "Sudachi.C53_eos_count",
    "Sudachi.C53_fields",
    "Sudachi.C53_text",
    "Sudachi.C53_mode",
    "Sudachi.C53_violated_tab",
    "Sudachi.C53_exactly"
   ],
   "note": "one block per line, in order, also when a line raises; fields can be told apart unless the text has a tab, as proved"
  },
  {
   "property": "C55",
   "status": "proved",
   "theorems": [
    "Sudachi.C55_violated",
    "Sudachi.C55_violated_garbage",
    "Sudachi.C55_truncated",
    "Sudachi.C55_points"
   ],
   "note": "the claim is that the code violates detectability: proved for every build and every point from the last word parameter on; C55_points says for every point whether the file loads"
  },
  {
   "property": "C61",
   "status": "proved",
   "theorems": [
    "Sudachi.C61_mode_c",
    "Sudachi.C61_all_modes"
   ],
   "note": ""
  },
  {
   "property": "C62",
   "status": "proved",
   "theorems": [
    "Sudachi.C62_no_exception",
    "Sudachi.C62_succeeds"
   ],
   "note": ""
  },
  {
   "property": "C63",
   "status": "proved",
   "theorems": [
    "Sudachi.C63_morphemes",
    "Sudachi.C63_words"
   ],
   "note": ""
  },
  {
   "property": "C64",
   "status": "proved",
   "theorems": [
    "Sudachi.C64_optimal"
   ],
   "note": "compared with segmentations into dictionary words; with unknown words: C79"
  },
  {
   "property": "C65",
   "status": "proved",
   "theorems": [
    "Sudachi.C65_line_gives",
    "Sudachi.C65_line_nothing",
    "Sudachi.C65_line_refused",
    "Sudachi.C65_line_raises",
    "Sudachi.C65_raises",
    "Sudachi.C65_single_column_refused",
    "Sudachi.C65_accepted",
    "Sudachi.C65_categories",
    "Sudachi.C65_lines",
    "Sudachi.C65_text",
    "Sudachi.C65_round_trip",
    "Sudachi.C65_ignored_definitions",
    "Sudachi.C65_white_space",
    "Sudachi.C65_number_space",
    "Sudachi.C65_digits"
   ],
   "note": "C65_ignored_definitions: definitions that are indented or written with 0X are ignored silently"
  },
  {
   "property": "C66",
   "status": "proved",
   "theorems": [
    "Sudachi.C66_categories",
    "Sudachi.C66_entries",
    "Sudachi.C66_accepted",
    "Sudachi.C66_refused",
    "Sudachi.C66_unknown_pos_accepted",
    "Sudachi.C66_attribute_accepted",
    "Sudachi.C66_not_a_key",
    "Sudachi.C66_entry_not_a_key"
   ],
   "note": "C66_unknown_pos_accepted and C66_attribute_accepted are witnesses of definitions that should be refused and are not"
  },
  {
   "property": "C67",
   "status": "proved",
   "theorems": [
    "Sudachi.C67_normalises",
    "Sudachi.C67_accepted",
    "Sudachi.C67_refused"
   ],
   "note": ""
  },
  {
   "property": "C68",
   "status": "proved",
   "theorems": [
    "Sudachi.C68_input",
    "Sudachi.C68_oov",
    "Sudachi.C68_path",
    "Sudachi.C68_opens",
    "Sudachi.C68_users_added",
    "Sudachi.C68_needs_provider",
    "Sudachi.C68_input_refused",
    "Sudachi.C68_class_refused",
    "Sudachi.C68_key_refused",
    "Sudachi.C68_path_refused",
    "Sudachi.C68_empty_path_refused"
   ],
   "note": "wrongly typed numbers of plugin settings are taken to raise at once"
  },
  {
   "property": "C69",
   "status": "proved",
   "theorems": [
    "Sudachi.C69_opens",
    "Sudachi.C69_tokenizes",
    "Sudachi.C69_from_source",
    "Sudachi.C69_opens_users"
   ],
   "note": "the shipped files are embedded as text; the trie library, str.lower and NFKC are parameters with the stated assumptions"
  },
  {
   "property": "C70",
   "status": "proved",
   "theorems": [
    "Sudachi.C70_unescaped",
    "Sudachi.C70_accepted",
    "Sudachi.C70_plain",
    "Sudachi.C70_round_trip",
    "Sudachi.C70_long",
    "Sudachi.C70_short"
   ],
   "note": "C70_long and C70_short prove what the code does with other numbers of digits, which violates the intended reading; the statement is for four and five digits"
  },
  {
   "property": "C71",
   "status": "proved",
   "theorems": [
    "Sudachi.C71_builds_iff",
    "Sudachi.C71_rows",
    "Sudachi.C71_system",
    "Sudachi.C71_usable",
    "Sudachi.C71_room"
   ],
   "note": "the size bound counts what is before the word infos four times, because the builder leaves a gap there; that a system dictionary finds no word of a part of speech it lacks is proved of compiled ones (C71_system)"
  },
  {
   "property": "C72",
   "status": "proved",
   "theorems": [
    "Sudachi.C72_loads",
    "Sudachi.C72_installs",
    "Sudachi.C72_works",
    "Sudachi.C72_surface_needed"
   ],
   "note": "the surface condition on automatic costs is necessary (C72_surface_needed)"
  },
  {
   "property": "C73",
   "status": "proved",
   "theorems": [
    "Sudachi.C73_line_ends",
    "Sudachi.C73_round_trip",
    "Sudachi.C73_can_write",
    "Sudachi.C73_unique",
    "Sudachi.C73_blank_line",
    "Sudachi.C73_blank_refused",
    "Sudachi.C73_open_quote",
    "Sudachi.C73_too_long",
    "Sudachi.C73_carriage_return",
    "Sudachi.C73_broken"
   ],
   "note": "the csv module of CPython 3.11 is modelled from its state machine (default dialect); it is outside /repo, and the model was compared with it on random inputs"
  },
  {
   "property": "C74",
   "status": "proved",
   "theorems": [
    "Sudachi.C74_own_info",
    "Sudachi.C74_lines",
    "Sudachi.C74_prints",
    "Sudachi.C74_opened",
    "Sudachi.C74_has_pos",
    "Sudachi.C74_needs_pos",
    "Sudachi.C74_pos",
    "Sudachi.C74_raises"
   ],
   "note": "a dictionary without any part of speech cannot print unknown words (C74_needs_pos)"
  },
  {
   "property": "C75",
   "status": "proved",
   "theorems": [
    "Sudachi.C75_build",
    "Sudachi.C75_ubuild",
    "Sudachi.C75_build_refused",
    "Sudachi.C75_ubuild_refused",
    "Sudachi.C75_build_touches",
    "Sudachi.C75_ubuild_touches",
    "Sudachi.C75_build_overwrites",
    "Sudachi.C75_matrix_lost",
    "Sudachi.C75_build_makes",
    "Sudachi.C75_ubuild_makes",
    "Sudachi.C75_installed"
   ],
   "note": "arguments as parsed by argparse; writing over the system dictionary that ubuild has mapped into memory is not modelled; paths that name the same file are equal"
  },
  {
   "property": "C76",
   "status": "proved",
   "theorems": [
    "Sudachi.C76_version",
    "Sudachi.C76_refused",
    "Sudachi.C76_missing",
    "Sudachi.C76_dash",
    "Sudachi.C76_touches",
    "Sudachi.C76_done",
    "Sudachi.C76_writes",
    "Sudachi.C76_unreadable",
    "Sudachi.C76_interrupted",
    "Sudachi.C76_lossless",
    "Sudachi.C76_complete",
    "Sudachi.C76_own_input",
    "Sudachi.C76_shipped",
    "Sudachi.C76_no_cells"
   ],
   "note": "arguments as parsed by argparse; input files are read as they were when the output file had been opened; output devices do not fail; lines that cannot be encoded are dropped by the logging handler, as modelled"
  },
  {
   "property": "C77",
   "status": "proved",
   "theorems": [
    "Sudachi.C77_same_result",
    "Sudachi.C77_shows",
    "Sudachi.C77_lines",
    "Sudachi.C77_never_fails",
    "Sudachi.C77_prints",
    "Sudachi.C77_can_fail",
    "Sudachi.C77_exactly",
    "Sudachi.C77_loop",
    "Sudachi.C77_failed"
   ],
   "note": "the handlers of the logger are taken to write every line; the violation (a dump that fails where the analysis succeeds) is C77_can_fail"
  },
  {
   "property": "C78",
   "status": "proved",
   "theorems": [
    "Sudachi.C78_edit",
    "Sudachi.C78_raises",
    "Sudachi.C78_left_behind",
    "Sudachi.C78_no_list",
    "Sudachi.C78_system_unchanged",
    "Sudachi.C78_set",
    "Sudachi.C78_full",
    "Sudachi.C78_paths",
    "Sudachi.C78_best",
    "Sudachi.C78_system",
    "Sudachi.C78_set_up",
    "Sudachi.C78_unused",
    "Sudachi.Demo.C78_system_fails",
    "Sudachi.Demo.C78_documented"
   ],
   "note": "the plugin is never run by the package (C78_unused)"
  },
  {
   "property": "C79",
   "status": "proved",
   "theorems": [
    "Sudachi.Sources.C79_lattice",
    "Sudachi.Sources.C79_cheapest",
    "Sudachi.Sources.C79_succeeds_iff"
   ],
   "note": "connection ids of rows and entries within the matrix; C79_succeeds_iff for at most 7 user dictionaries (beyond, word ids overflow, C62)"
  },
  {
   "property": "C80",
   "status": "proved",
   "theorems": [
    "Sudachi.C80_success",
    "Sudachi.C80_same",
    "Sudachi.C80_history",
    "Sudachi.Sources.C80_installed",
    "Sudachi.C80_differs",
    "Sudachi.C80_masked"
   ],
   "note": "what Cython does with exceptions of cdef void functions is taken from its documentation; the printed traceback is not modelled"
  },
  {
   "property": "C81",
   "status": "proved",
   "theorems": [
    "Sudachi.C81_tokenize",
    "Sudachi.C81_default",
    "Sudachi.C81_build",
    "Sudachi.C81_ubuild",
    "Sudachi.C81_missing",
    "Sudachi.C81_split_files",
    "Sudachi.C81_nothing_runs",
    "Sudachi.C81_tokenize_known",
    "Sudachi.C81_files_known"
   ],
   "note": "argparse is modelled after the one of CPython 3.11; texts of usage, help and errors are not modelled"
  },
  {
   "property": "C82",
   "status": "proved",
   "theorems": [
    "Sudachi.C82_lists",
    "Sudachi.C82_empty",
    "Sudachi.C82_at_most",
    "Sudachi.C82_unbounded"
   ],
   "note": "lists are counted, not their bytes; C82_unbounded up to the length for which costs fit in 32 bits"
  },
  {
   "property": "C83",
   "status": "proved",
   "theorems": [
    "Sudachi.Sources.C83_block",
    "Sudachi.C83_command",
    "Sudachi.C83_shipped",
    "Sudachi.C83_session",
    "Sudachi.C83_users",
    "Sudachi.C83_user_session"
   ],
   "note": "for lines that the command can read (C74: encodable and of safe length); number words and joined Katakana words by the relational specs of C83; the normalised line is what C03's input text builder gives; C83_shipped and C83_session without user dictionaries, C83_users with any, C83_user_session with one"
  },
  {
   "property": "C84",
   "status": "proved",
   "theorems": [
    "Sudachi.C84_first",
    "Sudachi.Sources.C84_sources",
    "Sudachi.Sources.C84_determined"
   ],
   "note": "the order of a character's categories is the iteration order of a Python set (C85)"
  },
  {
   "property": "C85",
   "status": "partial",
   "theorems": [
    "Sudachi.C85_order_matters",
    "Sudachi.Sources.C85_both_succeed",
    "Sudachi.Sources.C85_same_cost_partial",
    "Sudachi.Sources.C85_one_category",
    "Sudachi.C85_one_category_load",
    "Sudachi.C85_one_category_tokenize"
   ],
   "note": "false of the code: C85_order_matters is a witness; the results are equal, in every mode and with any plugins and computed costs, if no character has two categories with entries of a provider; otherwise both runs succeed or fail alike and the costs are equal, for installations without costs to be computed, without path rewriting plugins, in mode C; missing: equal results when words of two categories of a character tie"
  },
  {
   "property": "C86",
   "status": "proved",
   "theorems": [
    "Sudachi.Closing.C86_viewed",
    "Sudachi.Closing.C86_safe",
    "Sudachi.Closing.C86_tokenizers",
    "Sudachi.Closing.C86_close",
    "Sudachi.Closing.C86_raises",
    "Sudachi.Closing.C86_once",
    "Sudachi.Closing.C86_remembered",
    "Sudachi.Closing.C86_forgotten",
    "Sudachi.Closing.C86_violated"
   ],
   "note": "C86_violated: a dictionary whose tokenizers and results are gone need not be closable"
  },
  {
   "property": "C87",
   "status": "proved",
   "theorems": [
    "Sudachi.Sources.C87_stuck",
    "Sudachi.Sources.C87_quiet",
    "Sudachi.Sources.C87_finished"
   ],
   "note": "C87_finished: success is proved without path rewriting plugins in mode C"
  },
  {
   "property": "C88",
   "status": "proved",
   "theorems": [
    "Sudachi.C88_input",
    "Sudachi.C88_oov",
    "Sudachi.C88_path",
    "Sudachi.C88_opening"
   ],
   "note": "settings whose unchecked values have the right types (Typed)"
  },
  {
   "property": "C89",
   "status": "proved",
   "theorems": [
    "Sudachi.C89_header",
    "Sudachi.C89_matrix",
    "Sudachi.C89_rows",
    "Sudachi.C89_rows_first",
    "Sudachi.C89_accepted",
    "Sudachi.C89_raises",
    "Sudachi.C89_system",
    "Sudachi.C89_left",
    "Sudachi.C89_garbage"
   ],
   "note": "C89_garbage: a build that fails at a word info leaves a file that loads without error and whose words all have the same info"
  },
  {
   "property": "C90",
   "status": "proved",
   "theorems": [
    "Sudachi.C90_pieces",
    "Sudachi.C90_broken",
    "Sudachi.C90_file",
    "Sudachi.C90_at_once"
   ],
   "note": "the pieces of 8192 bytes are those of CPython's TextIOWrapper over a BufferedReader of the default size; a file that is a terminal or pipe may come in other pieces, for which C90_pieces holds as well"
  },
  {
   "property": "C91",
   "status": "proved",
   "theorems": [
    "Sudachi.C91_build",
    "Sudachi.C91_ubuild",
    "Sudachi.C91_left"
   ],
   "note": "if the matrix cannot be decoded, for parts of speech without commas; the steps of the build of all rows are those of C89; the matrix is decoded whole"
  },
  {
   "property": "C92",
   "status": "proved",
   "theorems": [
    "Sudachi.C92_reads",
    "Sudachi.C92_raises",
    "Sudachi.C92_entry",
    "Sudachi.C92_entry_raises",
    "Sudachi.C92_word",
    "Sudachi.C92_word_raises",
    "Sudachi.C92_cycle"
   ],
   "note": "a file is a list of bytes (numbers below 256); the recursion limit is a parameter"
  },
  {
   "property": "C93",
   "status": "proved",
   "theorems": [
    "Sudachi.C93_reads",
    "Sudachi.C93_refused",
    "Sudachi.C93_deep",
    "Sudachi.C93_unambiguous",
    "Sudachi.C93_file",
    "Sudachi.C93_set_up",
    "Sudachi.C93_shipped_file",
    "Sudachi.C93_shipped"
   ],
   "note": "how deep lists and objects may be nested before RecursionError is a parameter; files that are no object are in C94; no limit on the digits of an integer"
  },
  {
   "property": "C94",
   "status": "proved",
   "theorems": [
    "Sudachi.C94_set_up",
    "Sudachi.C94_after",
    "Sudachi.C94_object",
    "Sudachi.C94_uses",
    "Sudachi.C94_again"
   ],
   "note": "how deep lists and objects may be nested before RecursionError is a parameter"
  },
  {
   "property": "C95",
   "status": "proved",
   "theorems": [
    "Sudachi.C95_accepted",
    "Sudachi.C95_one_meaning",
    "Sudachi.C95_runs",
    "Sudachi.C95_help",
    "Sudachi.C95_help_refused",
    "Sudachi.C95_help_default",
    "Sudachi.C95_help_first",
    "Sudachi.C95_exit",
    "Sudachi.C95_exit_refused"
   ],
   "note": "argparse is modelled after the one of CPython 3.11"
  },
  {
   "property": "C96",
   "status": "proved",
   "theorems": [
    "Sudachi.C96_open",
    "Sudachi.C96_typed",
    "Sudachi.C96_tokenize",
    "Sudachi.C96_answer",
    "Sudachi.C96_raises",
    "Sudachi.C96_settings",
    "Sudachi.C96_unasked",
    "Sudachi.C96_symbol",
    "Sudachi.C96_length"
   ],
   "note": "what a float does in a C int and in a comparison is a parameter (Floats)"
  },
  {
   "property": "C97",
   "status": "proved",
   "theorems": [
    "Sudachi.C97_longest",
    "Sudachi.C97_upper_bound",
    "Sudachi.C97_agree",
    "Sudachi.C97_one_of_three",
    "Sudachi.C97_match"
   ],
   "note": "containing_length and contains disagree about the upper bound: C97_upper_bound proves the negation, C97_agree what holds"
  },
  {
   "property": "C98",
   "status": "proved",
   "theorems": [
    "Sudachi.C98_get",
    "Sudachi.C98_get_raises",
    "Sudachi.C98_lookup",
    "Sudachi.C98_lookup_raises",
    "Sudachi.C98_items",
    "Sudachi.C98_items_set",
    "Sudachi.C98_items_differ"
   ],
   "note": "the trie search is a parameter (Darts)"
  }
 ]
}