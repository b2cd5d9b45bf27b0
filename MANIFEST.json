{
 "claims": [
  {
   "property": "C01",
   "status": "proved",
   "theorems": [
    "Btrd.C01_strip_comments",
    "Btrd.C01_determined",
    "Btrd.C01_no_newline"
   ],
   "note": "Every text, every line terminator; unique line decomposition."
  },
  {
   "property": "C02",
   "status": "partial",
   "theorems": [
    "Btrd.C02_exact",
    "Btrd.C02_negation",
    "Btrd.C02_negation_newline",
    "Btrd.C02_literal_kept_partial"
   ],
   "note": "False of the code: an escaped quote before '#' (and a line break inside a literal) is altered; negations proved with witnesses. Proved for every literal without escaped quotes and line breaks; and C02_exact says for every literal at every place whether it survives: if and only if its body has no line break and every '#' in it comes after an even number of quotes."
  },
  {
   "property": "C03",
   "status": "proved",
   "theorems": [
    "Btrd.C03_fixup"
   ],
   "note": "Every entry; continuation removal characterised by splitting at every backslash-newline."
  },
  {
   "property": "C04",
   "status": "partial",
   "theorems": [
    "Btrd.C04_exact",
    "Btrd.C04_negation",
    "Btrd.C04_negation_witness",
    "Btrd.C04_asks_for_more_partial",
    "Btrd.C04_fixup_removes_partial"
   ],
   "note": "False of the code: stripping comments first replaces the newline, so the continuation backslash always survives (proved for every two-line entry). The removal step alone is right. C04_exact: the joined lines are read like the unjoined ones if and only if every continued line has a comment before its backslash."
  },
  {
   "property": "C05",
   "status": "proved",
   "theorems": [
    "Btrd.C05_round_trip",
    "Btrd.C05_unambiguous"
   ],
   "note": "every tree that respects the ladder (Spec/Grammar) is read back exactly, and no two such trees share a text"
  },
  {
   "property": "C06",
   "status": "proved",
   "theorems": [
    "Btrd.C06_any_free",
    "Btrd.C06_any_spelling",
    "Btrd.C06_round_trip",
    "Btrd.C06_print_parse",
    "Btrd.C06_unambiguous"
   ],
   "note": "every program in every way it can be written (optional else, extra semicolons, compound assignment, any spacing) is read back exactly; statements that begin with a word such as breakfast are excluded, see C11"
  },
  {
   "property": "C07",
   "status": "proved",
   "theorems": [
    "Btrd.C07_whitespace",
    "Btrd.C07_same_tokens"
   ],
   "note": "any blanks at any token boundary, in expressions and in whole programs; at least one blank between two words"
  },
  {
   "property": "C08",
   "status": "proved",
   "theorems": [
    "Btrd.C08_literal",
    "Btrd.C08_negative",
    "Btrd.C08_numerals"
   ],
   "note": "value if below 2^127, otherwise the program is rejected"
  },
  {
   "property": "C09",
   "status": "proved",
   "theorems": [
    "Btrd.C09_exact",
    "Btrd.C09_body_unique",
    "Btrd.C09_spelled",
    "Btrd.C09_quoted",
    "Btrd.C09_injective"
   ],
   "note": "every text in every spelling: raw characters, escapes, \\u units and surrogate pairs"
  },
  {
   "property": "C10",
   "status": "proved",
   "theorems": [
    "Btrd.C10_repeated_rules_consume",
    "Btrd.C10_no_endless_loop",
    "Btrd.C10_repetition",
    "Btrd.C10_expression_rule",
    "Btrd.C10_program_rule",
    "Btrd.C10_consumed"
   ],
   "note": "every repeated rule consumes; the model's bounds are irrelevant: its repetition is pom's unbounded loop and its recursive rules are the unique solution of the grammar's equations"
  },
  {
   "property": "C11",
   "status": "partial",
   "theorems": [
    "Btrd.C11_exact_reference",
    "Btrd.C11_exact_assign",
    "Btrd.C11_exact_loop",
    "Btrd.C11_exact_field",
    "Btrd.C11_false_assign",
    "Btrd.C11_false_reference",
    "Btrd.C11_misread_print",
    "Btrd.C11_misread_cast",
    "Btrd.C11_assign_partial",
    "Btrd.C11_reference_partial"
   ],
   "note": "false as stated: identifiers that begin with true, false, print, help, quit, break or continue are rejected or misread (C11_false_assign, C11_false_reference, C11_misread_*); proved for all other identifiers, and exactly: C11_exact_reference and C11_exact_assign say which identifiers can be read and assigned to, C11_exact_loop and C11_exact_field that every identifier can be a loop variable and a field name."
  },
  {
   "property": "C12",
   "status": "proved",
   "theorems": [
    "Btrd.C12_plus",
    "Btrd.C12_minus",
    "Btrd.C12_runs_alike"
   ],
   "note": "l += e is read as l = l + (e) and runs alike in every session"
  },
  {
   "property": "C13",
   "status": "proved",
   "theorems": [
    "Btrd.C13_stack_of_maps",
    "Btrd.C13_total"
   ],
   "note": "Any sequence of pushes, pops and assignments against a per-variable stack of optional bindings; totality too."
  },
  {
   "property": "C14",
   "status": "proved",
   "theorems": [
    "Btrd.C14_blocks_do_not_leak",
    "Btrd.C14_readable_iff"
   ],
   "note": "Every statement, state and outcome, including failures and quit."
  },
  {
   "property": "C15",
   "status": "proved",
   "theorems": [
    "Btrd.C15_balanced",
    "Btrd.C15_session"
   ],
   "note": "Every program and every session."
  },
  {
   "property": "C16",
   "status": "proved",
   "theorems": [
    "Btrd.C16_no_leaked_jump",
    "Btrd.C16_session"
   ],
   "note": "Every accepted program from any state, and every line of every session."
  },
  {
   "property": "C17",
   "status": "proved",
   "theorems": [
    "Btrd.C17_release_no_panic",
    "Btrd.C17_cast_panic",
    "Btrd.C17_cast_ordinary_position"
   ],
   "note": "Release builds: no accepted program panics at all. Debug builds: an accepted cast panics only by the overflow check on position plus size (C58 covers that defect), never by a failed lookup."
  },
  {
   "property": "C18",
   "status": "proved",
   "theorems": [
    "Btrd.C18_accepts_iff",
    "Btrd.C18_state_survives",
    "Btrd.C18_accepted_gains",
    "Btrd.C18_session",
    "Btrd.C18_session_verdict",
    "Btrd.C18_accepted_stays"
   ],
   "note": "Accepted or rejected, any program; plus an exact characterisation of what is accepted, and that accepted lines stay accepted."
  },
  {
   "property": "C19",
   "status": "partial",
   "theorems": [
    "Btrd.C19_strict_partial",
    "Btrd.C19_accepted_partial",
    "Btrd.C19_agreement_partial",
    "Btrd.C19_script_partial",
    "Btrd.C19_false_self",
    "Btrd.C19_false_else",
    "Btrd.C19_false_for",
    "Btrd.C19_false_failed_line",
    "Btrd.C19_false_rejected_line",
    "Btrd.C19_blame_partial",
    "Btrd.C19_ways_partial",
    "Btrd.C19_exact_name",
    "Btrd.C19_script_ways_partial"
   ],
   "note": "False of the code: five ways to read an unassigned variable in accepted input are proved with witnesses, and proved to be all there are: whenever an accepted entry of a session fails with \"Unknown variable x\", it reads x in one of three lax places, or an earlier entry that assigns x was answered with an error. Also proved: definition-before-use programs never fail so; accepted input that avoids the three gaps never does when analyzer and evaluator agree, which holds while lines run to their end."
  },
  {
   "property": "C20",
   "status": "proved",
   "theorems": [
    "Btrd.C20_existing_is_known",
    "Btrd.C20_never_unknown"
   ],
   "note": "Every session, and acceptance of every later line that reads only existing variables."
  },
  {
   "property": "C21",
   "status": "proved",
   "theorems": [
    "Btrd.C21_parse_failure",
    "Btrd.C21_rejected",
    "Btrd.C21_session"
   ],
   "note": "Every line and state."
  },
  {
   "property": "C22",
   "status": "partial",
   "theorems": [
    "Btrd.C22_add",
    "Btrd.C22_sub",
    "Btrd.C22_mul",
    "Btrd.C22_div",
    "Btrd.C22_rem",
    "Btrd.C22_div_overflow_only_min",
    "Btrd.C22_neg_negation",
    "Btrd.C22_neg_negation_reachable",
    "Btrd.C22_neg_partial",
    "Btrd.C22_operand_errors",
    "Btrd.C22_exact"
   ],
   "note": "Binary operators proved exact-or-error for all operands. False of the code for unary minus of the least integer: panic in debug builds, wraps in release; negation proved with a reachable witness, C22_neg_partial covers every other operand. C22_exact: exact or an error for all operands of all operators, except unary minus of the least integer."
  },
  {
   "property": "C23",
   "status": "proved",
   "theorems": [
    "Btrd.C23_session_variables",
    "Btrd.C23_session_expressions",
    "Btrd.C23_preserved",
    "Btrd.C23_literals",
    "Btrd.C23_live_variables",
    "Btrd.C23_live_expressions"
   ],
   "note": "for every session: variables, expression results, literals read by the parser"
  },
  {
   "property": "C24",
   "status": "proved",
   "theorems": [
    "Btrd.C24_div_rem",
    "Btrd.C24_unique",
    "Btrd.C24_by_zero"
   ],
   "note": "Includes uniqueness of quotient and remainder."
  },
  {
   "property": "C25",
   "status": "proved",
   "theorems": [
    "Btrd.C25_bitwise",
    "Btrd.C25_not",
    "Btrd.C25_bits_determine"
   ],
   "note": "Bit i of the result for every i < 128; the bits determine the value."
  },
  {
   "property": "C26",
   "status": "partial",
   "theorems": [
    "Btrd.C26_amount_error",
    "Btrd.C26_amount",
    "Btrd.C26_shr",
    "Btrd.C26_shl_negation",
    "Btrd.C26_shl_partial",
    "Btrd.C26_exact"
   ],
   "note": "`>>` and amounts proved. False of the code for `<<`: bits shifted out are lost (1 << 127 is negative); negation proved, C26_shl_partial gives the exact result whenever it fits and the wrapped one otherwise. C26_exact: a left shift is exact or refused if and only if the amount is refused or the product fits."
  },
  {
   "property": "C27",
   "status": "proved",
   "theorems": [
    "Btrd.C27_and",
    "Btrd.C27_or",
    "Btrd.C27_not"
   ],
   "note": "Every expression."
  },
  {
   "property": "C28",
   "status": "proved",
   "theorems": [
    "Btrd.C28_equality",
    "Btrd.C28_errors"
   ],
   "note": "Structural induction over values of any depth."
  },
  {
   "property": "C29",
   "status": "proved",
   "theorems": [
    "Btrd.C29_ordering",
    "Btrd.C29_type_errors"
   ],
   "note": "All operators, type errors included."
  },
  {
   "property": "C30",
   "status": "proved",
   "theorems": [
    "Btrd.C30_parens"
   ],
   "note": "Any subexpression at any depth (Wrapped congruence)."
  },
  {
   "property": "C31",
   "status": "proved",
   "theorems": [
    "Btrd.C31_assignment",
    "Btrd.C31_failure_changes_nothing"
   ],
   "note": "Success and failure."
  },
  {
   "property": "C32",
   "status": "proved",
   "theorems": [
    "Btrd.C32_partial_assignment",
    "Btrd.C32_succeeds",
    "Btrd.C32_read_target"
   ],
   "note": "Any path of fields and indexes; read back, frame of components and variables, failure."
  },
  {
   "property": "C33",
   "status": "proved",
   "theorems": [
    "Btrd.C33_values_are_copied"
   ],
   "note": "Any later program that assigns only (parts of) x."
  },
  {
   "property": "C34",
   "status": "proved",
   "theorems": [
    "Btrd.C34_while",
    "Btrd.C34_rules_deterministic",
    "Btrd.C34_rules_complete",
    "Btrd.C34_loops_absorb_jumps",
    "Btrd.C34_jump_skips_rest"
   ],
   "note": "Big-step rules, deterministic and complete, against the model's loop."
  },
  {
   "property": "C35",
   "status": "proved",
   "theorems": [
    "Btrd.C35_for",
    "Btrd.C35_range_errors",
    "Btrd.C35_range_value",
    "Btrd.C35_snapshot"
   ],
   "note": "Rules over the list of elements; the snapshot theorem for the self-appending loop."
  },
  {
   "property": "C36",
   "status": "proved",
   "theorems": [
    "Btrd.C36_if",
    "Btrd.C36_branch_scope"
   ],
   "note": "All four outcomes of the condition."
  },
  {
   "property": "C37",
   "status": "proved",
   "theorems": [
    "Btrd.C37_nothing_after_quit",
    "Btrd.C37_quit_quits",
    "Btrd.C37_quit_in_if",
    "Btrd.C37_quit_in_while",
    "Btrd.C37_quit_in_for",
    "Btrd.C37_quit_ends_session"
   ],
   "note": "Sequence, if, while, for and whole sessions."
  },
  {
   "property": "C38",
   "status": "proved",
   "theorems": [
    "Btrd.C38_output_grows",
    "Btrd.C38_session_output_grows",
    "Btrd.C38_error_keeps_effects"
   ],
   "note": "Every program, state and session."
  },
  {
   "property": "C39",
   "status": "proved",
   "theorems": [
    "Btrd.C39_script_silent",
    "Btrd.C39_interactive_prints",
    "Btrd.C39_no_variable_changes"
   ],
   "note": "Both modes."
  },
  {
   "property": "C40",
   "status": "proved",
   "theorems": [
    "Btrd.C40_split",
    "Btrd.C40_split_stopped"
   ],
   "note": "Every split of a statement list."
  },
  {
   "property": "C41",
   "status": "proved",
   "theorems": [
    "Btrd.C41_string_text_total",
    "Btrd.C41_string_text_injective",
    "Btrd.C41_string_text_bytewise",
    "Btrd.C41_string_display",
    "Btrd.C41_print_string",
    "Btrd.C41_print_injective"
   ],
   "note": "for arbitrary byte strings, both escaping modes, up to the text written by print"
  },
  {
   "property": "C42",
   "status": "proved",
   "theorems": [
    "Btrd.C42_display_total",
    "Btrd.C42_display_layout",
    "Btrd.C42_display_ascii",
    "Btrd.C42_print_total",
    "Btrd.C42_session_ascii",
    "Btrd.C42_expression_ascii"
   ],
   "note": "totality for all values; exact layout and ASCII-only output for every value of every session"
  },
  {
   "property": "C43",
   "status": "partial",
   "theorems": [
    "Btrd.C43_exact",
    "Btrd.C43_buckets",
    "Btrd.C43_all_counted_partial",
    "Btrd.C43_maximum_not_counted",
    "Btrd.C43_print_histogram",
    "Btrd.C43_print_empty",
    "Btrd.C43_every_value_shown_false"
   ],
   "note": "false of the code: a maximum that is a power of two (or 0, or a negative power) is not counted; proved exactly which values are counted, that all are when the maximum is no boundary, and the printed lines C43_exact: all values are counted if and only if the largest is no boundary."
  },
  {
   "property": "C44",
   "status": "partial",
   "theorems": [
    "Btrd.C44_exact",
    "Btrd.C44_round_down_partial",
    "Btrd.C44_round_up_partial",
    "Btrd.C44_rounding_exact",
    "Btrd.C44_rounding_diverges"
   ],
   "note": "false of the code: rounding does not terminate from 2^126 on; proved exact and terminating for all 128-bit integers below 2^126, and exact whenever it returns C44_exact: rounding ends if and only if the value is below 2^126."
  },
  {
   "property": "C45",
   "status": "proved",
   "theorems": [
    "Btrd.C45_bar_width",
    "Btrd.C45_labels_never_panic",
    "Btrd.C45_debug_min_panics",
    "Btrd.C45_labels"
   ],
   "note": "bars at most 50 wide; no panic for any list of 128-bit integers (builds with overflow checks: values at least -2^126)"
  },
  {
   "property": "C46",
   "status": "proved",
   "theorems": [
    "Btrd.C46_append",
    "Btrd.C46_len",
    "Btrd.C46_len_iff",
    "Btrd.C46_index_iff",
    "Btrd.C46_index_needs_array",
    "Btrd.C46_append_observed"
   ],
   "note": "Arrays shorter than the 64-bit address space; append, len, indexing characterised by iff at the level of expressions."
  },
  {
   "property": "C47",
   "status": "proved",
   "theorems": [
    "Btrd.C47_key_fields",
    "Btrd.C47_key_iff"
   ],
   "note": "Any callee expression whose value is key, any arguments."
  },
  {
   "property": "C48",
   "status": "proved",
   "theorems": [
    "Btrd.C48_keyof",
    "Btrd.C48_keyof_iff",
    "Btrd.C48_no_key",
    "Btrd.C48_keyof_search_results",
    "Btrd.C48_copies_keep_keys"
   ],
   "note": "Every successful search, any later state and expression that yields the value; structs without key are an error; copies keep keys."
  },
  {
   "property": "C49",
   "status": "proved",
   "theorems": [
    "Btrd.C49_search_asks_for_its_arguments",
    "Btrd.C49_out_of_range",
    "Btrd.C49_in_range",
    "Btrd.C49_argument_kinds"
   ],
   "note": "All argument values: success implies the kernel saw exactly these numbers, out of range is an error, in range asks the kernel."
  },
  {
   "property": "C50",
   "status": "proved",
   "theorems": [
    "Btrd.C50_decoding_returns",
    "Btrd.C50_search_items_return"
   ],
   "note": ""
  },
  {
   "property": "C51",
   "status": "proved",
   "theorems": [
    "Btrd.C51_fixed_size_iff",
    "Btrd.C51_too_short",
    "Btrd.C51_extra_bytes_ignored",
    "Btrd.C51_table"
   ],
   "note": ""
  },
  {
   "property": "C52",
   "status": "proved",
   "theorems": [
    "Btrd.C52_fixed_layout",
    "Btrd.C52_field_offset",
    "Btrd.C52_layout_iff"
   ],
   "note": ""
  },
  {
   "property": "C53",
   "status": "proved",
   "theorems": [
    "Btrd.C53_lossless",
    "Btrd.C53_lossless_trailing",
    "Btrd.C53_injective",
    "Btrd.C53_extent_item_injective",
    "Btrd.C53_file_extent_item_injective"
   ],
   "note": "encodeFields gives the bytes back for every fixed-size struct (unions included) and every struct with trailing parts; for the two dynamic structs injectivity is proved instead of an encoder."
  },
  {
   "property": "C54",
   "status": "proved",
   "theorems": [
    "Btrd.C54_trailing_string",
    "Btrd.C54_trailing_array",
    "Btrd.C54_inode_ref"
   ],
   "note": ""
  },
  {
   "property": "C55",
   "status": "proved",
   "theorems": [
    "Btrd.C55_extent_item_iff",
    "Btrd.C55_scan_terminates"
   ],
   "note": ""
  },
  {
   "property": "C56",
   "status": "partial",
   "theorems": [
    "Btrd.C56_accessible_partial",
    "Btrd.C56_field_access",
    "Btrd.C56_second_inline_ref_inaccessible",
    "Btrd.C56_extent_item_partial",
    "Btrd.C56_exact"
   ],
   "note": "Holds for every struct of the table but btrfs_extent_item (C56_accessible_partial). False for extent items with several inline references: the second one is not reachable by name (C56_second_inline_ref_inaccessible); what holds there is C56_extent_item_partial. C56_exact: every field is reachable if and only if the struct is no extent item or its inline references are all the same."
  },
  {
   "property": "C57",
   "status": "partial",
   "theorems": [
    "Btrd.C57_dispatch_partial",
    "Btrd.C57_dir_log_item_unknown",
    "Btrd.C57_balance_item_unknown",
    "Btrd.C57_search_values",
    "Btrd.C57_exact"
   ],
   "note": "Holds for every key except DIR_LOG_ITEM keys (type 60, matched by no struct) and balance items (objectid 4 in the table, -4 on disk): C57_dir_log_item_unknown, C57_balance_item_unknown are the counterexamples. C57_exact: the dispatch is the documented one if and only if the item is no directory log item and its key is neither the balance key nor the one mistaken for it."
  },
  {
   "property": "C58",
   "status": "partial",
   "theorems": [
    "Btrd.C58_cast_reads_position_partial",
    "Btrd.C58_negative_position",
    "Btrd.C58_beyond_end_partial",
    "Btrd.C58_no_image",
    "Btrd.C58_position_wraps",
    "Btrd.C58_last_positions_panic",
    "Btrd.C58_exact"
   ],
   "note": "Holds for positions below 2^64. False above: positions are taken modulo 2^64 (C58_position_wraps), and the last positions below 2^64 panic in a debug build (C58_last_positions_panic). C58_exact: in a release build a cast does what its position says if and only if the position is below 2^64 or reading at the position modulo 2^64 gives no value."
  },
  {
   "property": "C59",
   "status": "partial",
   "theorems": [
    "Btrd.C59_trailing_always_empty",
    "Btrd.C59_cast_of_name_fails",
    "Btrd.C59_cast_partial",
    "Btrd.C59_exact"
   ],
   "note": "False: a cast passes only the fixed part of the struct, so trailing strings are never decoded (C59_trailing_always_empty, C59_cast_of_name_fails). C59_cast_partial is what holds. C59_exact: for all structs but the two extent items, the cast gives the struct if it ends within its fixed part and fails otherwise."
  },
  {
   "property": "C60",
   "status": "partial",
   "theorems": [
    "Btrd.C60_bounded_all_or_error",
    "Btrd.C60_exact",
    "Btrd.C60_bounded_complete_partial",
    "Btrd.C60_unbounded_partial",
    "Btrd.C60_search_expression_partial",
    "Btrd.C60_negation_largest_offset",
    "Btrd.C60_negation_unbounded"
   ],
   "note": "False of the code: a request without upper bound (what key() makes) is never continued, and a bounded search fails if the last item has the largest offset; both negations proved. Proved complete, sound, ordered and terminating for bounded requests without largest-offset items, for every honest kernel and every split. Exactly: C60_exact says a bounded search is complete on every honest kernel if and only if no item asked for has the largest offset; C60_bounded_all_or_error that it never gives less in silence."
  },
  {
   "property": "C61",
   "status": "proved",
   "theorems": [
    "Btrd.C61_no_duplicates",
    "Btrd.C61_duplicates_are_an_error",
    "Btrd.C61_unmounted"
   ],
   "note": "Arbitrary kernel replies; duplicates are reported as errors, not dropped."
  },
  {
   "property": "C62",
   "status": "proved",
   "theorems": [
    "Btrd.C62_search_reads_the_buffers",
    "Btrd.C62_short_buffer",
    "Btrd.C62_determined",
    "Btrd.C62_payload_length"
   ],
   "note": "Arbitrary kernel replies; results are exactly the items the buffers hold."
  },
  {
   "property": "C63",
   "status": "proved",
   "theorems": [
    "Btrd.C63_directory_iff",
    "Btrd.C63_image_iff",
    "Btrd.C63_others",
    "Btrd.C63_start",
    "Btrd.C63_start_none"
   ],
   "note": "Every host, path and image."
  },
  {
   "property": "C64",
   "status": "proved",
   "theorems": [
    "Btrd.C64_failed_filesystem",
    "Btrd.C64_successful_filesystem"
   ],
   "note": "Every state and expression; success changes only the selected filesystem."
  },
  {
   "property": "C65",
   "status": "proved",
   "theorems": [
    "Btrd.C65_append",
    "Btrd.C65_errors_keep_running",
    "Btrd.C65_exits_iff",
    "Btrd.C65_end_of_input",
    "Btrd.C65_other_events",
    "Btrd.C65_release_never_dies"
   ],
   "note": "Every event sequence. Read errors other than interrupt and end of file do not end the loop (C65_other_events)."
  },
  {
   "property": "C66",
   "status": "proved",
   "theorems": [
    "Btrd.C66_success_iff",
    "Btrd.C66_failure_iff"
   ],
   "note": "Every script: success iff it parses, is accepted, and evaluation ends or quits."
  },
  {
   "property": "C67",
   "status": "proved",
   "theorems": [
    "Btrd.C67_more_steps",
    "Btrd.C67_one_outcome",
    "Btrd.C67_expression",
    "Btrd.C67_session",
    "Btrd.C67_script"
   ],
   "note": "Expressions, programs, scripts and sessions: once a run finishes within a loop bound, every larger bound gives the same effects and result."
  },
  {
   "property": "C68",
   "status": "partial",
   "theorems": [
    "Btrd.C68_constants_partial",
    "Btrd.C68_functions",
    "Btrd.C68_functions_complete",
    "Btrd.C68_negation_balance",
    "Btrd.C68_negation_full_backref",
    "Btrd.C68_exact"
   ],
   "note": "False of the code for two of 148 kernel constants (BTRFS_BALANCE_OBJECTID has the wrong value, BTRFS_BLOCK_FLAG_FULL_BACKREF the wrong name); proved for all others and all functions. C68_exact: a header constant is known with its value if and only if it is not one of the two named ones."
  },
  {
   "property": "C69",
   "status": "partial",
   "theorems": [
    "Btrd.C69_exact",
    "Btrd.C69_plain_path_partial",
    "Btrd.C69_negation",
    "Btrd.C69_negation_witness"
   ],
   "note": "False of the code: any path with a byte that printing escapes is looked up under its escaped spelling (proved for every such path). Proved for plain paths. Exactly: C69_exact says which paths are opened as written."
  },
  {
   "property": "C70",
   "status": "proved",
   "theorems": [
    "Btrd.C70_session_no_panic",
    "Btrd.C70_script_no_panic"
   ],
   "note": "Every session and script of a build without overflow checks."
  },
  {
   "property": "C71",
   "status": "proved",
   "theorems": [
    "Btrd.C71_session",
    "Btrd.C71_program",
    "Btrd.C71_expression",
    "Btrd.C71_debug_panics_are_overflow_checks"
   ],
   "note": "Every session, program and expression."
  },
  {
   "property": "C72",
   "status": "partial",
   "theorems": [
    "Btrd.C72_exact",
    "Btrd.C72_aligned_partial",
    "Btrd.C72_negation"
   ],
   "note": "False of the code: honest replies put headers at unaligned positions. Proved for payloads of multiples of eight bytes. Exactly: C72_exact says which replies have every header aligned."
  },
  {
   "property": "C73",
   "status": "proved",
   "theorems": [
    "Btrd.C73_accepted",
    "Btrd.C73_exact",
    "Btrd.C73_exact_plain",
    "Btrd.C73_unambiguous",
    "Btrd.C73_rejected",
    "Btrd.C73_tight"
   ],
   "note": "Exact for all texts and all programs (C73_exact): a text is read as a program if and only if it is its tokens with any blanks or none around them, a blank being needed only after the variable of a for, and no statement that begins with an expression is one that print, help, quit, break or continue claims (Free, in Spec/Accept); all other texts are rejected (C73_rejected); so keywords may be glued to what follows (C73_tight) and no text has two readings (C73_unambiguous); the spellings of literals are characterised exactly (C09_exact)"
  },
  {
   "property": "C74",
   "status": "proved",
   "theorems": [
    "Btrd.C74_reprint",
    "Btrd.C74_expressions",
    "Btrd.C74_reprint_any",
    "Btrd.C74_writable_iff"
   ],
   "note": "For every accepted program, without condition (C74_reprint_any); a program is in the language exactly if it has such a text (C74_writable_iff); C74_expressions says which expression trees print can be given"
  },
  {
   "property": "C75",
   "status": "proved",
   "theorems": [
    "Btrd.C75_example_prints_three",
    "Btrd.C75_example_search_fails",
    "Btrd.C75_example_no_filesystem",
    "Btrd.C75_example_on_a_filesystem"
   ],
   "note": "The exact text of scripts/example.btrd is parsed, analyzed and run inside the model (parsing by kernel reduction); the three outcomes are proved for every kernel and, with an honest kernel, in terms of the tree's items. Because key() leaves the search unbounded, what is read is the kernel's first reply (see C60)."
  },
  {
   "property": "C76",
   "status": "proved",
   "theorems": [
    "Btrd.C76_report",
    "Btrd.C76_no_filesystem"
   ],
   "note": "The exact text of scripts/block_group_dist.btrd; the report is specified from the extent tree's bytes alone (Spec/Scripts). Gaps are those in front of an extent: the script does not count free space after the last extent of a group, and the specification says so."
  },
  {
   "property": "C77",
   "status": "proved",
   "theorems": [
    "Btrd.C77_typeof",
    "Btrd.C77_typeof_iff",
    "Btrd.C77_same_type",
    "Btrd.C77_type_test",
    "Btrd.C77_str_of_string",
    "Btrd.C77_str_of_other",
    "Btrd.C77_str_iff",
    "Btrd.C77_str_idempotent",
    "Btrd.C77_str_of_integers",
    "Btrd.C77_print_str",
    "Btrd.C77_print_str_of_number"
   ],
   "note": "Found by mutation testing (b46, b49 survived before)."
  },
  {
   "property": "C78",
   "status": "proved",
   "theorems": [
    "Btrd.C78_expression",
    "Btrd.C78_expression_bound",
    "Btrd.C78_program",
    "Btrd.C78_program_rules",
    "Btrd.C78_program_ends",
    "Btrd.C78_deterministic",
    "Btrd.C78_expression_deterministic",
    "Btrd.C78_shows",
    "Btrd.C78_script"
   ],
   "note": "Big-step rules in Spec/Rules; search results, casts, opening filesystems, diagrams and value texts are relations of a World, which other properties describe."
  },
  {
   "property": "C79",
   "status": "proved",
   "theorems": [
    "Btrd.C79_expression",
    "Btrd.C79_program",
    "Btrd.C79_ends",
    "Btrd.C79_search",
    "Btrd.C79_honest_search",
    "Btrd.C79_diagram",
    "Btrd.C79_honest_program",
    "Btrd.C79_no_while",
    "Btrd.C79_line",
    "Btrd.C79_script",
    "Btrd.C79_script_ends"
   ],
   "note": "Exact: a program exceeds every step bound iff by the rules it reaches a statement that never ends (an endless while loop, a search a dishonest kernel answers for ever, a histogram with a value above 2^125); otherwise its result is fixed from some bound on. For honest kernels only the loop and the histogram remain, for programs, REPL lines and scripts."
  },
  {
   "property": "C80",
   "status": "proved",
   "theorems": [
    "Btrd.C80_delete_comment",
    "Btrd.C80_delete_last_comment",
    "Btrd.C80_script_source",
    "Btrd.C80_script_same",
    "Btrd.C80_script_empty",
    "Btrd.C80_entry_source",
    "Btrd.C80_entry_same",
    "Btrd.C80_entry_empty"
   ],
   "note": "For sources whose string literals contain no '#' and no quote followed by one (see C02); layouts keep two word tokens apart."
  },
  {
   "property": "C81",
   "status": "proved",
   "theorems": [
    "Btrd.C81_learns",
    "Btrd.C81_session",
    "Btrd.C81_session_rules",
    "Btrd.C81_calculator"
   ],
   "note": "Learned names and results of every entry of a session, without step bound."
  },
  {
   "property": "C82",
   "status": "proved",
   "theorems": [
    "Btrd.C82_utf8",
    "Btrd.C82_unreadable",
    "Btrd.C82_readable",
    "Btrd.C82_exit_success",
    "Btrd.C82_refused",
    "Btrd.C82_script_no_panic",
    "Btrd.C82_session_output",
    "Btrd.C82_session_exit"
   ],
   "note": "main.rs as a process; command line parsing and logging are not modelled. The session theorems are for a world that does not change and a standard output that takes everything; C86 is for any."
  },
  {
   "property": "C83",
   "status": "proved",
   "theorems": [
    "Btrd.C83_accepted_or_refused",
    "Btrd.C83_entry",
    "Btrd.C83_refused",
    "Btrd.C83_fails",
    "Btrd.C83_refused_unique",
    "Btrd.C83_fails_unique",
    "Btrd.C83_expression",
    "Btrd.C83_expression_unique"
   ],
   "note": "The message about a text that is no program is that of C89. Texts made by the operating system are not modelled (message `none`)."
  },
  {
   "property": "C84",
   "status": "proved",
   "theorems": [
    "Btrd.C84_member",
    "Btrd.C84_all",
    "Btrd.C84_exact",
    "Btrd.C84_cast",
    "Btrd.C84_search",
    "Btrd.C84_name",
    "Btrd.C84_dir_item_data",
    "Btrd.C84_stripes",
    "Btrd.C84_file_extent"
   ],
   "note": "The header is transcribed by hand (Spec/Abi); the 32 unused bytes at the end of a balance item are not shown by the tool."
  },
  {
   "property": "C85",
   "status": "proved",
   "theorems": [
    "Btrd.C85_opens",
    "Btrd.C85_open_fails",
    "Btrd.C85_opens_or_fails",
    "Btrd.C85_read",
    "Btrd.C85_unreadable",
    "Btrd.C85_cast",
    "Btrd.C85_cast_fails",
    "Btrd.C85_search",
    "Btrd.C85_search_fails",
    "Btrd.C85_diagram",
    "Btrd.C85_expression",
    "Btrd.C85_complains",
    "Btrd.C85_session",
    "Btrd.C85_session_rules",
    "Btrd.C85_message",
    "Btrd.C85_message_rules",
    "Btrd.C85_script",
    "Btrd.C85_script_message"
   ],
   "note": "The rules of C78, C81 and C83 with nothing left open: `Spec/World` says what a path opens, how bytes are read as a struct, what casts, search() and histogram diagrams give and which messages they fail with; sessions and scripts of the model are exactly those of the rules in that world. OS error texts stay `none`; parse errors as in C89."
  },
  {
   "property": "C86",
   "status": "proved",
   "theorems": [
    "Btrd.C86_session",
    "Btrd.C86_settled",
    "Btrd.C86_no_editor",
    "Btrd.C86_script",
    "Btrd.C86_session_cut",
    "Btrd.C86_session_room",
    "Btrd.C86_script_cut",
    "Btrd.C86_no_panic",
    "Btrd.C86_checks",
    "Btrd.C86_script_checks"
   ],
   "note": "Model/Main against Spec/Streams, both directions, for release builds; builds with overflow checks do the same or panic. Finding: `println!` makes btrd panic when standard output cannot be written (the banner, and `quit` at end of input or after a read error), while a failing `print` is an ordinary error. The warnings about unknown items are added by C87. Not modelled: a closed standard error, --debug logging."
  },
  {
   "property": "C87",
   "status": "proved",
   "theorems": [
    "Btrd.C87_entry",
    "Btrd.C87_text",
    "Btrd.C87_warnings_unique",
    "Btrd.C87_nothing_lost",
    "Btrd.C87_known_silent",
    "Btrd.C87_no_search_silent",
    "Btrd.C87_search",
    "Btrd.C87_session",
    "Btrd.C87_script",
    "Btrd.C87_besides",
    "Btrd.C87_script_besides"
   ],
   "note": "Model/Live (evaluator asking the operating system one request at a time) against Spec/Live, for every live world; the log of a whole session or script is honest, warnings on standard error are those of the log, numbers of values and warnings add up to the number of items, and besides the warnings everything is as in C86 when the world is steady during each entry."
  },
  {
   "property": "C88",
   "status": "proved",
   "theorems": [
    "Btrd.C88_value",
    "Btrd.C88_complaint",
    "Btrd.C88_program",
    "Btrd.C88_unique",
    "Btrd.C88_no_panic",
    "Btrd.C88_session",
    "Btrd.C88_settled",
    "Btrd.C88_steady",
    "Btrd.C88_script",
    "Btrd.C88_script_steady"
   ],
   "note": "Model/Live against Spec/Moments and Spec/LiveSession in both directions, for every live world (hosts and filesystems that change between any two requests): values, messages, statements, sessions, scripts; deterministic; release builds never panic on an accepted program in any live world; in steady worlds the rules coincide with those of C86."
  },
  {
   "property": "C89",
   "status": "proved",
   "theorems": [
    "Btrd.C89_breaks_off",
    "Btrd.C89_either",
    "Btrd.C89_statement",
    "Btrd.C89_message"
   ],
   "note": "Exact (iff) position and text, given pom 3.2's `end()`. Finding: the position is the beginning of the first statement that cannot be read, however deep inside it the mistake is, and counts characters of the text without comments, so it is not a position in what the user typed when there are comments."
  },
  {
   "property": "C90",
   "status": "proved",
   "theorems": [
    "Btrd.C90_request_number",
    "Btrd.C90_request_number_iff",
    "Btrd.C90_request_memory",
    "Btrd.C90_buffer_fits",
    "Btrd.C90_requests_in_range",
    "Btrd.C90_search_complete",
    "Btrd.C90_search_first_reply",
    "Btrd.C90_only_request"
   ],
   "note": "Model/Ioctl (repr(C) layout, nix's ioctl_readwrite!, memory of the arguments) against Spec/Ioctl (numbers and offsets of the kernel's header). Finding: the number is right only because the buffer size, which the code puts into the struct and the kernel does not, is a multiple of 16384 (C90_request_number_iff). Little endian host."
  },
  {
   "property": "C91",
   "status": "proved",
   "theorems": [
    "Btrd.C91_search_same",
    "Btrd.C91_search_messages",
    "Btrd.C91_successful_search",
    "Btrd.C91_honest_search",
    "Btrd.C91_session_same",
    "Btrd.C91_script_same",
    "Btrd.C91_script_messages",
    "Btrd.C91_session_messages",
    "Btrd.C91_call_text",
    "Btrd.C91_text_determines",
    "Btrd.C91_one_line"
   ],
   "note": "Model/Debug over Model/Live, against Spec/Debug. The tables of Unicode used by escape_debug are a parameter. Not modelled: the time and level simplelog puts in front of each message."
  },
  {
   "property": "C92",
   "status": "proved",
   "theorems": [
    "Btrd.C92_entries",
    "Btrd.C92_one_way",
    "Btrd.C92_plain_lines",
    "Btrd.C92_ends_with_eof",
    "Btrd.C92_entry_in_input",
    "Btrd.C92_ends",
    "Btrd.C92_success",
    "Btrd.C92_script_differs",
    "Btrd.C92_broken_input"
   ],
   "note": "`Fed` says which entries a byte string holds; `feed` (readline_direct of rustyline 12 from its known source, with the validator of input.rs; the line editor at a terminal is not modelled) reads exactly that. Findings: exit status 0 although entries failed, continued lines at the end of the file are lost, an unreadable standard input (e.g. a directory) makes btrd print `quit` for ever."
  },
  {
   "property": "C93",
   "status": "proved",
   "theorems": [
    "Btrd.C93_pieces",
    "Btrd.C93_first_ends",
    "Btrd.C93_script_is_session",
    "Btrd.C93_failing_script",
    "Btrd.C93_bare_differs"
   ],
   "note": "`C93_pieces` in any live world; the comparison of script and session in a world that does not change, with unlimited output. `C93_bare_differs` shows that the restriction on bare expressions is needed."
  },
  {
   "property": "C94",
   "status": "proved",
   "theorems": [
    "Btrd.C94_entry",
    "Btrd.C94_mentioned",
    "Btrd.C94_session",
    "Btrd.C94_script",
    "Btrd.C94_builtin_differs"
   ],
   "note": "C94_entry: one entry, any two related states, any live world; C94_mentioned: only mentioned variables matter; C94_session and C94_script: the process from outside; C94_builtin_differs: the condition on built-in names is needed. Spec/Rename defines the renaming."
  },
  {
   "property": "C95",
   "status": "proved",
   "theorems": [
    "Btrd.C95_entry",
    "Btrd.C95_keeps",
    "Btrd.C95_first",
    "Btrd.C95_nothing",
    "Btrd.C95_last",
    "Btrd.C95_start",
    "Btrd.C95_session",
    "Btrd.C95_script"
   ],
   "note": "C95_entry: every entry, state, world and moment; C95_first/C95_nothing/C95_last/C95_keeps read off what InUse means; C95_start, C95_session, C95_script: from the start of the process."
  },
  {
   "property": "C96",
   "status": "proved",
   "theorems": [
    "Btrd.C96_open",
    "Btrd.C96_asked",
    "Btrd.C96_answered",
    "Btrd.C96_same_tree",
    "Btrd.C96_switch",
    "Btrd.C96_session",
    "Btrd.C96_script",
    "Btrd.C96_prefix",
    "Btrd.C96_pinned"
   ],
   "note": "C96_session, C96_script: the whole sequence of calls of a process; C96_open: Fs::new alone; C96_prefix: every point of it; C96_pinned: a mounted filesystem in use stays pinned; C96_switch: the order of opening and releasing; C96_asked, C96_answered, C96_same_tree: the search requests. Assumes that the operating system gives out free numbers (Fresh) and that a filesystem in use stays mounted, or an image as long as it was (SameKind)."
  },
  {
   "property": "C97",
   "status": "proved",
   "theorems": [
    "Btrd.C97_session",
    "Btrd.C97_script",
    "Btrd.C97_killed",
    "Btrd.C97_killed_script",
    "Btrd.C97_every_part",
    "Btrd.C97_script_causal",
    "Btrd.C97_session_goes_on",
    "Btrd.C97_taken",
    "Btrd.C97_session_causal",
    "Btrd.C97_session_longer",
    "Btrd.C97_session_checks",
    "Btrd.C97_script_longer",
    "Btrd.C97_script_checks",
    "Btrd.C97_in_order",
    "Btrd.C97_print"
   ],
   "note": "C97_session, C97_script: the acts of a process give its two streams, its answers and its exit; C97_killed, C97_killed_script, C97_every_part: killed at any moment; C97_script_causal, C97_session_causal, C97_session_goes_on: nothing depends on what comes later; C97_session_longer, C97_script_longer: endless runs; C97_session_checks, C97_script_checks: overflow checks; C97_in_order, C97_print: the order within a program."
  },
  {
   "property": "C98",
   "status": "proved",
   "theorems": [
    "Btrd.C98_session",
    "Btrd.C98_script",
    "Btrd.C98_one",
    "Btrd.C98_good",
    "Btrd.C98_session_part",
    "Btrd.C98_script_part",
    "Btrd.C98_session_needed",
    "Btrd.C98_script_success",
    "Btrd.C98_lines",
    "Btrd.C98_script_dead",
    "Btrd.C98_script_failure"
   ],
   "note": "C98_session and C98_script: the run with a failing standard error is what the relation Survives of Spec/Stderr makes of the run of C97; C98_one: it leaves no choice; C98_lines: a standard error that takes k lines gets the first k; C98_script_dead, C98_script_success, C98_script_failure: the exit status of scripts."
  },
  {
   "property": "C99",
   "status": "proved",
   "theorems": [
    "Btrd.C99_session",
    "Btrd.C99_value",
    "Btrd.C99_program",
    "Btrd.C99_same_fields",
    "Btrd.C99_access",
    "Btrd.C99_known",
    "Btrd.C99_assignment",
    "Btrd.C99_attained"
   ],
   "note": "C99_session, C99_value, C99_program: every struct of a session, at any depth, in a world that changes as it likes, has the fields of the kernel's header; C99_same_fields, C99_access: so `.f` succeeds exactly for the fields of the header; C99_assignment: assignments keep name, key, fields and lengths; C99_known; C99_attained: each of the forms occurs."
  },
  {
   "property": "C100",
   "status": "proved",
   "theorems": [
    "Btrd.C100_same",
    "Btrd.C100_cubic",
    "Btrd.C100_expression",
    "Btrd.C100_all_seen"
   ],
   "note": "C100_cubic: no text makes the parser look at characters more than a constant times the cube of its length; C100_expression: a constant times the square for one expression; C100_same: the counting parser reads what the parser of the model reads; C100_all_seen: an accepted text is looked at completely, so the count is not vacuous. Counted are looks at characters of the input by the combinators, not the cost of building the tree."
  },
  {
   "property": "C101",
   "status": "proved",
   "theorems": [
    "Btrd.C101_entry",
    "Btrd.C101_entry_serves",
    "Btrd.C101_usual",
    "Btrd.C101_script",
    "Btrd.C101_script_serves",
    "Btrd.C101_session",
    "Btrd.C101_paren",
    "Btrd.C101_ne",
    "Btrd.C101_compare",
    "Btrd.C101_assoc",
    "Btrd.C101_units",
    "Btrd.C101_literals",
    "Btrd.C101_de_morgan",
    "Btrd.C101_bits",
    "Btrd.C101_not_minus",
    "Btrd.C101_double",
    "Btrd.C101_not_plus_zero",
    "Btrd.C101_not_twice"
   ],
   "note": "C101_entry, C101_script, C101_session for the same meaning; C101_entry_serves, C101_script_serves for runs without an error. C101_usual says sessions only have the states quantified over. Not among the places: the name that is assigned to (parentheses there change the meaning), field names, types of casts and the path of filesystem."
  },
  {
   "property": "C102",
   "status": "proved",
   "theorems": [
    "Btrd.C102_once",
    "Btrd.C102_dialogue",
    "Btrd.C102_count",
    "Btrd.C102_two",
    "Btrd.C102_no_room",
    "Btrd.C102_overflow"
   ],
   "note": "All theorems are about the request list of Model/Handles and the replies of the kernel; C60 and C62 are about the result."
  },
  {
   "property": "C103",
   "status": "proved",
   "theorems": [
    "Btrd.C103_search",
    "Btrd.C103_steady",
    "Btrd.C103_fails",
    "Btrd.C103_one_moment",
    "Btrd.C103_no_snapshot",
    "Btrd.C103_expression"
   ],
   "note": "`trees i` is what the filesystem holds at the i-th call of the search. C79 was strengthened to the same kernels (HonestFs, HonestHost)."
  },
  {
   "property": "C104",
   "status": "proved",
   "theorems": [
    "Btrd.C104_entry",
    "Btrd.C104_entry_stands",
    "Btrd.C104_script",
    "Btrd.C104_script_stands",
    "Btrd.C104_session",
    "Btrd.C104_nested_if",
    "Btrd.C104_while_true",
    "Btrd.C104_if_true",
    "Btrd.C104_never",
    "Btrd.C104_unreachable",
    "Btrd.C104_self_assign",
    "Btrd.C104_inside",
    "Btrd.C104_no_else",
    "Btrd.C104_swap",
    "Btrd.C104_unroll",
    "Btrd.C104_not_swap",
    "Btrd.C104_not_flat",
    "Btrd.C104_not_self",
    "Btrd.C104_not_unroll"
   ],
   "note": "Companion of C101. `x = x` is accepted for an unknown x and makes it known, hence only at the end of a block."
  },
  {
   "property": "C105",
   "status": "proved",
   "theorems": [
    "Btrd.C105_same",
    "Btrd.C105_enough",
    "Btrd.C105_flat",
    "Btrd.C105_nested_read",
    "Btrd.C105_nested_needed",
    "Btrd.C105_loops_read",
    "Btrd.C105_loops_needed",
    "Btrd.C105_no_limit",
    "Btrd.C105_tree",
    "Btrd.C105_tree_brackets"
   ],
   "note": "Calls of the two recursive rules are counted, not bytes of stack; a text is measured by all the brackets in it, those in string literals included."
  },
  {
   "property": "C106",
   "status": "proved",
   "theorems": [
    "Btrd.C106_propagate",
    "Btrd.C106_overwritten",
    "Btrd.C106_not_assigned",
    "Btrd.C106_not_source",
    "Btrd.C106_not_itself",
    "Btrd.C106_not_overwritten"
   ],
   "note": "c has no calls and no casts, so computing it again asks nothing of the filesystem; places are places of expressions that are evaluated (not field names, types or loop variables)."
  },
  {
   "property": "C107",
   "status": "proved",
   "theorems": [
    "Btrd.C107_checks",
    "Btrd.C107_runs",
    "Btrd.C107_left",
    "Btrd.C107_later",
    "Btrd.C107_dead",
    "Btrd.C107_unused_literal",
    "Btrd.C107_unused",
    "Btrd.C107_session",
    "Btrd.C107_failing",
    "Btrd.C107_source",
    "Btrd.C107_quit"
   ],
   "note": "c has no calls and no casts; the loop variable of a `for` counts as mentioned."
  },
  {
   "property": "C108",
   "status": "proved",
   "theorems": [
    "Btrd.C108_endless",
    "Btrd.C108_untouched",
    "Btrd.C108_forever"
   ],
   "note": "A condition with a call may have different values in a changing world, so such loops are left out."
  }
 ]
}