{
 "claims": [
  {
   "property": "C01",
   "status": "partial",
   "theorems": [
    "BurnFm.Props.path_int_roundtrip_partial",
    "BurnFm.Props.path_int_roundtrip_fails",
    "BurnFm.Props.path_int_roundtrip_refuted"
   ],
   "note": "False of the code from 384 up: the first byte is masked away on reading."
  },
  {
   "property": "C02",
   "status": "proved",
   "theorems": [
    "BurnFm.Props.put_int_never_wrong",
    "BurnFm.Props.put_int_debug_ok_iff",
    "BurnFm.Props.put_int_release_ok_iff"
   ],
   "note": ""
  },
  {
   "property": "C03",
   "status": "proved",
   "theorems": [
    "BurnFm.Props.string_roundtrip",
    "BurnFm.Props.string_encrypt_injective",
    "BurnFm.Props.string_encrypt_ascii"
   ],
   "note": ""
  },
  {
   "property": "C04",
   "status": "proved",
   "theorems": [
    "BurnFm.Props.decrypt_exact",
    "BurnFm.Props.decrypt_exact_or_marker",
    "BurnFm.Props.decrypt_marker_iff"
   ],
   "note": ""
  },
  {
   "property": "C05",
   "status": "proved",
   "theorems": [
    "BurnFm.Props.encode_text_length",
    "BurnFm.Props.decode_encode_text",
    "BurnFm.Props.decode_encode_storable"
   ],
   "note": ""
  },
  {
   "property": "C06",
   "status": "proved",
   "theorems": [
    "BurnFm.Props.decode_bytes_ok_iff",
    "BurnFm.Props.decode_bytes_value",
    "BurnFm.Props.decode_bytes_panic",
    "BurnFm.Props.decode_char_unknown"
   ],
   "note": ""
  },
  {
   "property": "C07",
   "status": "partial",
   "theorems": [
    "BurnFm.Props.chunk_progress_partial",
    "BurnFm.Props.chunk_stuck_iff",
    "BurnFm.Props.chunk_progress_refuted"
   ],
   "note": "False of the code for opcode 0x0F followed by a byte other than 0x80; exact characterisation proved."
  },
  {
   "property": "C08",
   "status": "partial",
   "theorems": [
    "BurnFm.Props.chunk_data_slice_partial",
    "BurnFm.Props.chunk_key_slice_partial",
    "BurnFm.Props.chunk_key_overlap_refuted",
    "BurnFm.Props.chunk_data_span_refuted"
   ],
   "note": "False for opcodes 0x1F (key and data overlap) and 0x38 (data past the end); proved for all others."
  },
  {
   "property": "C09",
   "status": "proved",
   "theorems": [
    "BurnFm.Props.chunk_path",
    "BurnFm.Props.chunk_pushed",
    "BurnFm.Props.chunk_pushed_other"
   ],
   "note": ""
  },
  {
   "property": "C10",
   "status": "partial",
   "theorems": [
    "BurnFm.Props.chunk_local_partial",
    "BurnFm.Props.chunk_context_independent",
    "BurnFm.Props.chunk_local_refuted"
   ],
   "note": "The decoder reads past the end of the chunk for 0x1F, short 0x38 and stuck 0x0F; proved in all other cases, and context independence proved for all."
  },
  {
   "property": "C11",
   "status": "partial",
   "theorems": [
    "BurnFm.Props.kv_roundtrip_partial",
    "BurnFm.Props.kv_roundtrip_iff",
    "BurnFm.Props.kv_roundtrip_refuted"
   ],
   "note": "False at value lengths 0, 3, 5, 7, 9 and over 255; exact characterisation proved."
  },
  {
   "property": "C12",
   "status": "proved",
   "theorems": [
    "BurnFm.Props.long_kv_roundtrip",
    "BurnFm.Props.kv_e_roundtrip",
    "BurnFm.Props.data_roundtrip"
   ],
   "note": ""
  },
  {
   "property": "C13",
   "status": "proved",
   "theorems": [
    "BurnFm.Props.push_roundtrip",
    "BurnFm.Props.pop_roundtrip",
    "BurnFm.Props.push_roundtrip_fails"
   ],
   "note": ""
  },
  {
   "property": "C14",
   "status": "proved",
   "theorems": [
    "BurnFm.Props.records_roundtrip",
    "BurnFm.Props.records_roundtrip_in_context",
    "BurnFm.Props.decodes_deterministic"
   ],
   "note": ""
  },
  {
   "property": "C15",
   "status": "proved",
   "theorems": [
    "BurnFm.Props.assemble_layout",
    "BurnFm.Props.assemble_one_sector",
    "BurnFm.Props.assemble_name"
   ],
   "note": ""
  },
  {
   "property": "C16",
   "status": "partial",
   "theorems": [
    "BurnFm.Props.assembled_tables_partial",
    "BurnFm.Props.assembled_schema_lost",
    "BurnFm.Props.assembled_tables_reappear_refuted"
   ],
   "note": "False for every schema in range that has a table: the assembler writes tables in directories the decompiler ignores."
  },
  {
   "property": "C17",
   "status": "partial",
   "theorems": [
    "BurnFm.Props.decompile_terminates_partial",
    "BurnFm.Props.decompile_terminates_refuted",
    "BurnFm.Props.decompile_cycle_hangs",
    "BurnFm.Props.decompile_fuel_irrelevant",
    "BurnFm.Props.decompile_hangs_iff",
    "BurnFm.Props.decompile_trichotomy",
    "BurnFm.Props.finishes_links"
   ],
   "note": "False for files with a cyclic sector chain or a 0x0F opcode without 0x80; both hang. decompile_hangs_iff: exactly these files hang, unless reading them panics."
  },
  {
   "property": "C18",
   "status": "partial",
   "theorems": [
    "BurnFm.Props.instruction_map_sound_partial",
    "BurnFm.Props.instruction_map_complete_partial",
    "BurnFm.Props.instruction_code_injective",
    "BurnFm.Props.instruction_map_refuted"
   ],
   "note": "False for assert: table index 254, number 255."
  },
  {
   "property": "C19",
   "status": "proved",
   "theorems": [
    "BurnFm.Props.segments_in_order",
    "BurnFm.Props.segment_order_irrelevant"
   ],
   "note": ""
  },
  {
   "property": "C20",
   "status": "proved",
   "theorems": [
    "BurnFm.Props.calculation_items",
    "BurnFm.Props.calculation_compositional",
    "BurnFm.Props.calculation_string",
    "BurnFm.Props.calculation_truncated"
   ],
   "note": ""
  },
  {
   "property": "C21",
   "status": "partial",
   "theorems": [
    "BurnFm.Props.schema_file_recovered",
    "BurnFm.Props.schema_recovered_partial",
    "BurnFm.Props.schema_order_refuted",
    "BurnFm.Props.schema_number_refuted"
   ],
   "note": "Proved when tables precede fields and no table precedes the one numbered 128 lower; false otherwise. Files with other contents: proved if decompilation returns."
  },
  {
   "property": "C22",
   "status": "proved",
   "theorems": [
    "BurnFm.Props.neighbour_iff_declared",
    "BurnFm.Props.neighbour_symmetric",
    "BurnFm.Props.neighbours_nodup"
   ],
   "note": ""
  },
  {
   "property": "C23",
   "status": "proved",
   "theorems": [
    "BurnFm.Props.get_path_sound"
   ],
   "note": ""
  },
  {
   "property": "C24",
   "status": "proved",
   "theorems": [
    "BurnFm.Props.get_path_none_iff",
    "BurnFm.Props.get_path_some_iff",
    "BurnFm.Props.get_path_terminates"
   ],
   "note": ""
  },
  {
   "property": "C25",
   "status": "proved",
   "theorems": [
    "BurnFm.Props.get_path_shortest"
   ],
   "note": ""
  },
  {
   "property": "C26",
   "status": "proved",
   "theorems": [
    "BurnFm.Props.layout_lookup",
    "BurnFm.Props.layout_lookup_unknown",
    "BurnFm.Props.layout_order_irrelevant"
   ],
   "note": ""
  },
  {
   "property": "C27",
   "status": "proved",
   "theorems": [
    "BurnFm.Props.generated_tables",
    "BurnFm.Props.generated_no_other",
    "BurnFm.Props.generated_occurrences",
    "BurnFm.Props.generated_names",
    "BurnFm.Props.generated_relationships",
    "BurnFm.Props.generate_succeeds",
    "BurnFm.Props.generate_order_irrelevant"
   ],
   "note": "Occurrence ids below 65536: the code truncates them to u16."
  },
  {
   "property": "C28",
   "status": "proved",
   "theorems": [
    "BurnFm.Props.tables_rectangular",
    "BurnFm.Props.reachable_valid"
   ],
   "note": ""
  },
  {
   "property": "C29",
   "status": "proved",
   "theorems": [
    "BurnFm.Props.found_sets_valid",
    "BurnFm.Props.found_set_empty_only_without_records",
    "BurnFm.Props.cleanup_leaves_stale_found_sets"
   ],
   "note": "Holds for all histories of the listed operations; the last theorem shows that the cleanup after a test run breaks it."
  },
  {
   "property": "C30",
   "status": "proved",
   "theorems": [
    "BurnFm.Props.create_record_data",
    "BurnFm.Props.create_record_current"
   ],
   "note": ""
  },
  {
   "property": "C31",
   "status": "proved",
   "theorems": [
    "BurnFm.Props.write_succeeds",
    "BurnFm.Props.write_then_read",
    "BurnFm.Props.write_changes_one_cell",
    "BurnFm.Props.write_without_record"
   ],
   "note": ""
  },
  {
   "property": "C32",
   "status": "proved",
   "theorems": [
    "BurnFm.Props.goto_record_clamps",
    "BurnFm.Props.goto_next_clamps",
    "BurnFm.Props.goto_previous_clamps",
    "BurnFm.Props.goto_ends"
   ],
   "note": ""
  },
  {
   "property": "C33",
   "status": "proved",
   "theorems": [
    "BurnFm.Props.first_next_visits_all"
   ],
   "note": ""
  },
  {
   "property": "C34",
   "status": "proved",
   "theorems": [
    "BurnFm.Props.find_succeeds",
    "BurnFm.Props.find_exact",
    "BurnFm.Props.perform_find_step",
    "BurnFm.Props.set_field_collects"
   ],
   "note": "Names without colons."
  },
  {
   "property": "C35",
   "status": "partial",
   "theorems": [
    "BurnFm.Props.empty_navigation_partial",
    "BurnFm.Props.empty_navigation_panics",
    "BurnFm.Props.empty_navigation_refuted"
   ],
   "note": "False with overflow checks on: go-to-record, next and last panic whenever the found set is empty."
  },
  {
   "property": "C36",
   "status": "partial",
   "theorems": [
    "BurnFm.Props.related_read_exact",
    "BurnFm.Props.related_read_partial",
    "BurnFm.Props.related_read_strict_refuted",
    "BurnFm.Props.join_symmetric_refuted"
   ],
   "note": "False for strict comparisons and for inequalities read from the second occurrence. What the code returns is characterised exactly for all comparisons, both directions and several relationships."
  },
  {
   "property": "C37",
   "status": "partial",
   "theorems": [
    "BurnFm.Props.join_symmetric_partial",
    "BurnFm.Props.join_inequality_sides",
    "BurnFm.Props.join_symmetric_refuted"
   ],
   "note": "False for inequalities."
  },
  {
   "property": "C38",
   "status": "proved",
   "theorems": [
    "BurnFm.Props.calc_parses_grammar",
    "BurnFm.Props.render_spells",
    "BurnFm.Props.calc_round_trip",
    "BurnFm.Props.grammar_unambiguous"
   ],
   "note": "Call-free expressions, as stated."
  },
  {
   "property": "C39",
   "status": "partial",
   "theorems": [
    "BurnFm.Props.calc_parser_terminates_partial",
    "BurnFm.Props.calc_parser_diverges",
    "BurnFm.Props.calc_parser_hangs_iff",
    "BurnFm.Props.calc_parser_decided",
    "BurnFm.Props.calc_parser_fuel"
   ],
   "note": "False for token sequences whose last token is an opening parenthesis the parser comes to: it recurses without end. Exactly these hang, see calc_parser_hangs_iff; the others end within ten levels of recursion for every token, plus ten."
  },
  {
   "property": "C40",
   "status": "partial",
   "theorems": [
    "BurnFm.Props.call_one_argument_partial",
    "BurnFm.Props.call_loses_second_argument",
    "BurnFm.Props.call_takes_following_sum",
    "BurnFm.Props.call_loses_comparison",
    "BurnFm.Props.call_arguments_after_parenthesis",
    "BurnFm.Props.call_second_argument_operator"
   ],
   "note": "False for several arguments and for calls inside larger expressions. What the parser reads as a call with several arguments is f (a), b, c; in f(a, b op c) the operator is applied to f(a)."
  },
  {
   "property": "C41",
   "status": "partial",
   "theorems": [
    "BurnFm.Props.calc_lexes_words_partial",
    "BurnFm.Props.calc_text_evaluates",
    "BurnFm.Props.lex_trailing_comparison_panics",
    "BurnFm.Props.lex_drops_string",
    "BurnFm.Props.parse_dangling_comparison",
    "BurnFm.Props.empty_comparison_ignored",
    "BurnFm.Props.negative_number_panics",
    "BurnFm.Props.field_name_cut",
    "BurnFm.Props.field_name_cut_refuted"
   ],
   "note": "False for strings without letters or digits, signed numbers, texts that end in a comparison operator and names of fields with other characters than letters and digits."
  },
  {
   "property": "C42",
   "status": "proved",
   "theorems": [
    "BurnFm.Props.arithmetic_value",
    "BurnFm.Props.arithmetic_text_value",
    "BurnFm.Props.arithmetic_undefined"
   ],
   "note": "Floating point operations are those of the runtime class Rt."
  },
  {
   "property": "C43",
   "status": "partial",
   "theorems": [
    "BurnFm.Props.number_equality_partial",
    "BurnFm.Props.natural_comparison_partial",
    "BurnFm.Props.natural_comparison_exact",
    "BurnFm.Props.shorter_natural_less_iff",
    "BurnFm.Props.ten_less_than_nine",
    "BurnFm.Props.powers_less_than_nine"
   ],
   "note": "False: comparisons compare the texts. For natural numbers this is characterised exactly: they are compared like decimal fractions with these digits. Equality is identity of the floating point values, so 0 and -0 differ and NaN equals itself."
  },
  {
   "property": "C44",
   "status": "proved",
   "theorems": [
    "BurnFm.Props.concatenation_joins",
    "BurnFm.Props.concatenation_assoc"
   ],
   "note": ""
  },
  {
   "property": "C45",
   "status": "partial",
   "theorems": [
    "BurnFm.Props.variable_reads_back_partial",
    "BurnFm.Props.boolean_variable_reads_empty",
    "BurnFm.Props.self_named_variable_diverges",
    "BurnFm.Props.operand_exact",
    "BurnFm.Props.variable_exact",
    "BurnFm.Props.resolves_unique"
   ],
   "note": "What a variable evaluates to is characterised exactly, by chains of names. False for results that are neither numbers nor quoted texts, for example true and undefined."
  },
  {
   "property": "C46",
   "status": "partial",
   "theorems": [
    "BurnFm.Props.field_reads_current_partial",
    "BurnFm.Props.occurrence_name_ignored",
    "BurnFm.Props.field_reference_refuted",
    "BurnFm.Props.field_exact",
    "BurnFm.Props.currentValue_iff"
   ],
   "note": "What a field reference evaluates to is characterised exactly. False for occurrences other than the current one."
  },
  {
   "property": "C47",
   "status": "proved",
   "theorems": [
    "BurnFm.Props.test_fails_iff_assertion_fails",
    "BurnFm.Props.failed_assertion_ends_run",
    "BurnFm.Props.first_verdict"
   ],
   "note": "For runs that start without a failure; a failure of an earlier test persists, see C48."
  },
  {
   "property": "C48",
   "status": "partial",
   "theorems": [
    "BurnFm.Props.verdict_independent_partial",
    "BurnFm.Props.failed_test_fails_rest",
    "BurnFm.Props.verdict_refuted",
    "BurnFm.Props.verdict_variable_refuted"
   ],
   "note": "False: failures, variables and data of earlier tests persist. Proved for tests that follow passing tests whose steps do not change data, variables or mode. C130 has the part for tests that set variables."
  },
  {
   "property": "C49",
   "status": "partial",
   "theorems": [
    "BurnFm.Props.invocation_starts_empty_partial",
    "BurnFm.Props.invocation_sees_old_variables",
    "BurnFm.Props.test_sees_old_variables",
    "BurnFm.Props.invocation_refuted"
   ],
   "note": "False: the invocation at a depth uses the variable map of the first invocation at that depth. Proved for the first invocation at each depth."
  },
  {
   "property": "C50",
   "status": "partial",
   "theorems": [
    "BurnFm.Props.if_chain_partial",
    "BurnFm.Props.structured_test_partial",
    "BurnFm.Props.nested_if_refuted"
   ],
   "note": "False for nested chains that are not the last thing in the last branch. What the code does in any script is C149."
  },
  {
   "property": "C51",
   "status": "partial",
   "theorems": [
    "BurnFm.Props.loop_partial",
    "BurnFm.Props.structured_test_partial",
    "BurnFm.Props.nested_loop_refuted",
    "BurnFm.Props.exit_in_if_refuted"
   ],
   "note": "False for nested loops and for exits in a branch before another one if a chain with several branches follows the loop. What the code does in any script is C149."
  },
  {
   "property": "C52",
   "status": "partial",
   "theorems": [
    "BurnFm.Props.script_runs_as_written_partial",
    "BurnFm.Props.structured_test_partial",
    "BurnFm.Props.structured_verdict_partial",
    "BurnFm.Props.structured_verdicts_partial",
    "BurnFm.Props.source_verdict_partial",
    "BurnFm.Props.program_verdicts_partial",
    "BurnFm.Props.nested_if_refuted",
    "BurnFm.Props.nested_loop_refuted",
    "BurnFm.Props.exit_in_if_refuted",
    "BurnFm.Props.exit_flag_refuted"
   ],
   "note": "Proved as an equivalence for orderly scripts, with calls (also recursive), exits in branches, exit flags that are on, and chains nested as the last thing of the last branch; false outside, with a counterexample for each restriction. What the code does in any script is C149."
  },
  {
   "property": "C53",
   "status": "partial",
   "theorems": [
    "BurnFm.Props.missing_script_hangs",
    "BurnFm.Props.missing_script_refuted",
    "BurnFm.Props.missing_script_silent"
   ],
   "note": "False for every state: the run never ends, and prints nothing."
  },
  {
   "property": "C54",
   "status": "partial",
   "theorems": [
    "BurnFm.Props.exit_script_continues",
    "BurnFm.Props.exit_script_refuted"
   ],
   "note": "False for every state: exit_script has no effect."
  },
  {
   "property": "C55",
   "status": "proved",
   "theorems": [
    "BurnFm.Props.call_returns",
    "BurnFm.Props.frames_le_vars"
   ],
   "note": ""
  },
  {
   "property": "C56",
   "status": "proved",
   "theorems": [
    "BurnFm.Props.structured_scripts_compile",
    "BurnFm.Props.structured_tokens_parse"
   ],
   "note": ""
  },
  {
   "property": "C57",
   "status": "partial",
   "theorems": [
    "BurnFm.Props.arguments_as_written_partial",
    "BurnFm.Props.arguments_exact",
    "BurnFm.Props.argument_lists",
    "BurnFm.Props.quoted_comma_refuted",
    "BurnFm.Props.quoted_paren_swallows"
   ],
   "note": "What is read from an argument list is characterised exactly for balanced parentheses. Proved for arguments with balanced quotes whose strings contain no comma or parenthesis and that do not start with a space; false for commas and parentheses inside of strings."
  },
  {
   "property": "C58",
   "status": "partial",
   "theorems": [
    "BurnFm.Props.unknown_steps_lost",
    "BurnFm.Props.unknown_step_refuted",
    "BurnFm.Props.script_parser_never_reports",
    "BurnFm.Props.unknown_steps_named",
    "BurnFm.Props.unknown_steps_warned",
    "BurnFm.Props.program_unknown_steps_named"
   ],
   "note": "False for every script: unknown steps are dropped, and compilation ends with no error on any input. Their names are printed as warnings, all of them and in order."
  },
  {
   "property": "C59",
   "status": "proved",
   "theorems": [
    "BurnFm.Props.program_compiles",
    "BurnFm.Props.program_parses",
    "BurnFm.Props.standsFor_unique"
   ],
   "note": "From the text of the program."
  },
  {
   "property": "C60",
   "status": "partial",
   "theorems": [
    "BurnFm.Props.relationship_kept_partial",
    "BurnFm.Props.relationship_numbers",
    "BurnFm.Props.relationship_lost",
    "BurnFm.Props.two_relationships_refuted"
   ],
   "note": "False for two relationships without a table between them; which relationships are kept is characterised exactly."
  },
  {
   "property": "C61",
   "status": "partial",
   "theorems": [
    "BurnFm.Props.merge_keeps_partial",
    "BurnFm.Props.merge_last_wins",
    "BurnFm.Props.merge_loses_tables"
   ],
   "note": "False for all pairs of programs with tables: numbers collide and the last file wins."
  },
  {
   "property": "C62",
   "status": "partial",
   "theorems": [
    "BurnFm.Props.delete_record_keeps_others_partial",
    "BurnFm.Props.delete_record_removes_field",
    "BurnFm.Props.delete_record_refuted"
   ],
   "note": "False for every table: a field is removed, not a record."
  },
  {
   "property": "C63",
   "status": "proved",
   "theorems": [
    "BurnFm.Props.get_int_big_endian"
   ],
   "note": ""
  },
  {
   "property": "C64",
   "status": "proved",
   "theorems": [
    "BurnFm.Props.chunk_format_exact",
    "BurnFm.Props.chunk_sequence_exact"
   ],
   "note": ""
  },
  {
   "property": "C65",
   "status": "proved",
   "theorems": [
    "BurnFm.Props.step_performs_operation",
    "BurnFm.Props.run_database_reachable",
    "BurnFm.Props.run_tests_is_test_run"
   ],
   "note": "Until the cleanup at the end of run_tests_with_cleanup, see C29."
  },
  {
   "property": "C66",
   "status": "proved",
   "theorems": [
    "BurnFm.Props.only_set_field_and_new_record_change_data",
    "BurnFm.Props.find_mode_changes_no_data",
    "BurnFm.Props.set_field_step",
    "BurnFm.Props.new_record_step",
    "BurnFm.Props.read_only_tests_change_no_data"
   ],
   "note": ""
  },
  {
   "property": "C67",
   "status": "partial",
   "theorems": [
    "BurnFm.Props.missing_brace_merges",
    "BurnFm.Props.definitions_are_scripts_partial",
    "BurnFm.Props.silent_brace_refuted"
   ],
   "note": "False for all pairs of scripts: the second is merged into the first and compilation goes on. Proved that a warning is printed then. No warning if the brace is missing in the last script."
  },
  {
   "property": "C68",
   "status": "partial",
   "theorems": [
    "BurnFm.Props.compiled_tables_have_no_fields",
    "BurnFm.Props.contents_ignored"
   ],
   "note": "False for every program with a field."
  },
  {
   "property": "C69",
   "status": "partial",
   "theorems": [
    "BurnFm.Props.contents_ignored"
   ],
   "note": "False for every program: the contents do not influence the compiled file."
  },
  {
   "property": "C70",
   "status": "partial",
   "theorems": [
    "BurnFm.Props.occurrences_refer_to_no_table"
   ],
   "note": "False for every program with an occurrence."
  },
  {
   "property": "C71",
   "status": "partial",
   "theorems": [
    "BurnFm.Props.unterminated_table_accepted"
   ],
   "note": "False for every program that ends in an unterminated table."
  },
  {
   "property": "C72",
   "status": "partial",
   "theorems": [
    "BurnFm.Props.program_generates",
    "BurnFm.Props.program_verdicts_partial",
    "BurnFm.Props.source_verdict_partial"
   ],
   "note": "Generation is proved for all programs, the verdicts for programs with any number of tests whose scripts, with the scripts they call, are orderly, up to the first test that fails, see C52 and C48."
  },
  {
   "property": "C73",
   "status": "proved",
   "theorems": [
    "BurnFm.Props.graph_recovered",
    "BurnFm.Props.one_relationship_per_link"
   ],
   "note": "Links are mutual and given once at each end."
  },
  {
   "property": "C74",
   "status": "proved",
   "theorems": [
    "BurnFm.Props.criterion_recovered"
   ],
   "note": ""
  },
  {
   "property": "C75",
   "status": "partial",
   "theorems": [
    "BurnFm.Props.layouts_recovered_partial",
    "BurnFm.Props.layout_reset",
    "BurnFm.Props.layouts_recovered_refuted"
   ],
   "note": "False when the directory of a layout contains a directory: the layout is replaced by a blank one. Proved otherwise."
  },
  {
   "property": "C76",
   "status": "partial",
   "theorems": [
    "BurnFm.Props.scripts_recovered_partial",
    "BurnFm.Props.script_steps_provenance",
    "BurnFm.Props.script_parameters_provenance_partial",
    "BurnFm.Props.long_code_numbers",
    "BurnFm.Props.steps_recovered_refuted"
   ],
   "note": "False for long code whose first step is not numbered 0 (panic); proved for inline code, segments, and long code numbered 0, 1, 2, ... For files with any content that do decompile, the steps are exactly those the file says."
  },
  {
   "property": "C77",
   "status": "partial",
   "theorems": [
    "BurnFm.Props.scripts_recovered_partial",
    "BurnFm.Props.script_parameters_provenance_partial",
    "BurnFm.Props.same_number_refuted",
    "BurnFm.Props.parameters_need_steps",
    "BurnFm.Props.parameters_recovered_refuted"
   ],
   "note": "False for scripts stored in segments (panic); proved for inline and long code. For files with any content that do decompile, every step has exactly the parameters the file gives to its number, if the numbers are distinct; false otherwise."
  },
  {
   "property": "C78",
   "status": "partial",
   "theorems": [
    "BurnFm.Props.file_recovered_partial",
    "BurnFm.Props.exampleFile_decompiles"
   ],
   "note": "Within the limits of C75 to C77 and C95."
  },
  {
   "property": "C79",
   "status": "partial",
   "theorems": [
    "BurnFm.Props.order_independent_partial",
    "BurnFm.Props.description_order_irrelevant_partial",
    "BurnFm.Props.code_needs_name",
    "BurnFm.Props.order_refuted"
   ],
   "note": "Files that describe the same tables, fields, layouts, scripts and data sources in any order decompile to the same components. The five parts (tables, graph, layouts, scripts, data sources) can be mixed in any way; within the scripts, a name must come before the code."
  },
  {
   "property": "C80",
   "status": "proved",
   "theorems": [
    "BurnFm.Props.compile_run",
    "BurnFm.Props.output_names",
    "BurnFm.Props.output_has_tables",
    "BurnFm.Props.other_names_fail",
    "BurnFm.Props.program_output"
   ],
   "note": "Whole program in compile mode. Files are opened, read and written without errors."
  },
  {
   "property": "C81",
   "status": "partial",
   "theorems": [
    "BurnFm.Props.tests_once_partial",
    "BurnFm.Props.test_counts",
    "BurnFm.Props.tests_once_refuted"
   ],
   "note": "False with several input files: the tests of earlier ones run again; exact counts proved."
  },
  {
   "property": "C82",
   "status": "proved",
   "theorems": [
    "BurnFm.Props.inputs_in_order",
    "BurnFm.Props.failed_input_writes_nothing"
   ],
   "note": "Panics and non-termination of a test are both ends of the run."
  },
  {
   "property": "C83",
   "status": "proved",
   "theorems": [
    "BurnFm.Props.no_testing",
    "BurnFm.Props.no_testing_outputs"
   ],
   "note": ""
  },
  {
   "property": "C84",
   "status": "proved",
   "theorems": [
    "BurnFm.Props.decompile_run"
   ],
   "note": ""
  },
  {
   "property": "C85",
   "status": "proved",
   "theorems": [
    "BurnFm.Props.assembles_iff",
    "BurnFm.Props.program_output",
    "BurnFm.Props.too_many_tables"
   ],
   "note": "For schemas in range (table numbers below 256, short names)."
  },
  {
   "property": "C86",
   "status": "partial",
   "theorems": [
    "BurnFm.Props.exit_flag_partial",
    "BurnFm.Props.exit_flag_ignored",
    "BurnFm.Props.exit_flag_refuted"
   ],
   "note": "False: a flag that is off leaves the loop too, because the condition in the code is always true. Proved for flags that are on."
  },
  {
   "property": "C87",
   "status": "proved",
   "theorems": [
    "BurnFm.Props.test_needs_one_script"
   ],
   "note": "From the text; the compiler panics instead of reporting an error."
  },
  {
   "property": "C88",
   "status": "proved",
   "theorems": [
    "BurnFm.Props.cleanup_removes_records",
    "BurnFm.Props.cleanup_ends"
   ],
   "note": ""
  },
  {
   "property": "C89",
   "status": "proved",
   "theorems": [
    "BurnFm.Props.loopless_tests_end",
    "BurnFm.Props.self_call_never_ends",
    "BurnFm.Props.empty_loop_never_ends"
   ],
   "note": "A call to a missing script, a script that calls itself and an empty loop do not end."
  },
  {
   "property": "C90",
   "status": "partial",
   "theorems": [
    "BurnFm.Props.assembles_in_every_order_partial",
    "BurnFm.Props.same_file_iff",
    "BurnFm.Props.reproducible_refuted"
   ],
   "note": "False: the file depends on the visiting order of the hash maps. Proved exactly when two orders give the same file, and that success does not depend on the order."
  },
  {
   "property": "C91",
   "status": "partial",
   "theorems": [
    "BurnFm.Props.call_order_irrelevant_partial",
    "BurnFm.Props.call_order_refuted"
   ],
   "note": "False for two scripts with one name; proved if script names are distinct."
  },
  {
   "property": "C92",
   "status": "partial",
   "theorems": [
    "BurnFm.Props.multi_hop_exact",
    "BurnFm.Props.multi_hop_partial",
    "BurnFm.Props.multi_hop_missed",
    "BurnFm.Props.multi_hop_wrong"
   ],
   "note": "False if a path enters an occurrence by one field and leaves it by another: the code compares the field by which it entered. Proved for paths that leave every occurrence by the field by which they enter it; what the code returns is characterised exactly for all schemas without self-relationships."
  },
  {
   "property": "C93",
   "status": "proved",
   "theorems": [
    "BurnFm.Props.longer_file_same",
    "BurnFm.Props.cut_off_file",
    "BurnFm.Props.short_file_rejected"
   ],
   "note": "For every cut position and every tail."
  },
  {
   "property": "C94",
   "status": "partial",
   "theorems": [
    "BurnFm.Props.signature_ignored",
    "BurnFm.Props.foreign_file_refuted"
   ],
   "note": "False for every file: the first sector is never read. Proved that replacing it changes nothing."
  },
  {
   "property": "C95",
   "status": "partial",
   "theorems": [
    "BurnFm.Props.sources_recovered_partial",
    "BurnFm.Props.source_path_letters",
    "BurnFm.Props.source_path_refuted",
    "BurnFm.Props.source_directory_refuted",
    "BurnFm.Props.source_number_refuted",
    "BurnFm.Props.source_number_mismatch"
   ],
   "note": "False: the letter h is dropped from paths, a directory inside a data source takes the name of the next one, and two-byte numbers lose the properties. Proved otherwise."
  },
  {
   "property": "C96",
   "status": "proved",
   "theorems": [
    "BurnFm.Props.placement_irrelevant",
    "BurnFm.Props.scattered_holds"
   ],
   "note": ""
  },
  {
   "property": "C97",
   "status": "proved",
   "theorems": [
    "BurnFm.Props.comparison_by_bytes",
    "BurnFm.Props.comparison_trichotomy",
    "BurnFm.Props.comparison_transitive",
    "BurnFm.Props.comparison_opposites",
    "BurnFm.Props.literal_order",
    "BurnFm.Props.literal_prefix_refuted"
   ],
   "note": "Comparison is on the texts of the values, quotation marks included; for numbers see C42."
  },
  {
   "property": "C98",
   "status": "partial",
   "theorems": [
    "BurnFm.Props.min_of_naturals",
    "BurnFm.Props.min_of_texts",
    "BurnFm.Props.min_of_mixed",
    "BurnFm.Props.char_of_number",
    "BurnFm.Props.char_of_other_panics",
    "BurnFm.Props.unknown_function",
    "BurnFm.Props.min_refuted",
    "BurnFm.Props.asin_refuted",
    "BurnFm.Props.asin_is_text_minimum",
    "BurnFm.Props.get_refuted"
   ],
   "note": "False for Asin and Get, and for Min in the text of a calculation. Proved for Char, for Min on parsed calls, and for unknown functions. Abs and Acos are operations of the runtime."
  },
  {
   "property": "C99",
   "status": "proved",
   "theorems": [
    "BurnFm.Props.compiled_tests_have_no_assertions"
   ],
   "note": ""
  },
  {
   "property": "C100",
   "status": "partial",
   "theorems": [
    "BurnFm.Props.stray_token_reported",
    "BurnFm.Props.malformed_start_reported",
    "BurnFm.Props.named_relationship_refuted",
    "BurnFm.Props.exported_script_refuted"
   ],
   "note": "False for the relationships and exported script blocks of the language description, which are rejected. Proved that what does not begin like a declaration is reported."
  },
  {
   "property": "C101",
   "status": "partial",
   "theorems": [
    "BurnFm.Props.layout_irrelevant_partial",
    "BurnFm.Props.program_layout_irrelevant",
    "BurnFm.Props.script_layout_irrelevant",
    "BurnFm.Props.layout_refuted"
   ],
   "note": "False for a parenthesis among the first three tokens and a bracket among the first two. Proved otherwise."
  },
  {
   "property": "C102",
   "status": "partial",
   "theorems": [
    "BurnFm.Props.unknown_opcode_no_chunk",
    "BurnFm.Props.unknown_opcode_reported_partial",
    "BurnFm.Props.unknown_opcode_at_start",
    "BurnFm.Props.unknown_opcode_reported_refuted",
    "BurnFm.Props.result_covers_file",
    "BurnFm.Props.unknown_content_rejected"
   ],
   "note": "Proved that unknown bytes never become chunks and that a file with unknown content gives no result. False that the decoder always reports them: at the first byte of a block it divides by zero; the decompiler never calls it there."
  },
  {
   "property": "C103",
   "status": "partial",
   "theorems": [
    "BurnFm.Props.counting_loop",
    "BurnFm.Props.loop_creates_records",
    "BurnFm.Props.counting_to_ten_refuted"
   ],
   "note": "Proved for `i == n`. False for `i >= n`: with n = 10 the loop is left after 2 rounds."
  },
  {
   "property": "C104",
   "status": "partial",
   "theorems": [
    "BurnFm.Props.set_variable_then_assert",
    "BurnFm.Props.write_then_assert_partial",
    "BurnFm.Props.write_then_assert_refuted"
   ],
   "note": "Proved for variables and for the fields of the current occurrence; false for other occurrences."
  },
  {
   "property": "C105",
   "status": "partial",
   "theorems": [
    "BurnFm.Props.readers_agree",
    "BurnFm.Props.record_by_number",
    "BurnFm.Props.readers_without_record",
    "BurnFm.Props.readers_without_field",
    "BurnFm.Props.table_by_name"
   ],
   "note": "Proved where there is a current record with that field; false without a record and for fields the table does not have."
  },
  {
   "property": "C106",
   "status": "proved",
   "theorems": [
    "BurnFm.Props.outcome_unique",
    "BurnFm.Props.outcome_stable",
    "BurnFm.Props.outcome_or_diverges",
    "BurnFm.Props.actions_grow",
    "BurnFm.Props.calculation_outcome_unique"
   ],
   "note": "For the whole program, with the limits on rounds that the model uses for loops and recursion: the outcome does not depend on them."
  },
  {
   "property": "C107",
   "status": "proved",
   "theorems": [
    "BurnFm.Props.release_like_debug",
    "BurnFm.Props.release_after_overflow",
    "BurnFm.Props.release_diverges",
    "BurnFm.Props.builds_differ",
    "BurnFm.Props.builds_panic_differently"
   ],
   "note": "With the conventions of the model for arithmetic: subtractions are checked, additions are taken not to overflow. The hypothesis is needed, see builds_differ."
  },
  {
   "property": "C108",
   "status": "partial",
   "theorems": [
    "BurnFm.Props.calc_layout_partial",
    "BurnFm.Props.same_words_same_value",
    "BurnFm.Props.layout_evaluates",
    "BurnFm.Props.tab_after_name",
    "BurnFm.Props.tab_after_name_refuted",
    "BurnFm.Props.white_space_exact"
   ],
   "note": "Proved for blanks anywhere and other white space except directly after a name or number, where it becomes part of the name. What any text means is C142."
  },
  {
   "property": "C109",
   "status": "partial",
   "theorems": [
    "BurnFm.Props.bad_begin_reported_partial",
    "BurnFm.Props.bad_text_reported_partial",
    "BurnFm.Props.blank_text_reported",
    "BurnFm.Props.rest_ignored",
    "BurnFm.Props.rest_of_text_ignored",
    "BurnFm.Props.open_paren_ignored"
   ],
   "note": "Reported where a text does not begin like an expression; false otherwise: what follows a complete expression is ignored, and so is a missing closing parenthesis."
  },
  {
   "property": "C110",
   "status": "partial",
   "theorems": [
    "BurnFm.Props.accepted_chunk_in_format",
    "BurnFm.Props.accepted_file_in_format_partial",
    "BurnFm.Props.accepted_file_in_format_exact",
    "BurnFm.Props.accepted_file_determined",
    "BurnFm.Props.accepted_file_in_format_refuted"
   ],
   "note": "Exactly the tidy files: false for files with the opcode 0x1F, a bare 0x0F, a short 0x38 or a chunk running over the end of its sector."
  },
  {
   "property": "C111",
   "status": "partial",
   "theorems": [
    "BurnFm.Props.cut_irrelevant_partial",
    "BurnFm.Props.open_directories_entered",
    "BurnFm.Props.cut_field_loses_name",
    "BurnFm.Props.cut_layout_loses",
    "BurnFm.Props.cut_links_panics",
    "BurnFm.Props.cut_irrelevant_refuted"
   ],
   "note": "False in the directories of fields, layouts, tables and data sources, whose content so far is lost, and among links, where the padding panics. Proved everywhere else, for any number of cuts."
  },
  {
   "property": "C112",
   "status": "partial",
   "theorems": [
    "BurnFm.Props.graph_numbering",
    "BurnFm.Props.occurrence_numbers_exact",
    "BurnFm.Props.relationship_numbers_exact",
    "BurnFm.Props.dangling_link_panics",
    "BurnFm.Props.stored_numbers_refuted",
    "BurnFm.Props.relationship_numbers_refuted"
   ],
   "note": "False: occurrences are numbered in the order of the file and relationships in the order in which links mention them. Proved: the exact numbering, and that the stored numbers are kept if and only if they agree with these orders; a link past the last occurrence makes testing panic."
  },
  {
   "property": "C113",
   "status": "proved",
   "theorems": [
    "BurnFm.Props.step_prints",
    "BurnFm.Props.says_unique",
    "BurnFm.Props.transcript_printed",
    "BurnFm.Props.run_transcript",
    "BurnFm.Props.failure_is_named",
    "BurnFm.Props.report_names_failure"
   ],
   "note": "For runs that do not crash; for those that do see C123, for the progress messages C121."
  },
  {
   "property": "C114",
   "status": "partial",
   "theorems": [
    "BurnFm.Props.layout_provenance",
    "BurnFm.Props.script_name_provenance",
    "BurnFm.Props.occurrence_provenance",
    "BurnFm.Props.relationship_provenance",
    "BurnFm.Props.source_provenance",
    "BurnFm.Props.table_provenance_partial"
   ],
   "note": "Exact for layouts, script names, occurrences, relationships and data sources. For table t, neither table 128 + t nor its fields may be entered: there the code is wrong, see C21. The steps of scripts have theorems of the same kind under C76 and C77."
  },
  {
   "property": "C115",
   "status": "proved",
   "theorems": [
    "BurnFm.Props.json_shows_file",
    "BurnFm.Props.json_tells_apart",
    "BurnFm.Props.compile_json",
    "BurnFm.Props.decompile_json",
    "BurnFm.Props.json_changes_nothing",
    "BurnFm.Props.compile_json_first",
    "BurnFm.Props.decompile_json_first"
   ],
   "note": "serde_json and serde_derive are modelled from their documented output format; the directory inspect_output must exist (C117)."
  },
  {
   "property": "C116",
   "status": "partial",
   "theorems": [
    "BurnFm.Props.json_same_contents_partial",
    "BurnFm.Props.json_same_text_refuted"
   ],
   "note": "False: the maps are visited in an order that differs from run to run, and the texts follow it. The contents are the same."
  },
  {
   "property": "C117",
   "status": "partial",
   "theorems": [
    "BurnFm.Props.needs_directory",
    "BurnFm.Props.json_changes_nothing"
   ],
   "note": "False for every non-empty input: without a directory inspect_output, which is ignored by git and never created, the program panics before it tests or writes anything. With the directory everything else holds as stated elsewhere (json_changes_nothing)."
  },
  {
   "property": "C118",
   "status": "proved",
   "theorems": [
    "BurnFm.Props.header_changes_nothing",
    "BurnFm.Props.header_is_input",
    "BurnFm.Props.header_first"
   ],
   "note": "Writing header.log is taken to succeed; the code ignores its failure."
  },
  {
   "property": "C119",
   "status": "partial",
   "theorems": [
    "BurnFm.Props.last_input_shown_partial",
    "BurnFm.Props.each_input_shown_refuted"
   ],
   "note": "False for several input files: all are written to the same path, so only the last one can be inspected."
  },
  {
   "property": "C120",
   "status": "partial",
   "theorems": [
    "BurnFm.Props.warnings_change_nothing",
    "BurnFm.Props.good_program_no_warnings",
    "BurnFm.Props.good_scripts_no_warnings",
    "BurnFm.Props.no_warning_no_loss_partial",
    "BurnFm.Props.silent_end_refuted",
    "BurnFm.Props.silent_keyword_refuted",
    "BurnFm.Props.program_warnings"
   ],
   "note": "False for texts that end inside of a step and for a keyword after define: nothing is printed and the step, or the name, is lost. C147 has the exact warnings of every text."
  },
  {
   "property": "C121",
   "status": "proved",
   "theorems": [
    "BurnFm.Props.output_changes_nothing",
    "BurnFm.Props.output_shows_active",
    "BurnFm.Props.crash_shows_active",
    "BurnFm.Props.passed_test_balanced"
   ],
   "note": "Lines of both output channels in one list. What calculations print is left out."
  },
  {
   "property": "C122",
   "status": "proved",
   "theorems": [
    "BurnFm.Props.unknown_steps_reported",
    "BurnFm.Props.crash_reports_unknown_steps",
    "BurnFm.Props.only_exit_script_unknown"
   ],
   "note": "The list of implemented steps is written out in the specification (Spec.supported)."
  },
  {
   "property": "C123",
   "status": "proved",
   "theorems": [
    "BurnFm.Props.crash_located",
    "BurnFm.Props.output_survives_crash"
   ],
   "note": "A calculation that does not return counts as a crash."
  },
  {
   "property": "C124",
   "status": "partial",
   "theorems": [
    "BurnFm.Props.block_warning_crashes_partial",
    "BurnFm.Props.block_warning_false_alarm_refuted",
    "BurnFm.Props.block_warning_missing_refuted"
   ],
   "note": "False in both directions. The warning is only ever printed directly before a crash."
  },
  {
   "property": "C125",
   "status": "proved",
   "theorems": [
    "BurnFm.Props.compile_screen",
    "BurnFm.Props.decompile_screen",
    "BurnFm.Props.test_file_screen",
    "BurnFm.Props.database_after_tests",
    "BurnFm.Props.screen_changes_nothing"
   ],
   "note": "Debugging output of the assembler and the decompiler, panic messages and warnings inside of calculations are left out. A run that does not end within the bound counts as stopped."
  },
  {
   "property": "C126",
   "status": "proved",
   "theorems": [
    "BurnFm.Props.only_named_variables_matter",
    "BurnFm.Props.silent_uses_defined_only",
    "BurnFm.Props.named_are_undefined",
    "BurnFm.Props.undefined_variable_named",
    "BurnFm.Props.notes_change_nothing"
   ],
   "note": "In the second theorem no warning of any kind; the first one says the same for warnings about variables only. That a warning names a variable of the calculation is C127."
  },
  {
   "property": "C127",
   "status": "partial",
   "theorems": [
    "BurnFm.Props.reported_is_mentioned_partial",
    "BurnFm.Props.boolean_variable_false_alarm",
    "BurnFm.Props.undefined_operand_reported_twice"
   ],
   "note": "Proved for expressions without arithmetic and function calls over numbers and texts in quotes. False otherwise: reading a variable that holds the result of a comparison reports an unknown variable 'true', and an undefined operand of arithmetic is reported a second time with an empty name."
  },
  {
   "property": "C128",
   "status": "proved",
   "theorems": [
    "BurnFm.Props.not_numbers_reported_iff",
    "BurnFm.Props.operation_reported_or_done"
   ],
   "note": "Expressions without function calls, as the statement says."
  },
  {
   "property": "C129",
   "status": "partial",
   "theorems": [
    "BurnFm.Props.no_colon_not_reported",
    "BurnFm.Props.single_colon_reported_partial",
    "BurnFm.Props.third_colon_not_reported",
    "BurnFm.Props.colon_reports_exact",
    "BurnFm.Props.colon_reports_counted"
   ],
   "note": "Proved for the first colon. A third colon after a pair is swallowed without a report, and so is a single one that stands where a field name begins. How many reports are printed is characterised exactly for every text: one for each piece of C142 with a stray colon."
  },
  {
   "property": "C130",
   "status": "proved",
   "theorems": [
    "BurnFm.Props.leftover_variables_ignored",
    "BurnFm.Props.verdicts_independent_of_variables",
    "BurnFm.Props.variable_tests_leave_state",
    "BurnFm.Props.evalCalc_reports"
   ],
   "note": "For runs that end; a test that crashes alone for want of an open loop may go on with one left over. `evalCalc_reports` shows that the calculator of the code is one the theorems are about. This is also the part of C48 that holds for tests that set variables."
  },
  {
   "property": "C131",
   "status": "partial",
   "theorems": [
    "BurnFm.Props.stored_calculation_evaluates_partial",
    "BurnFm.Props.stored_arithmetic_partial",
    "BurnFm.Props.stored_number_one_byte",
    "BurnFm.Props.unknown_operator_joins_names",
    "BurnFm.Props.stored_call_evaluates_partial",
    "BurnFm.Props.stored_char_of_number",
    "BurnFm.Props.stored_get_refuted"
   ],
   "note": "Proved for numbers from 0 to 255, ASCII strings with a letter or digit, variables, all operators and parentheses the decompiler knows, and for Abs, Acos, Get and Char called with such an expression. False for Get, whose value is always a message. False for other numbers, since only the ninth of their nineteen bytes is looked at, and for unknown operators, which disappear so that the names around them become one."
  },
  {
   "property": "C132",
   "status": "partial",
   "theorems": [
    "BurnFm.Props.found_set_left_alone",
    "BurnFm.Props.found_set_kept_partial",
    "BurnFm.Props.found_set_kept_refuted"
   ],
   "note": "What becomes of the occurrence is characterised exactly. False if a record is added to the same table on another layout: it joins the found set and becomes the current record. Proved if no record is added to the table."
  },
  {
   "property": "C133",
   "status": "partial",
   "theorems": [
    "BurnFm.Props.decompiled_tests_partial",
    "BurnFm.Props.stored_call_panics",
    "BurnFm.Props.decompiled_tests_refuted"
   ],
   "note": "From the bytes of the file and the text of the tests to the verdicts. False for stored scripts that call others: the stored step holds the bare name, which the test runner evaluates as a calculation, and it panics unless a variable of that name holds the quoted name. Proved if the called scripts call no others, and tests and scripts are orderly (as in C52)."
  },
  {
   "property": "C134",
   "status": "partial",
   "theorems": [
    "BurnFm.Props.lines_do_not_matter",
    "BurnFm.Props.unknown_code_reported",
    "BurnFm.Props.unknown_code_last",
    "BurnFm.Props.unknown_code_place_refuted",
    "BurnFm.Props.unknown_functions_reported",
    "BurnFm.Props.described_lines",
    "BurnFm.Props.unknown_functions_exact",
    "BurnFm.Props.unknown_functions_unique"
   ],
   "note": "The line for an unknown code is printed exactly when reading comes to a byte that begins no chunk, last, and names its opcode. False for the place: the line shows 4096 divided by the distance from the beginning of the sector, and the beginning of the sector, so that unknown codes at different places show the same line. For described files the lines on standard output and the number of reports of unknown functions are exact; for a single calculation the reports are exact for any bytes."
  },
  {
   "property": "C135",
   "status": "proved",
   "theorems": [
    "BurnFm.Props.step_stops_iff",
    "BurnFm.Props.panic_has_reason",
    "BurnFm.Props.reason_stops_test",
    "BurnFm.Props.tests_panic_has_reason",
    "BurnFm.Props.loop_begun_iff",
    "BurnFm.Props.no_pair_iff"
   ],
   "note": "The list of reasons is Spec.StopReason; when a calculation has no value is C136."
  },
  {
   "property": "C136",
   "status": "proved",
   "theorems": [
    "BurnFm.Props.calculation_value_exact",
    "BurnFm.Props.calculation_crashes_exact",
    "BurnFm.Props.calculation_endless_exact",
    "BurnFm.Props.calculation_one_of_three",
    "BurnFm.Props.name_without_value_iff",
    "BurnFm.Props.text_value_exact",
    "BurnFm.Props.text_without_value_iff",
    "BurnFm.Props.expression_has_value"
   ],
   "note": "The rules are Spec.Means and Spec.Fails. Which expression a text is read as is C38 to C41. Running for ever is the model's reading of an unbounded recursion, which ends with a full stack."
  },
  {
   "property": "C137",
   "status": "proved",
   "theorems": [
    "BurnFm.Props.warnings_exact",
    "BurnFm.Props.warnings_unique",
    "BurnFm.Props.text_warnings_exact",
    "BurnFm.Props.lookup_warning_iff",
    "BurnFm.Props.text_reports_exact"
   ],
   "note": "The rules are Spec.Warns. Expressions that crash may print warnings before; these are not part of the claim. text_reports_exact is about every text, also with the warnings about colons (C129)."
  },
  {
   "property": "C138",
   "status": "proved",
   "theorems": [
    "BurnFm.Props.compiled_contents",
    "BurnFm.Props.compiled_records",
    "BurnFm.Props.compiled_only_names",
    "BurnFm.Props.compiled_same_iff",
    "BurnFm.Props.compiled_maker",
    "BurnFm.Props.compiled_determines_schema_refuted"
   ],
   "note": "Fields, relationships, value lists, steps of scripts, tests and the contents of layouts leave no trace in the file, nor does the case of names (C05). Every file names a directory of the computer on which the template was made."
  },
  {
   "property": "C139",
   "status": "partial",
   "theorems": [
    "BurnFm.Props.header_before_name",
    "BurnFm.Props.header_name_exact",
    "BurnFm.Props.header_name_partial",
    "BurnFm.Props.header_name_refuted"
   ],
   "note": "The name is written over the template without moving what follows. Shorter names leave the end of `blank/` behind them, longer ones overwrite the end of line. Proved what the header contains for every name, and that the claim holds exactly for names of 5 or 1005 bytes."
  },
  {
   "property": "C140",
   "status": "proved",
   "theorems": [
    "BurnFm.Props.printing_changes_nothing",
    "BurnFm.Props.assembler_output_exact",
    "BurnFm.Props.assembler_output_prefix",
    "BurnFm.Props.tables_reported"
   ],
   "note": "The lines are values with the printed data; their spelling is in the comments of AsmLine."
  },
  {
   "property": "C141",
   "status": "proved",
   "theorems": [
    "BurnFm.Props.calc_reading_iff",
    "BurnFm.Props.calc_crashes_iff",
    "BurnFm.Props.calc_reading_unique",
    "BurnFm.Props.documented_reading",
    "BurnFm.Props.read_text_evaluates"
   ],
   "note": "The grammar says what the code reads, with its deviations from the documented one: the last word is never given up, one word after an expression in parentheses and after the arguments of a call is skipped whatever it is, and a call is a name before an expression in parentheses. When it runs for ever is `calc_parser_hangs_iff` (C39)."
  },
  {
   "property": "C142",
   "status": "proved",
   "theorems": [
    "BurnFm.Props.text_words_iff",
    "BurnFm.Props.text_uncut_iff",
    "BurnFm.Props.text_words_unique",
    "BurnFm.Props.documented_words",
    "BurnFm.Props.text_means_exact",
    "BurnFm.Props.text_crashes_exact",
    "BurnFm.Props.text_endless_exact",
    "BurnFm.Props.digits_exact"
   ],
   "note": "The specification shows where the code departs from the documented language: a single equals sign or exclamation mark is skipped, a text in quotes without letters and digits is dropped, a tab inside a name belongs to it, a quote that is not closed ends with the text, a single colon becomes three and swallows the next character, a field name ends at the first character that is no letter or digit, and a comparison sign at the end crashes. Which texts are numbers, their values and the Unicode tables are parameters (Rt)."
  },
  {
   "property": "C143",
   "status": "proved",
   "theorems": [
    "BurnFm.Props.script_tokens_iff",
    "BurnFm.Props.script_uncut_iff",
    "BurnFm.Props.script_tokens_unique",
    "BurnFm.Props.documented_script_tokens"
   ],
   "note": "The specification shows where the code departs from the documented language: a word at the end of the text is lost, an exclamation mark without an equals sign is read as an equals sign, the character after < or > is skipped whatever it is, and if a parenthesis is never closed the rest of the text is lost but for the arguments with a comma after them."
  },
  {
   "property": "C144",
   "status": "proved",
   "theorems": [
    "BurnFm.Props.script_grammar_iff",
    "BurnFm.Props.script_grammar_breaks_iff",
    "BurnFm.Props.script_text_compiles_exact",
    "BurnFm.Props.script_text_crashes_exact",
    "BurnFm.Props.script_grammar_unique",
    "BurnFm.Props.documented_scripts",
    "BurnFm.Props.open_block_leaks"
   ],
   "note": "The grammar shows where the code departs from the documented language: unknown names and stray tokens are skipped, a loop or else without a bracket ends the script and leaves its blocks open for the next one, whose instructions then have an end of a block that is not in it (open_block_leaks), a step cut off by the end of the text is lost, and a step without a semicolon or a condition without a bracket crashes the program. Messages on the error output are the subject of C120."
  },
  {
   "property": "C145",
   "status": "proved",
   "theorems": [
    "BurnFm.Props.program_tokens_iff",
    "BurnFm.Props.program_uncut_iff",
    "BurnFm.Props.program_tokens_unique",
    "BurnFm.Props.program_crashes_in_both_builds",
    "BurnFm.Props.documented_program_tokens"
   ],
   "note": "The specification shows where the code departs from the documented language: a word at the end of the text is lost; a word that begins with a digit and is no number is not ended by a blank but joined with what comes after it, and dropped before any other mark; the closing character of a string or calculation becomes the beginning of the next word, and the text must not end with it; an opening parenthesis among the first tokens and a square bracket as the first one crash. The loop for assertions, which is never reached (C99), is left out of the model."
  },
  {
   "property": "C146",
   "status": "proved",
   "theorems": [
    "BurnFm.Props.program_grammar_iff",
    "BurnFm.Props.program_grammar_fails_iff",
    "BurnFm.Props.program_text_compiles_exact",
    "BurnFm.Props.program_text_crashes_exact",
    "BurnFm.Props.program_same_in_both_builds",
    "BurnFm.Props.program_grammar_unique",
    "BurnFm.Props.documented_program"
   ],
   "note": "The grammar shows where the code departs from the documented language: tokens that mean nothing in a declaration are skipped, a relationship takes the last name with a colon after it and any token as its tables, a declaration that is not ended is kept, and a program that is refused crashes the compiler."
  },
  {
   "property": "C147",
   "status": "proved",
   "theorems": [
    "BurnFm.Props.script_warnings_iff",
    "BurnFm.Props.script_text_warnings_exact",
    "BurnFm.Props.program_text_warnings_exact",
    "BurnFm.Props.warnings_same_in_both_builds",
    "BurnFm.Props.block_warnings_unique",
    "BurnFm.Props.documented_scripts_silent"
   ],
   "note": "A step or condition that the text ends in, a keyword in the place of a name and an opening bracket in a body are skipped without a warning, as the specification shows, see C120."
  },
  {
   "property": "C148",
   "status": "proved",
   "theorems": [
    "BurnFm.Props.stored_text_iff",
    "BurnFm.Props.stored_text_cut_iff",
    "BurnFm.Props.stored_text_unique",
    "BurnFm.Props.stored_items_show",
    "BurnFm.Props.stored_value_exact",
    "BurnFm.Props.stored_literal_hidden"
   ],
   "note": "The specification shows where the code departs from the format: unknown bytes, functions and arguments of Get disappear, a number is its ninth byte and may be cut off after it, and one byte that is not ASCII hides a whole text."
  },
  {
   "property": "C149",
   "status": "proved",
   "theorems": [
    "BurnFm.Props.step_exact",
    "BurnFm.Props.script_end_exact",
    "BurnFm.Props.run_exact",
    "BurnFm.Props.tests_exact",
    "BurnFm.Props.step_does_unique",
    "BurnFm.Props.tests_give_unique",
    "BurnFm.Props.step_does_or_stops"
   ],
   "note": "This is what the code does, also where it is not what the script means (C50-C52): a branch that is not taken continues at the next else_if, else or end_if of any chain, a loop is left at the next end_loop of any loop, and the call of a script that does not exist is repeated forever. The calculator is a parameter; C142 says what it gives for any text."
  },
  {
   "property": "C150",
   "status": "proved",
   "theorems": [
    "BurnFm.Props.parameter_value_exact",
    "BurnFm.Props.verdicts_exact",
    "BurnFm.Props.file_verdicts_exact",
    "BurnFm.Props.source_verdicts_exact",
    "BurnFm.Props.source_verdicts_only",
    "BurnFm.Props.no_verdict_iff"
   ],
   "note": "No bound on the steps of a run or the rounds of a calculation is left in the right-hand sides. Which runs crash is C135 and C136, not here. The arithmetic of floating-point numbers is the parameter `Rt`, as everywhere."
  },
  {
   "property": "C151",
   "status": "proved",
   "theorems": [
    "BurnFm.Props.tests_one_of_three",
    "BurnFm.Props.tests_only_one",
    "BurnFm.Props.endless_tests_run_on",
    "BurnFm.Props.crash_breaks",
    "BurnFm.Props.break_no_verdicts"
   ],
   "note": "A reason to stop that is a calculation without a value is a crash or a calculation that never ends; C153 tells them apart. That the first test which does not end hides the verdicts of all later ones is part of the definitions."
  },
  {
   "property": "C152",
   "status": "proved",
   "theorems": [
    "BurnFm.Props.invocation_exact",
    "BurnFm.Props.invocation_does_unique",
    "BurnFm.Props.invocation_fails_iff"
   ],
   "note": "What a text compiles to is C146, what the written bytes contain C138, what bytes decompile to C110 and C114. Opening, reading and writing files is taken to succeed. The JSON files that the decompiler writes for inspection are left out here; see C115 to C119."
  },
  {
   "property": "C153",
   "status": "proved",
   "theorems": [
    "BurnFm.Props.step_hangs_iff",
    "BurnFm.Props.tests_crash_exact",
    "BurnFm.Props.tests_endless_exact",
    "BurnFm.Props.tests_one_of_four",
    "BurnFm.Props.file_crash_exact",
    "BurnFm.Props.file_endless_exact"
   ],
   "note": "The reasons to stop are those of C135, the steps those of C149, the values those of C142. Crashes from running out of stack or memory are not modelled; see DESIGN.md."
  },
  {
   "property": "C154",
   "status": "proved",
   "theorems": [
    "BurnFm.Props.invocation_crash_exact",
    "BurnFm.Props.invocation_crash_unique",
    "BurnFm.Props.invocation_endless_iff",
    "BurnFm.Props.invocation_three",
    "BurnFm.Props.invocation_hang_exact"
   ],
   "note": "That a text cannot be compiled is C146, that bytes cannot be decompiled C110, that tests crash C153. Opening, reading and writing files is taken to succeed; crashes from running out of stack or memory are not modelled. The verdicts of one run are shown together, so those shown before a test of the same run crashes are left out here; see C121 and C123 for the lines on the screen."
  }
 ]
}