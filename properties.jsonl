{"id": "C01", "title": "Path integers survive encode/decode", "statement": "For every 32-bit n, get_path_int(put_path_int(n)) == n.", "quantifier": "every u32", "why_tests_cant": "The unit tests try ten values, all below 267; the range has 2^32 values and the loss starts at 384.", "anchors": ["src/encoding_util.rs: put_path_int, get_path_int"]}
{"id": "C02", "title": "Fixed-width integers never decode to a different number", "statement": "For every usize n, put_int(n) either panics or returns exactly four bytes that get_int maps back to n; it panics exactly from 2^24 up in a build with overflow checks and exactly from 2^32 up in a build without them.", "quantifier": "every usize, both build profiles", "why_tests_cant": "Only 67 and 1024 are tested; the boundary behaviour depends on the build profile.", "anchors": ["src/encoding_util.rs: put_int, get_int"]}
{"id": "C03", "title": "String obfuscation round-trips", "statement": "For every Rust string s, fm_string_decrypt(fm_string_encrypt(s)) == s, and two different strings never encrypt to the same bytes.", "quantifier": "every Unicode string", "why_tests_cant": "Strings are unbounded and multi-byte UTF-8 is involved.", "anchors": ["src/encoding_util.rs: fm_string_encrypt, fm_string_decrypt"]}
{"id": "C04", "title": "Decryption is exact or says so", "statement": "For every byte slice, fm_string_decrypt either returns the one string whose encryption is exactly that slice, or returns the text 'value not utf-8.'; it does the latter exactly when the slice is not the encryption of any other string.", "quantifier": "every byte slice", "why_tests_cant": "Byte slices of arbitrary length and content.", "anchors": ["src/encoding_util.rs: fm_string_decrypt"]}
{"id": "C05", "title": "Two-byte text encoding loses exactly letter case and unsupported characters", "statement": "For every string s, encode_text(s) has exactly two bytes per character, and decode_bytes(encode_text(s + NUL)) is s with ASCII letters lower-cased and every character outside the 29-entry table replaced by NUL.", "quantifier": "every string", "why_tests_cant": "Unbounded strings over all of Unicode.", "anchors": ["src/dbcharconv.rs: encode_char, encode_text, decode_char, decode_bytes, ENCODING_MAPPING"]}
{"id": "C06", "title": "decode_bytes rejects exactly the unterminated inputs", "statement": "For every byte slice, decode_bytes panics iff the last complete byte pair is missing or is not (0,0); otherwise it returns one character per preceding pair ('?' for unknown pairs) and ignores a trailing odd byte.", "quantifier": "every byte slice", "why_tests_cant": "Panic freedom over all inputs cannot be sampled.", "anchors": ["src/dbcharconv.rs: decode_bytes, decode_char"]}
{"id": "C07", "title": "The chunk decoder always makes progress", "statement": "For every buffer and offset, when get_chunk_from_code returns Ok the offset has strictly increased, so decoding a sector terminates.", "quantifier": "every buffer, offset and path", "why_tests_cant": "Termination over all byte sequences.", "anchors": ["src/chunk.rs: get_chunk_from_code", "src/decompile/decompiler.rs: decompile_fmp12_file (while offset < bound)"]}
{"id": "C08", "title": "Chunk payloads are slices of the input inside the consumed span", "statement": "For every buffer and offset, the data (and reference key) of a decoded chunk are contiguous slices of the buffer, the data starts after the opcode and ends at or before the new offset, and key and data do not overlap.", "quantifier": "every buffer, offset and path", "why_tests_cant": "All malformed files are in the domain.", "anchors": ["src/chunk.rs: get_chunk_from_code, Chunk"]}
{"id": "C09", "title": "Chunks move the directory path by at most one level, exactly as their opcode says", "statement": "For every buffer, offset and path, a decoded push chunk appends exactly one component, a pop chunk removes exactly the last one (no effect at the root), every other chunk leaves the path alone; the delay bits 0xC0 pop one component afterwards; the path recorded in the chunk is the resulting path.", "quantifier": "every buffer, offset and path", "why_tests_cant": "Holds for each of 256 opcodes in arbitrary contexts.", "anchors": ["src/chunk.rs: get_chunk_from_code (path.push / path.pop, delayed)"]}
{"id": "C10", "title": "Chunk decoding is local", "statement": "What a chunk decodes to depends only on the bytes from its offset to its end: changing, adding or removing bytes before the offset (while at least two bytes of buffer exist) or appending bytes after the end changes neither the chunk nor how far the offset moves.", "quantifier": "every pair of surrounding buffers", "why_tests_cant": "Relational property over all contexts.", "anchors": ["src/chunk.rs: get_chunk_from_code"]}
{"id": "C11", "title": "Small key-value records written by the compiler are read back", "statement": "For every key byte and value, decoding the bytes written by emit_simple_kv(key, value) yields that key, that value and consumes exactly the bytes written.", "quantifier": "every key and every value slice", "why_tests_cant": "Only four value lengths are tested, and only for the opcode chosen, never for read-back.", "anchors": ["src/compile/assembler.rs: calc_small_kv_ins, emit_simple_kv", "src/chunk.rs: get_chunk_from_code"]}
{"id": "C12", "title": "Long key-value, extended-key and data records are read back", "statement": "Decoding the bytes written by emit_long_kv, emit_simple_kv_e and emit_simple_data_1b yields the key and value written and consumes exactly the bytes written, for every key and value in the representable ranges (lengths up to 255, extended keys 128..383, non-empty data).", "quantifier": "every key/value in range", "why_tests_cant": "Unbounded payload contents.", "anchors": ["src/compile/assembler.rs: emit_long_kv, emit_simple_kv_e, emit_simple_data_1b", "src/chunk.rs"]}
{"id": "C13", "title": "Directory pushes and pops written by the compiler are read back", "statement": "Decoding push_directory(d) appends exactly the component d to the path and decoding pop_directory removes it, for every d below 384.", "quantifier": "every directory number and path", "why_tests_cant": "Only exercised end to end on one file.", "anchors": ["src/compile/assembler.rs: push_directory, pop_directory", "src/chunk.rs"]}
{"id": "C14", "title": "Any sequence of emitted records decodes to the same sequence", "statement": "For every sequence of in-range emit operations (key-values, long key-values, data, pushes, pops), decoding the emitted bytes yields the same operations in order, each tagged with the directory path at that point.", "quantifier": "every operation sequence", "why_tests_cant": "Sequences are unbounded; errors compound through the shared offset and path.", "anchors": ["src/compile/assembler.rs: emit_*", "src/chunk.rs", "src/decompile/decompiler.rs"]}
{"id": "C15", "title": "Assembling never silently overruns its sector", "statement": "For every schema, assemble_fmp12 either panics or produces a buffer of exactly 20479 bytes whose sector chain is 2 -> 3 -> 4 -> end with a block count of 4.", "quantifier": "every schema", "why_tests_cant": "Schemas are unbounded.", "anchors": ["src/compile/assembler.rs: assemble_fmp12, append_blank_chunk", "src/compile/header.rs: HEADER_INIT", "src/decompile/sector.rs: get_sector"]}
{"id": "C16", "title": "Compiled tables reappear when the compiled file is decompiled", "statement": "For every schema that assembles, decompiling the assembled file yields the schema's tables.", "quantifier": "every schema", "why_tests_cant": "Round-trip over unbounded schemas; there is no such test at all.", "anchors": ["src/compile/assembler.rs: assemble_fmp12, emit_table_metadata", "src/decompile/decompiler.rs: decompile_fmp12_file"]}
{"id": "C17", "title": "Decompilation terminates on every file", "statement": "decompile_fmp12_file returns or panics, but never loops forever, on every byte sequence.", "quantifier": "every file", "why_tests_cant": "Termination cannot be tested.", "anchors": ["src/decompile/decompiler.rs: decompile_fmp12_file", "src/decompile/sector.rs: get_sector", "src/chunk.rs"]}
{"id": "C18", "title": "The instruction table agrees with the opcode numbers", "statement": "For every byte b, the instruction table entry for b, when present, is the instruction whose numeric code is b, and every instruction appears at its own code.", "quantifier": "every byte / every instruction", "why_tests_cant": "Nothing tests the 255-entry table.", "anchors": ["src/fm_script_engine/fm_script_engine_instructions.rs: Instruction, INSTRUCTIONMAP"]}
{"id": "C19", "title": "Segmented scripts are reassembled in segment order regardless of arrival order", "statement": "For every set of (segment index, bytes) with distinct indices, the steps recovered for the script are the steps of the concatenation of the segments in ascending index order, whatever order the segments occur in the file; each complete 28-byte record with a known opcode yields exactly one step, in order; a trailing partial record yields none.", "quantifier": "every segment list and every permutation of it", "why_tests_cant": "Arrival orders are factorial in number.", "anchors": ["src/decompile/decompiler.rs: decompile_fmp12_file (script_segments, Assemble scripts)"]}
{"id": "C20", "title": "Calculation bytecode decompiles compositionally", "statement": "For every sequence of complete calculation bytecode items, decompile_calculation returns the concatenation of the items' texts; string literals and variable names made of ASCII characters come back verbatim, and any with a non-ASCII character come back as 'value not utf-8.'.", "quantifier": "every bytecode sequence and every string", "why_tests_cant": "Unbounded sequences and contents; no test exists.", "anchors": ["src/decompile/decompiler.rs: decompile_calculation"]}
{"id": "C21", "title": "Table and field definitions in a file are recovered", "statement": "For every list of tables with fields laid out in a sector as the format document describes (directory [128+t].[3].[5].[f] with name, type, description keys, and [3].[16].[5].[128+t] with the table name), decompilation yields exactly those tables, fields and names.", "quantifier": "every schema that fits", "why_tests_cant": "Only one 320 kB sample file exists.", "anchors": ["src/decompile/decompiler.rs: decompile_fmp12_file ([x,3,5,y] and [3,16,5,x] arms)", "doc/fmp_format.md"]}
{"id": "C22", "title": "The relationship graph is undirected and duplicate-free", "statement": "After any sequence of add_relation calls, a is adjacent to b iff b is adjacent to a iff add_relation(a,b) or add_relation(b,a) was called, and no neighbour is listed twice.", "quantifier": "every call history", "why_tests_cant": "Histories are unbounded.", "anchors": ["src/testing/relation_mgr.rs: add_node, add_relation"]}
{"id": "C23", "title": "get_path only returns real paths", "statement": "Whenever get_path(a,b) returns a path it starts at a, ends at b, has at least two nodes and every consecutive pair was related by add_relation.", "quantifier": "every graph history and pair of nodes", "why_tests_cant": "One six-edge graph is tested.", "anchors": ["src/testing/relation_mgr.rs: get_path"]}
{"id": "C24", "title": "get_path finds a path whenever there is one", "statement": "get_path(a,b) returns None iff b cannot be reached from a through one or more relations; in particular the search always terminates.", "quantifier": "every graph history and pair of nodes", "why_tests_cant": "Completeness and termination of a graph search over all graphs.", "anchors": ["src/testing/relation_mgr.rs: get_path"]}
{"id": "C25", "title": "get_path returns a shortest path", "statement": "No chain of related occurrences from a to b is shorter than the one get_path returns.", "quantifier": "every graph history, pair of nodes and competing chain", "why_tests_cant": "Minimality quantifies over all alternatives.", "anchors": ["src/testing/relation_mgr.rs: get_path"]}
{"id": "C26", "title": "Layout lookup does not depend on map iteration order", "statement": "For every set of layouts with distinct names, after generate_layout_mgr a lookup of each layout's name returns that layout's table occurrence and any other name returns nothing, whatever order the layout map is iterated in.", "quantifier": "every layout map and iteration order", "why_tests_cant": "HashMap order is randomised per run.", "anchors": ["src/testing/layout_mgr.rs: add_mapping, lookup", "src/testing/test.rs: generate_layout_mgr"]}
{"id": "C27", "title": "Database generation does not depend on map iteration order", "statement": "For every schema, the generated tables and fields do not depend on the iteration order of the schema's maps; every table (field) sits at its own id with its name and no records; occurrence names resolve to their own ids when names are distinct.", "quantifier": "every schema and every iteration order", "why_tests_cant": "HashMap order is randomised per run.", "anchors": ["src/testing/database.rs: generate_from_fmp12"]}
{"id": "C28", "title": "Tables stay rectangular", "statement": "After any sequence of record creations, field writes, finds, navigation and layout switches on a generated database, all fields of each table hold the same number of records.", "quantifier": "every schema and operation history", "why_tests_cant": "Invariant over unbounded histories.", "anchors": ["src/testing/database.rs: create_record, get_current_record_by_table_field_mut, Table::add_blank_record"]}
{"id": "C29", "title": "Found sets stay valid", "statement": "After any such sequence, every occurrence's found set is strictly increasing and contains only existing record ids of its table, and its record pointer is inside the found set whenever the found set is non-empty.", "quantifier": "every schema and operation history", "why_tests_cant": "Invariant over unbounded histories.", "anchors": ["src/testing/database.rs: create_record, update_found_set, reset_found_set, goto_*"]}
{"id": "C30", "title": "A new record is blank, current, and touches nothing else", "statement": "create_record appends exactly one blank record to the current occurrence's table; every occurrence of that table gets it as its last found record and makes it current; all existing cells, other tables and other tables' occurrences are unchanged.", "quantifier": "every valid database state", "why_tests_cant": "Frame property over all states.", "anchors": ["src/testing/database.rs: create_record"]}
{"id": "C31", "title": "A field write is read back and changes one cell", "statement": "In every valid state with a current record, setting occurrence::field then reading that cell returns the value written; every other cell of every table is unchanged; writing with no current record does not change anything.", "quantifier": "every valid state, field and value", "why_tests_cant": "Read-after-write and frame over all states.", "anchors": ["src/testing/database.rs: get_current_record_by_table_field_mut, get_current_record_by_table_field, get_current_record_field"]}
{"id": "C32", "title": "Record navigation clamps", "statement": "In every valid state with a non-empty found set, go-to-record n moves to position n or to the last position if n is out of range; next/previous move by one and stop at the ends; first/last go to the ends; no data changes.", "quantifier": "every state and n", "why_tests_cant": "All states and targets.", "anchors": ["src/testing/database.rs: goto_record, goto_next_record, goto_previous_record, goto_first_record, goto_last_record"]}
{"id": "C33", "title": "First-then-next visits every found record exactly once in order", "statement": "From any valid state with a non-empty found set, going to the first record and then repeatedly to the next one until the pointer stops moving visits exactly the found set, in order, each record once.", "quantifier": "every found set", "why_tests_cant": "Unbounded length loop.", "anchors": ["src/testing/database.rs: goto_first_record, goto_next_record", "src/testing/test.rs: GoToRecordRequestPage"]}
{"id": "C34", "title": "A find returns exactly the matching records", "statement": "In every state, a perform_find step with at least one matching record leaves a found set consisting of exactly the records of the current table that match at least one criterion, in ascending order without duplicates, current record first; with no match all records are shown; criteria are cleared and browse mode restored.", "quantifier": "every state and criteria list", "why_tests_cant": "All data sets and criteria; uses a randomised hash set internally.", "anchors": ["src/testing/test.rs: step (PerformFind)", "src/testing/database.rs: update_found_set, reset_found_set, get_field_vals_for_current_table"]}
{"id": "C35", "title": "Navigation on an empty found set does not crash", "statement": "In every state, go-to-record, next and last are safe even if the found set is empty.", "quantifier": "every state", "why_tests_cant": "The empty case is never tested.", "anchors": ["src/testing/database.rs: goto_record, goto_next_record, goto_last_record"]}
{"id": "C36", "title": "A related-field read returns the first matching related record", "statement": "For occurrences joined directly, get_related_record_field(target, field) returns that field of the lowest-numbered record of the target's table whose join field stands in the declared comparison to the current record's join field, and an error if there is none.", "quantifier": "every state, relation and data", "why_tests_cant": "All data sets and all seven comparisons.", "anchors": ["src/testing/database.rs: get_related_record_field", "src/component.rs: RelationComparison"]}
{"id": "C37", "title": "A join is the same relation seen from both sides", "statement": "For every relationship and pair of records, r2 is related to r1 from the first occurrence iff r1 is related to r2 from the second.", "quantifier": "every relationship and record pair", "why_tests_cant": "All comparisons and values.", "anchors": ["src/testing/database.rs: generate_from_fmp12 (Generate Relationships), get_related_record_field"]}
{"id": "C38", "title": "Calculations parse with the documented precedence", "statement": "For every call-free expression built from numbers, strings, variables, fields, + - * / & and comparisons with parentheses where needed, parsing its token sequence returns exactly that expression: * and / bind tighter than + and -, those tighter than &, those tighter than comparisons; all operators associate to the left.", "quantifier": "every expression tree", "why_tests_cant": "Trees are unbounded.", "anchors": ["src/testing/calc_eval.rs: Parser::parse, parse_comparison, parse_concatenation, parse_expr, parse_term, parse_factor, parse_primary, TokenList"]}
{"id": "C39", "title": "The calculation parser always terminates", "statement": "For every token sequence, the parser returns a tree or panics within a number of steps bounded by the length of the sequence.", "quantifier": "every token sequence", "why_tests_cant": "Termination over all inputs, with a cursor that does not advance at the end.", "anchors": ["src/testing/calc_eval.rs: Parser"]}
{"id": "C40", "title": "Function calls keep all their arguments and end at their closing parenthesis", "statement": "For every call f(e1,...,en) op e, parsing yields op applied to the call with all n arguments and e.", "quantifier": "every call expression", "why_tests_cant": "All argument lists and continuations.", "anchors": ["src/testing/calc_eval.rs: parse_args, parse_primary, parse_factor"]}
{"id": "C41", "title": "Calculation text lexes to the tokens it spells", "statement": "For every sequence of calculation tokens written with single spaces between them, the calculation lexer returns that sequence.", "quantifier": "every token sequence", "why_tests_cant": "Unbounded sequences.", "anchors": ["src/testing/test.rs: eval_calculation (lexer)"]}
{"id": "C42", "title": "Arithmetic evaluates structurally", "statement": "For every arithmetic expression over numbers and numeric variables, evaluation returns the decimal text of the value obtained by applying the floating point operations along the tree; an operand that is not a number gives 'undefined'.", "quantifier": "every expression tree and variable assignment", "why_tests_cant": "Unbounded trees.", "anchors": ["src/testing/test.rs: evaluate (Binary, Number, Variable), get_operand_val"]}
{"id": "C43", "title": "Comparisons of numbers compare numerically", "statement": "For all numbers a and b, evaluating a op b yields 'true' iff a op b numerically, for ==, !=, <, <=, >, >=.", "quantifier": "every pair of numbers", "why_tests_cant": "Pairs of numbers are unbounded.", "anchors": ["src/testing/test.rs: evaluate (Comparison)"]}
{"id": "C44", "title": "Concatenation joins the operand texts", "statement": "For all operands, a & b evaluates to the quoted concatenation of the operands' texts with quote characters removed; it is associative.", "quantifier": "every operand text", "why_tests_cant": "Unbounded strings.", "anchors": ["src/testing/test.rs: evaluate (Concatenation)"]}
{"id": "C45", "title": "A variable reads back as the value it was set to", "statement": "For every calculation result v, after set_variable(x, calculation) the expression x evaluates to v.", "quantifier": "every value", "why_tests_cant": "All calculation results, including the boolean and error texts.", "anchors": ["src/testing/test.rs: step (SetVariable), get_operand_val, evaluate"]}
{"id": "C46", "title": "A field reference reads the field of the named occurrence", "statement": "For every state, the expression T::f evaluates to the value of field f in the current record of occurrence T.", "quantifier": "every state and occurrence", "why_tests_cant": "All current-layout/occurrence combinations.", "anchors": ["src/testing/test.rs: get_operand_val", "src/testing/database.rs: get_found_set_record_field"]}
{"id": "C47", "title": "A test fails iff an executed assertion evaluates to false", "statement": "For every test script and state, running the test ends in the Fail state iff some assert step that was executed evaluated to 'false'; a failed assert is the last step executed.", "quantifier": "every script, state and run length", "why_tests_cant": "All scripts and runs.", "anchors": ["src/testing/test.rs: step (Assert), run_tests, run_tests_with_cleanup"]}
{"id": "C48", "title": "Test verdicts are independent", "statement": "The verdict of a test does not depend on which tests ran before it in the same run.", "quantifier": "every list of tests", "why_tests_cant": "All test orders.", "anchors": ["src/testing/test.rs: run_tests, run_tests_with_cleanup, load_test"]}
{"id": "C49", "title": "Each script invocation starts without variables", "statement": "For every script invocation (by a test or by perform_script), no variable set by an earlier, finished invocation is visible.", "quantifier": "every call history", "why_tests_cant": "All call histories.", "anchors": ["src/testing/test.rs: load_test, step (PerformScript, SetVariable), get_operand_val"]}
{"id": "C50", "title": "if / elif / else runs exactly the first branch whose condition holds", "statement": "For every if-chain with any number of elif branches and optional else, exactly the body of the first branch whose condition evaluates to 'true' (or the else body if none does) is executed, then control continues after the chain.", "quantifier": "every chain, body and state", "why_tests_cant": "Unbounded chains and bodies, any nesting.", "anchors": ["src/testing/test.rs: step (If, ElseIf, Else, EndIf), branch_taken"]}
{"id": "C51", "title": "Loops repeat their body until exit_loop_if holds", "statement": "For every loop, the body is executed repeatedly from its start; when exit_loop_if's condition evaluates to 'true' control continues right after the loop it is in.", "quantifier": "every loop body, nesting and iteration count", "why_tests_cant": "Unbounded iteration.", "anchors": ["src/testing/test.rs: step (Loop, EndLoop, ExitLoopIf), loop_scopes"]}
{"id": "C52", "title": "Structured scripts run as written", "statement": "For every script built from straight-line steps, if-chains and loops, the virtual machine's step-by-step execution of the compiled instruction list produces the same final data, variables and verdict as executing the structured script directly.", "quantifier": "every structured script, state and run", "why_tests_cant": "Semantic preservation over unbounded programs and runs.", "anchors": ["src/burn_script/parser.rs: Parser::parse", "src/testing/test.rs: step"]}
{"id": "C53", "title": "perform_script of a missing script does not hang the run", "statement": "perform_script with a name that matches no script leaves the caller able to continue.", "quantifier": "every state and name", "why_tests_cant": "Non-termination cannot be tested.", "anchors": ["src/testing/test.rs: step (PerformScript)"]}
{"id": "C54", "title": "exit_script ends the script", "statement": "After an exit_script step no later step of the same script invocation is executed.", "quantifier": "every script and state", "why_tests_cant": "All scripts.", "anchors": ["src/testing/test.rs: step", "src/fm_script_engine/fm_script_engine_instructions.rs: FromStr", "README.md"]}
{"id": "C55", "title": "Calls return to the step after the call with the caller's variables intact", "statement": "For every found script, perform_script runs its steps and then resumes the caller at the following step; the callee cannot modify the caller's variables.", "quantifier": "every caller, callee and state", "why_tests_cant": "All call trees.", "anchors": ["src/testing/test.rs: step (PerformScript, SetVariable, popping)"]}
{"id": "C56", "title": "Structured burn scripts compile to balanced instruction lists", "statement": "For every structured script (steps, loop blocks, if/elif/else chains nested to any depth) the script parser returns one script with that name, those arguments and exactly the flattened instruction list in which every block is closed by its own End If / End Loop.", "quantifier": "every structured script", "why_tests_cant": "Arbitrary nesting depth.", "anchors": ["src/burn_script/parser.rs: Parser::parse"]}
{"id": "C57", "title": "Step arguments are split at top-level commas only", "statement": "For every step call whose argument texts have balanced parentheses, the script lexer yields exactly the written arguments, in order.", "quantifier": "every argument list", "why_tests_cant": "Unbounded argument texts.", "anchors": ["src/burn_script/lexer.rs: get_tokens ('(' arm)"]}
{"id": "C58", "title": "Unknown script steps are not silently lost", "statement": "For every script containing a step whose name is not a known instruction, compilation reports an error instead of producing a script without that step.", "quantifier": "every script and step name", "why_tests_cant": "All scripts and names.", "anchors": ["src/burn_script/parser.rs: Parser::parse", "src/fm_script_engine/fm_script_engine_instructions.rs: FromStr"]}
{"id": "C59", "title": "Every declared table, value list, occurrence, script and test is kept, in order", "statement": "For every program made of such declarations, the compiled file contains each declared table under ids 1,2,... in order (likewise value lists and scripts), occurrences under 0,1,..., and tests in order.", "quantifier": "every program", "why_tests_cant": "Unbounded programs.", "anchors": ["src/compile/parser.rs: parse_program", "src/file.rs: FmpFile"]}
{"id": "C60", "title": "Every declared relationship is kept", "statement": "For every program, each relationship declaration is present in the compiled file.", "quantifier": "every program", "why_tests_cant": "Unbounded programs.", "anchors": ["src/compile/parser.rs: parse_program (Relationship arm)"]}
{"id": "C61", "title": "Merging several input files keeps all their components", "statement": "For every list of input files on the command line, the merged file contains every table of every file.", "quantifier": "every list of files", "why_tests_cant": "Unbounded lists.", "anchors": ["src/main.rs: main"]}
{"id": "C62", "title": "Deleting a record deletes that record only", "statement": "For every table and record id, Table::delete_record removes that record from every field and nothing else.", "quantifier": "every table and id", "why_tests_cant": "All tables.", "anchors": ["src/testing/database.rs: Table::delete_record"]}
{"id": "C63", "title": "Integers in the file are read big-endian", "statement": "For every byte sequence, reading an integer gives the value of the bytes in base 256, most significant byte first, for every supported width.", "quantifier": "every byte sequence of a supported width", "why_tests_cant": "All byte sequences.", "anchors": ["src/encoding_util.rs: get_int"]}
{"id": "C64", "title": "Every chunk is decoded to the content the format assigns to its bytes", "statement": "For every sequence of chunks laid out as the file format prescribes, decoding the bytes gives exactly those chunks: kind, path key, payload slice and length of each, in order, with nothing skipped and nothing read twice.", "quantifier": "every chunk of every supported opcode with every payload, every sequence of chunks, every context before and after", "why_tests_cant": "Unbounded payloads and sequences.", "anchors": ["src/chunk.rs: get_chunk_from_code", "src/decompile/decompiler.rs"]}
{"id": "C65", "title": "At every point of every test run the database is valid", "statement": "Whatever tests and scripts are run on a generated file, at every point of the run the database is one reached from the generated one by create, set, find, show-all, navigation and layout operations; every script step performs at most one such operation, of the kind its name says. Hence tables stay rectangular and found sets valid throughout.", "quantifier": "every file, every list of tests, every script, every point of the run", "why_tests_cant": "Unbounded runs of arbitrary scripts.", "anchors": ["src/testing/test.rs: step, run_tests", "src/testing/database.rs"]}
{"id": "C66", "title": "Only set_field and new_record change data, and only as they say", "statement": "A step other than set_field and new_record_request changes no cell of any table. set_field in browse mode changes exactly one cell, the named field of the current record of the named occurrence, to the value of the calculation; in find mode it changes none. new_record_request adds one blank record to the current table and changes nothing else. Tests without these steps leave all data as it is.", "quantifier": "every state, script, step, test list and calculation", "why_tests_cant": "All states and unbounded runs.", "anchors": ["src/testing/test.rs: step", "src/testing/database.rs: Database::get_current_record_by_table_field_mut, create_record"]}
{"id": "C67", "title": "A missing closing brace is reported", "statement": "For every sequence of script definitions in which a closing brace is missing, compilation reports an error; no definition is read as part of another.", "quantifier": "every pair of scripts, every block", "why_tests_cant": "Unbounded programs.", "anchors": ["src/burn_script/parser.rs: Parser::parse"]}
{"id": "C68", "title": "Declared fields are in the compiled tables", "statement": "For every program, each field declared in a table is a field of that table in the compiled file.", "quantifier": "every program, every table, every field", "why_tests_cant": "Unbounded programs.", "anchors": ["src/compile/parser.rs: parse_program (Table arm)", "doc/burn_spec.md"]}
{"id": "C69", "title": "The contents of value lists and relationships are kept", "statement": "For every program, the values of each value list and the join criterion of each relationship are in the compiled file.", "quantifier": "every program", "why_tests_cant": "Unbounded programs.", "anchors": ["src/compile/parser.rs: parse_program (ValueList, Relationship arms)"]}
{"id": "C70", "title": "Compiled occurrences refer to the table they name", "statement": "For every program, each declared occurrence refers in the compiled file to the table whose name it gives.", "quantifier": "every program, every occurrence", "why_tests_cant": "Unbounded programs.", "anchors": ["src/compile/parser.rs: parse_program (TableOccurence arm)", "src/testing/database.rs: generate_from_fmp12"]}
{"id": "C71", "title": "An unterminated declaration is reported", "statement": "For every program whose last declaration lacks its end, compilation reports an error.", "quantifier": "every program, every unterminated declaration", "why_tests_cant": "Unbounded programs.", "anchors": ["src/compile/parser.rs: parse_program"]}
{"id": "C72", "title": "Every compiled program can be tested", "statement": "For every program, compilation succeeds and the test environment of the compiled file can be generated without a panic; running its tests gives the verdicts of executing the scripts as written.", "quantifier": "every program, every calculator", "why_tests_cant": "Unbounded programs.", "anchors": ["src/compile/compiler.rs: compile_burn", "src/testing/test.rs: generate_test_environment, run_tests"]}
{"id": "C73", "title": "Occurrences and relationships of a file are recovered", "statement": "For every file that describes table occurrences and mutual links between them, decompiling it gives exactly these occurrences, numbered from 1 in file order, with their names and tables, and exactly one relationship between two occurrences if they are linked, none otherwise.", "quantifier": "every file, every set of occurrences and links, whatever else the file contains", "why_tests_cant": "Unbounded graphs; the code looks up existing relationships while it adds new ones.", "anchors": ["src/decompile/decompiler.rs: decompile_fmp12_file (relationship and occurrence arms)"]}
{"id": "C74", "title": "The criterion of a relationship is the one stored for it", "statement": "For every file, the comparison and the two fields of each relationship in the result are those of the last criterion stored under the number of the relationship.", "quantifier": "every file, every relationship, every list of criteria", "why_tests_cant": "Unbounded lists of criteria.", "anchors": ["src/decompile/decompiler.rs: decompile_fmp12_file (join arm)"]}
{"id": "C75", "title": "Layouts of a file are recovered", "statement": "For every file that stores layouts, decompiling it gives exactly these layouts with their names and occurrences.", "quantifier": "every file, every list of layouts, every other content of their directories", "why_tests_cant": "The result depends on everything stored in the directories of the layouts.", "anchors": ["src/decompile/decompiler.rs: decompile_fmp12_file (layout arm)"]}
{"id": "C76", "title": "Steps of a script are recovered whichever way its code is stored", "statement": "For every file and every script stored in it, inline, as a long piece of data or in segments, the decompiled script has exactly the stored steps, in order, and calls name the script that is called.", "quantifier": "every file, every script, every form of storage", "why_tests_cant": "Unbounded scripts; three storage forms are read by three pieces of code.", "anchors": ["src/decompile/decompiler.rs: decompile_fmp12_file (script arms)"]}
{"id": "C77", "title": "Parameters of steps are recovered", "statement": "For every file, each parameter stored for a step appears in this step, in order, and in no other step.", "quantifier": "every file, every script, every list of parameters", "why_tests_cant": "Unbounded; parameters are stored apart from the steps and attached later.", "anchors": ["src/decompile/decompiler.rs: decompile_fmp12_file (step expression, name and value arms)"]}
{"id": "C78", "title": "A complete file is recovered", "statement": "For every file that describes tables, fields, occurrences, relationships, layouts, scripts and external data sources, decompiling it succeeds and gives exactly these.", "quantifier": "every file, every description", "why_tests_cant": "Unbounded; everything is read in one loop over shared state.", "anchors": ["src/decompile/decompiler.rs: decompile_fmp12_file"]}
{"id": "C79", "title": "The order of the parts of a file does not matter", "statement": "For every two files that contain the same directories in different orders, decompiling gives the same result.", "quantifier": "all pairs of files that differ in the order of their directories", "why_tests_cant": "Unbounded permutations.", "anchors": ["src/decompile/decompiler.rs: decompile_fmp12_file"]}
{"id": "C80", "title": "Compiling writes one file per input, named after it", "statement": "For every list of input files, if the compiler ends then every name ended in .burn, and one .fmp12 file per input was written, in order, with the same base name, containing the assembled components of that input and the ones before it.", "quantifier": "every list of input files, every -t list, with and without testing", "why_tests_cant": "Unbounded lists; the program is only ever tried on single files.", "anchors": ["src/main.rs: main", "src/compile/assembler.rs: assemble_fmp12, emit_assembly"]}
{"id": "C81", "title": "Every test runs exactly once", "statement": "For every list of input files and -t files, each test is run exactly once.", "quantifier": "every list of input files", "why_tests_cant": "Unbounded lists; depends on accumulated state across files.", "anchors": ["src/main.rs: main", "src/testing/test.rs: run_tests_with_cleanup"]}
{"id": "C82", "title": "A failing input does not affect the outputs of the inputs before it", "statement": "For every list of input files and every point where the program stops, the actions for the earlier inputs are those of a run on them alone, the failing input writes nothing, and nothing is done for later ones.", "quantifier": "every list of input files, every point of failure", "why_tests_cant": "Every failure point of every input.", "anchors": ["src/main.rs: main"]}
{"id": "C83", "title": "--no-testing runs no tests and changes nothing else", "statement": "For all inputs, with --no-testing no test is run; and if the run with testing ends, the one without ends with the same outputs.", "quantifier": "every command line", "why_tests_cant": "Unbounded inputs.", "anchors": ["src/main.rs: main", "src/cli.rs: CLI"]}
{"id": "C84", "title": "Given tests run once per decompiled file", "statement": "For every list of decompiled files the tests given with -t, and no others, run once after each file, on the components read so far; nothing is written.", "quantifier": "every list of files and tests", "why_tests_cant": "Unbounded lists; needs that no decompiled file brings tests.", "anchors": ["src/main.rs: main", "src/decompile/decompiler.rs: decompile_fmp12_file"]}
{"id": "C85", "title": "Exactly the schemas that fit one sector are assembled", "statement": "For every schema with table numbers below 256 and names short enough for a one-byte length, assembling succeeds if and only if the file name has at most 1012 bytes and tables and occurrences take at most 3249 bytes.", "quantifier": "every schema in range; every written program", "why_tests_cant": "The boundary depends on sums over unbounded lists.", "anchors": ["src/compile/assembler.rs: assemble_fmp12, append_blank_chunk"]}
{"id": "C86", "title": "The exit flag of go_to_record leaves the loop exactly when it is on and there is nowhere to go", "statement": "Inside a loop, go_to_record(target, flag) moves to the target; the loop is left if and only if the flag's value is not 'false', '' or '0' and the current record did not change; otherwise the next step follows.", "quantifier": "every loop, state, target and flag", "why_tests_cant": "All states, flags and loop bodies.", "anchors": ["src/testing/test.rs: step (GoToRecordRequestPage)"]}
{"id": "C87", "title": "A test must have exactly one script", "statement": "A program with a test whose script block defines no script or more than one is not compiled, whatever comes before or after the test.", "quantifier": "every program", "why_tests_cant": "All programs around the faulty test.", "anchors": ["src/compile/parser.rs: parse", "src/compile/compiler.rs: compile_burn"]}
{"id": "C88", "title": "A run with cleanup leaves no records", "statement": "Running tests with cleanup gives the same verdicts as without; afterwards no field of any table has a record, and tables and fields are unchanged.", "quantifier": "every list of tests and state", "why_tests_cant": "All tests and states.", "anchors": ["src/testing/test.rs: run_tests_with_cleanup", "src/testing/database.rs: clear_records"]}
{"id": "C89", "title": "Scripts without loops, recursion and missing callees end", "statement": "If no script that a test reaches contains a loop, every script it calls exists, and calls never lead back to a script already being called, then running the test ends: it passes, fails or panics, for every state and every value of its calculations.", "quantifier": "every test, every set of scripts, every database state", "why_tests_cant": "Termination over unbounded script lengths, call depths and states.", "anchors": ["src/testing/test.rs: run_tests, step (PerformScript, If, Else, ElseIf, EndIf)"]}
{"id": "C90", "title": "Compiling the same schema twice gives the same file", "statement": "Two runs of the compiler on the same program write the same bytes, whatever order the maps of tables and occurrences are visited in.", "quantifier": "every schema and every two visiting orders of its maps", "why_tests_cant": "The visiting order of a HashMap is chosen at random per process; a test sees one of them.", "anchors": ["src/compile/assembler.rs: assemble_fmp12"]}
{"id": "C91", "title": "Which script a call runs does not depend on the order of the script map", "statement": "A test gives the same result for every visiting order of the map of scripts.", "quantifier": "every file, every test, every two visiting orders", "why_tests_cant": "Visiting orders of a HashMap are random per process.", "anchors": ["src/testing/test.rs: step (PerformScript)"]}
{"id": "C92", "title": "Reading through several relationships follows chains of related records", "statement": "Reading a field of an occurrence several relationships away gives the field of the last record of the first chain of records, each related to the next, that starts with the current record; it is an error exactly if there is no such chain.", "quantifier": "every schema, every reachable state, every path length", "why_tests_cant": "All schemas, histories and path lengths.", "anchors": ["src/testing/database.rs: get_related_record_field"]}
{"id": "C93", "title": "A file that was cut off gives the same result or none", "statement": "If a file was cut off at any byte, decompiling what is left fails or gives the same result as the whole file; bytes appended after the last sector never change the result; a file that ends before the header of its second sector is rejected.", "quantifier": "every file, every cut position, every appended tail", "why_tests_cant": "All files and all cut positions.", "anchors": ["src/decompile/decompiler.rs: decompile_fmp12_file", "src/decompile/sector.rs: get_sector", "src/chunk.rs: get_chunk_from_code"]}
{"id": "C94", "title": "A file without the format's signature is rejected", "statement": "Decompiling a file whose first sector does not carry the signature of the file format fails.", "quantifier": "every file", "why_tests_cant": "All files.", "anchors": ["src/decompile/decompiler.rs: decompile_fmp12_file"]}
{"id": "C95", "title": "External data sources of a file are recovered", "statement": "For every file that describes external data sources, decompiling it gives exactly these data sources under their numbers, each with its own name, kind, path, file name and user.", "quantifier": "every file, every list of data sources, whatever else the file contains", "why_tests_cant": "Names are stored apart from the other properties and matched by position; paths are rewritten byte by byte; unbounded lists and all texts.", "anchors": ["src/decompile/decompiler.rs: decompile_fmp12_file (data source arms)", "src/component.rs: SourceFileLocation::from_bytes"]}
{"id": "C96", "title": "Where the content of a file is placed does not matter", "statement": "Two files that hold the same chunks in the same order decompile to the same result, or both fail, whatever sectors the chunks are stored in, however they are divided into sectors, and whatever else the two files contain.", "quantifier": "all pairs of files with the same chunks", "why_tests_cant": "All placements of all contents.", "anchors": ["src/decompile/decompiler.rs: decompile_fmp12_file", "src/decompile/sector.rs: get_sector"]}
{"id": "C97", "title": "Comparisons of texts are a total order", "statement": "For all expressions x and y that have values, exactly one of x < y, x == y and x > y is true; <= and >= are the opposites of > and <; < is transitive; and the order is that of the bytes of the values.", "quantifier": "all expressions, all values, every state", "why_tests_cant": "All pairs and triples of texts, all Unicode characters.", "anchors": ["src/testing/test.rs: evaluate (Comparison)"]}
{"id": "C98", "title": "Built-in functions compute what their names say", "statement": "In every calculation, Min is the least of its arguments, Char the character with the given number, Asin the arc sine, Get the requested property, and a call of a function that does not exist is reported.", "quantifier": "all arguments, every number of arguments, every state", "why_tests_cant": "All argument lists and all values.", "anchors": ["src/testing/test.rs: evaluate (Call)", "src/testing/calc_eval.rs: parse"]}
{"id": "C99", "title": "The only assertions of a test are the steps of its script", "statement": "Whatever a program contains, no test of the compiled file has a list of assertions beside its script.", "quantifier": "every text that compiles", "why_tests_cant": "All texts.", "anchors": ["src/compile/lexer.rs: tokenize", "src/compile/parser.rs: parse_program"]}
{"id": "C100", "title": "Programs in the documented syntax are compiled and others are reported", "statement": "Every declaration of the language description is accepted, and a text in which something else stands in the place of a declaration is rejected, whatever comes before and after.", "quantifier": "every program, every continuation", "why_tests_cant": "All texts and all positions.", "anchors": ["doc/burn_spec.md", "src/compile/parser.rs: parse_program", "src/compile/compiler.rs: compile_burn"]}
{"id": "C101", "title": "White space between the tokens of a program does not matter", "statement": "Two texts that differ only in the white space between tokens compile to the same file or are both rejected.", "quantifier": "all pairs of texts with the same tokens", "why_tests_cant": "All texts and all layouts.", "anchors": ["src/compile/lexer.rs: tokenize", "src/burn_script/lexer.rs: get_tokens"]}
{"id": "C102", "title": "Content that is not understood is rejected, not skipped", "statement": "A byte that is not an opcode of the format is reported as an invalid opcode and is never decoded as a chunk; a file gives a result only if every sector in use was read from its first chunk to its end and everything the reader came to began a chunk.", "quantifier": "all byte buffers, offsets, directories, block starts and build profiles; all files, with any content before and after the unknown byte", "why_tests_cant": "There are 180 unknown byte values, any number of chunks can come before them, and the claim is about the absence of results.", "anchors": ["src/chunk.rs: get_chunk_from_code", "src/decompile/decompiler.rs: decompile_fmp12_file"]}
{"id": "C103", "title": "A loop that counts makes exactly as many rounds as it counts to", "statement": "set_variable(i, 0) loop { exit_loop_if(i == n) steps set_variable(i, i + 1) } executes the steps exactly n times, with i = 0, 1, ..., n - 1, and continues after the loop with i = n; with new_record_request() as the steps it creates exactly n blank records. The same holds with i >= n as the condition.", "quantifier": "all n up to 2^53, all variable names, all steps without control flow that do not set i, all places in a script, all states of the interpreter, both build profiles", "why_tests_cant": "A test runs the loop for a few n. The claim is about every n and every body, and needs the interpreter, the lexer, parser and evaluator of calculations and the number format together.", "anchors": ["src/testing/test.rs: TestEnvironment::step (SetVariable, Loop, ExitLoopIf, EndLoop, NewRecordRequest), eval_calculation", "src/testing/database.rs: create_record"]}
{"id": "C104", "title": "What a test writes it can check", "statement": "After set_field(occ::f, \"s\") the step assert(occ::f == \"t\") passes if s and t are the same text and fails the test if they are not; the same for set_variable(i, \"s\") and assert(i == \"t\").", "quantifier": "all texts s and t without quotes and with a letter or digit, all occurrences with a current record, all fields and variables, all places in a script, all valid database states", "why_tests_cant": "It must hold for every pair of texts and every state of the database, and the values pass through the calculation lexer, the store and the evaluator.", "anchors": ["src/testing/test.rs: TestEnvironment::step (SetField, SetVariable, Assert), eval_calculation, get_operand_val", "src/testing/database.rs: get_current_record_by_table_field_mut, get_found_set_record_field"]}
{"id": "C105", "title": "The ways to read a record agree", "statement": "All functions of the test database that read a field of the current record give the same value: the one that is stored there; reading by record number gives the value of that record; a table is found by its name.", "quantifier": "all databases, occurrences, fields, records and values", "why_tests_cant": "There are six readers with different treatment of missing records and fields; that they agree is a statement about all states.", "anchors": ["src/testing/database.rs: get_found_set_record_field, get_current_record_field, get_record_by_field, get_current_record_by_table_field, get_field_vals_for_current_table, get_table"]}
{"id": "C106", "title": "Every invocation has one outcome", "statement": "For the same build, arguments and input files, two runs of the program that end have done the same things in the same order and end with the same result or panic; a run that does not end never takes back what it has shown or written.", "quantifier": "all command lines, input files and limits on time", "why_tests_cant": "Determinism and independence of running time are statements about all pairs of runs.", "anchors": ["src/main.rs: main", "src/testing/test.rs: run_tests_with_cleanup, step, eval_calculation", "src/decompile/decompiler.rs: decompile_fmp12_file"]}
{"id": "C107", "title": "The release build does what the debug build does", "statement": "On every invocation on which arithmetic does not overflow in the debug build, the release build shows the same verdicts, writes the same files and ends in the same way, also with the same panic; if one overflows, the release build has done the same up to this point.", "quantifier": "all command lines and input files", "why_tests_cant": "Tests are run in one of the builds only, and on few inputs.", "anchors": ["src/main.rs: main", "src/encoding_util.rs: put_int", "src/testing/database.rs: goto_record, goto_next_record, goto_last_record", "src/compile/assembler.rs", "src/decompile/decompiler.rs"]}
{"id": "C108", "title": "White space between the words of a calculation does not matter", "statement": "A calculation has the same value however much white space stands between its names, numbers, strings and operators, as long as neighbouring names and numbers stay apart.", "quantifier": "all calculations and all ways to lay them out", "why_tests_cant": "There are infinitely many layouts of infinitely many calculations; tests use one layout of a few.", "anchors": ["src/testing/calc_tokens.rs: lex", "src/testing/test.rs: eval_calculation"]}
{"id": "C109", "title": "A text that is not a calculation is reported", "statement": "A text that is not of the form of a calculation has no value: the program reports it instead of evaluating a part of it.", "quantifier": "all texts", "why_tests_cant": "The malformed texts are infinitely many; that none gets a value is a statement about all of them.", "anchors": ["src/testing/calc_eval.rs: parse, parse_comparison, parse_factor", "src/testing/test.rs: eval_calculation"]}
{"id": "C110", "title": "Every file the decompiler accepts is in the documented format", "statement": "A file that the decompiler turns into a schema consists of chunks of the documented byte format, in every sector of its chain, and the schema is a function of those chunks: every other file with the same chunks gives the same schema.", "quantifier": "all byte files, both builds", "why_tests_cant": "The accepted files are not enumerable by example; the claim excludes every accepted byte sequence outside the format.", "anchors": ["src/decompile/decompiler.rs: get_chunk, decompile_fmp12_file", "src/decompile/sector.rs: get_sector"]}
{"id": "C111", "title": "Where content is cut into sectors does not matter", "statement": "If the content of a file does not fit into a sector, it is continued in the next one, which enters the open directories again. The decompiled schema does not depend on where these cuts are.", "quantifier": "all files, any number of cuts at any places, both builds", "why_tests_cant": "The cut positions and directories are unbounded; a test shows one cut in one directory.", "anchors": ["src/decompile/decompiler.rs: decompile_fmp12_file, get_chunk", "src/decompile/sector.rs: get_sector"]}
{"id": "C112", "title": "Occurrences and relationships keep the numbers under which the file stores them", "statement": "A file stores every table occurrence under a number, and every link names the number of the other occurrence and of the relationship. In the decompiled schema each occurrence and each relationship has the number that the file gives it, so that links and criteria refer to what they were made for.", "quantifier": "all files with any number of occurrences, links and criteria, both builds", "why_tests_cant": "The numbers in files have gaps and any order; a test shows one file.", "anchors": ["src/decompile/decompiler.rs: decompile_fmp12_file (paths [3].[17].[5] and [3].[251].[5])", "src/testing/database.rs: Database::generate_from_fmp12"]}
{"id": "C113", "title": "A run prints its dialogs in order and names the assertion it failed at", "statement": "While tests run, every dialog that is executed prints the value of its calculation once, in the order of execution. A failed assertion prints its calculation, and this is the last thing printed: a report has at most one such message, and has one exactly if some test has the verdict Fail. No other step prints such a message, and nothing printed is lost or repeated.", "quantifier": "all scripts, tests, databases, calculations and lengths of runs that do not crash, both builds", "why_tests_cant": "Which dialogs are reached depends on loops, branches and calls; a test sees the output of one run.", "anchors": ["src/testing/test.rs: TestEnvironment::step (ShowCustomDialog, Assert)", "src/testing/test.rs: TestEnvironment::run_tests"]}
{"id": "C114", "title": "Every part of a decompiled schema is what the file says about it", "statement": "Whatever a file in the format contains, in whatever order, if it decompiles then each component is determined by the chunks about it: a layout has the last name and occurrence given since its directory was last entered, a script the last name given to it, a table occurrence its table and the last name given before the next one, a relationship its two occurrences and the last criterion given after it, a table the last name and the fields given since its directory was last entered, a field what was given since its own directory was, and a data source the name it took and the location and user given since. A component about which nothing is said does not exist.", "quantifier": "all files in the format that decompile, all orders and repetitions of chunks, all components, both builds", "why_tests_cant": "The tests read one tidy file; repetitions, interleavings and missing parts are unlimited.", "anchors": ["src/decompile/decompiler.rs: decompile_fmp12_file"]}
{"id": "C115", "title": "The JSON files are valid JSON and show everything", "statement": "For each input file the program writes a JSON file before it tests or assembles anything. Its text is JSON as RFC 8259 defines it, whatever characters the names contain. It can be read in one way only, and reading it gives back the whole file: every table with its fields, relationship, layout, value list, script with its steps, occurrence, data source and test. The compiler shows the components of all input files so far, the decompiler those of the current one. Writing it changes neither the verdicts nor the database files.", "quantifier": "all files and all texts in them, all input files, all arguments, all orders in which maps are visited, both builds", "why_tests_cant": "The contents of names are unlimited, and no test reads the JSON files.", "anchors": ["src/main.rs: main", "src/component.rs", "src/file.rs: FmpFile"]}
{"id": "C116", "title": "The JSON of the same input is the same in every run", "statement": "Running the program twice on the same input writes the same JSON files, so that versions can be compared with a version control system.", "quantifier": "all input files, all arguments, all pairs of runs, both builds", "why_tests_cant": "The order in which a hash map is visited is chosen anew in every run.", "anchors": ["src/main.rs: main", "src/file.rs: FmpFile"]}
{"id": "C117", "title": "Compiling and decompiling do not need a prepared directory", "statement": "The program compiles, tests and decompiles its input files in any directory in which it may write.", "quantifier": "all input files, all arguments, all directories, both builds", "why_tests_cant": "The tests do not run the program, and a developer's directory has been prepared.", "anchors": ["src/main.rs: main"]}
{"id": "C118", "title": "--print-header only copies the input", "statement": "With --print-header the program does exactly what it does without it, and besides writes the unchanged bytes of each input file of the decompiler to header.log. When compiling the option does nothing.", "quantifier": "all arguments, all input files, runs that end or panic, both builds", "why_tests_cant": "Every input file and every way to stop must be covered; no test uses the option.", "anchors": ["src/decompile/decompiler.rs: decompile_fmp12_file_with_header", "src/main.rs: main"]}
{"id": "C119", "title": "Every decompiled file can be inspected afterwards", "statement": "After the decompiler has ended, there is for each of its input files a JSON file that shows what was found in it.", "quantifier": "all lists of input files, both builds", "why_tests_cant": "The number of input files and their contents are unlimited.", "anchors": ["src/main.rs: main"]}
{"id": "C120", "title": "Without a warning nothing in a script is lost", "statement": "If compiling the text of scripts prints no warning on the error output, the compiled scripts have everything that is written in the text: every definition with its name and parameters, every step and block with its arguments, in order, and nothing else but the ends of blocks. A well-formed program prints no warning.", "quantifier": "every text of scripts and every program", "why_tests_cant": "Any text may be given; a warning must be there exactly when something was not understood.", "anchors": ["src/burn_script/parser.rs: Parser::parse (eprintln)", "src/compile/compiler.rs: compile_burn"]}
{"id": "C121", "title": "The output of a test run shows which scripts are active", "statement": "A test run prints a line when a script is called and one when a script ends. At any moment, and also when the run crashes, the scripts that have been called and have not ended according to the output are exactly the active ones, in the order in which they called each other. In the output of a test that passes every call is closed by the end of the same script, and the script of the test ends last.", "quantifier": "all scripts and tests, all states, every step of every run, every crash", "why_tests_cant": "The moment of a crash and the nesting of calls are arbitrary.", "anchors": ["src/testing/test.rs: TestEnvironment::step, run_tests_with_cleanup (println, eprintln)"]}
{"id": "C122", "title": "Every executed step that is not implemented is reported", "statement": "When a test run executes a step that the test runner has no implementation for, it prints the name of the step. All such steps are named, in the order of execution, and no others; a crash does not lose any, and never happens at such a step. Of the steps that can be written in a program exit_script is the only one.", "quantifier": "all scripts and tests, all states, every run, every crash", "why_tests_cant": "Scripts from decompiled files have any of about two hundred steps, in any order.", "anchors": ["src/testing/test.rs: TestEnvironment::step, run_tests_with_cleanup (println, eprintln)", "src/fm_script_engine/fm_script_engine_instructions.rs: Instruction::from_str"]}
{"id": "C123", "title": "A crash of a test run can be located from its output", "statement": "Before a test is run its name is printed, after it its verdict. If the run of several tests crashes or does not end, the output has the names and verdicts of all tests before, in order, and then the name of the test it happened in, and no other name or verdict; the dialogs shown before the crash are in the output too. If all tests end, the output has the name and the verdict of every test.", "quantifier": "all lists of tests, all scripts, all states, every crash", "why_tests_cant": "The test that crashes, and the moment, are arbitrary.", "anchors": ["src/testing/test.rs: TestEnvironment::step, run_tests_with_cleanup (println, eprintln)"]}
{"id": "C124", "title": "Blocks that are not terminated correctly are reported", "statement": "The test runner prints the warning to check that loop and if blocks are terminated correctly exactly if a script has blocks that are not terminated correctly.", "quantifier": "all scripts and tests, every run", "why_tests_cant": "Blocks can be nested in any way.", "anchors": ["src/testing/test.rs: TestEnvironment::step, run_tests_with_cleanup (println, eprintln)"]}
{"id": "C125", "title": "What is seen of a run is complete and in order, also if the program stops", "statement": "Whatever happens, the user sees first the warnings about the files given with -t; then for one input file after the other: the warnings about it, its JSON file, for every test its name and its verdict, and its database file. If the program stops at an input file, everything before is there in full, of this input file the same up to the point where it stopped, and nothing after it. A database file is written only after the verdicts of all its tests were shown. For the decompiler the same holds with header.log in place of the warnings and without the database file.", "quantifier": "all arguments, all contents of the input files, all outcomes, every crash", "why_tests_cant": "The program can stop at any input file and at any stage of it.", "anchors": ["src/main.rs: main", "src/compile/compiler.rs: compile_burn", "src/testing/test.rs: run_tests_with_cleanup", "src/compile/assembler.rs: emit_assembly"]}
{"id": "C126", "title": "A calculation names every undefined variable it uses", "statement": "While a calculation is evaluated, every variable it reads that has no value is named in a warning, and only such names are. A calculation without warnings gives the same result whatever other variables are set; in general, setting variables that the warnings do not name changes neither the result nor the warnings.", "quantifier": "every calculation text, every state, every set of additional variables, also if the evaluation crashes", "why_tests_cant": "The calculations, the states and the additional variables are unbounded.", "anchors": ["src/testing/test.rs: eval_calculation, get_operand_val, evaluate"]}
{"id": "C127", "title": "A warning about an unknown variable names a variable of the calculation", "statement": "If a calculation warns of an unknown variable, a variable of that name is written in the calculation.", "quantifier": "every calculation and every state", "why_tests_cant": "Values of variables and intermediate results are looked up as names too.", "anchors": ["src/testing/test.rs: eval_calculation, get_operand_val, evaluate"]}
{"id": "C128", "title": "Arithmetic on something that is not a number is reported", "statement": "A calculation warns of operands that are not numbers exactly if one of its arithmetic operations has such an operand; the operation then gives 'undefined', otherwise the result of the operation on the two numbers.", "quantifier": "every expression without function calls that can be evaluated, every state", "why_tests_cant": "Unbounded expressions, states and values.", "anchors": ["src/testing/test.rs: eval_calculation, get_operand_val, evaluate"]}
{"id": "C129", "title": "A colon that is not part of a pair is reported", "statement": "A calculation that contains a single colon outside of text literals is reported for it; one without colons never is.", "quantifier": "every calculation text", "why_tests_cant": "Unbounded texts.", "anchors": ["src/testing/test.rs: eval_calculation, get_operand_val, evaluate"]}
{"id": "C130", "title": "Variables of earlier tests matter only to tests that warn", "statement": "A test that, run alone, names no variable in an \"Unknown variable\" warning that an earlier test has set runs after that test as it runs alone: same verdict, same warnings, same messages, same data and mode at its end. A list of passing tests that leave data and mode as they were, and of which none warns of a variable another one sets, gets the verdicts and warnings the tests get alone. Tests without steps that change data, found sets, layout or mode are of this kind.", "quantifier": "every list of tests, every set of scripts, every state, every calculator that reports as C126 says", "why_tests_cant": "The tests, their order and the left-over variables are unbounded.", "anchors": ["src/testing/test.rs: run_tests, load_test, step, eval_calculation, get_operand_val"]}
{"id": "C131", "title": "A stored calculation evaluates to what it stands for", "statement": "A calculation that a database file stores as bytecode evaluates, when the decompiled script runs, to the value of the expression the bytecode stands for, with the usual precedence of its operators.", "quantifier": "every stored calculation, with blanks and parentheses anywhere, every state", "why_tests_cant": "The expressions and the states are unbounded; no test joins the decompiler and the calculation engine.", "anchors": ["src/decompile/decompiler.rs: decompile_calculation", "src/testing/test.rs: eval_calculation"]}
{"id": "C132", "title": "Each layout keeps its found set and current record while others are used", "statement": "While a script works on layouts of other table occurrences, the found set and the current record of an occurrence stay as they are: after going back to its layout one is on the same record of the same found set.", "quantifier": "every run of any tests and scripts, from any state, in which no step searches or navigates on a layout of the occurrence", "why_tests_cant": "It must hold for every history of steps on other layouts.", "anchors": ["src/testing/database.rs: Database::create_record, update_found_set, reset_found_set, goto_record", "src/testing/test.rs: TestEnvironment::step"]}
{"id": "C133", "title": "Tests execute the scripts of a decompiled file as they are stored", "statement": "Given a stored file and a program text with tests, the verdicts shown are those of executing the tests one after the other in the database of the file, where each called script is executed step by step as it is stored in the file, including the scripts it calls in turn.", "quantifier": "every file that describes tables, occurrences, relationships, layouts and scripts, every program text with tests, every calculator and every build", "why_tests_cant": "It ranges over all stored files, all programs and all executions, from the bytes of the file to the verdicts.", "anchors": ["src/main.rs: main", "src/decompile/decompiler.rs: decompile_fmp12_file", "src/testing/test.rs: TestEnvironment::generate_test_environment, run_tests_with_cleanup, step"]}
{"id": "C134", "title": "The decompiler says what it could not read", "statement": "When reading a file stops at a chunk with an unknown code, the code and its place are printed last, and at no other time. Each function in a calculation that the decompiler does not know is reported once. Otherwise a file that is decompiled prints one line for each table occurrence, in order, and nothing else, and printing does not change what is decompiled.", "quantifier": "every file (any bytes), every calculation, every described file, every build", "why_tests_cant": "It ranges over all files and over every place in a file where reading can stop.", "anchors": ["src/chunk.rs: Chunk::get_chunk_from_code", "src/decompile/decompiler.rs: decompile_calculation, decompile_fmp12_file"]}
{"id": "C135", "title": "A test stops without a verdict only for known reasons", "statement": "A step of a test crashes or never ends exactly in these cases: a calculation it evaluates has no value; the name of a script or layout is not a text in quotes; a loop is left that has no end; a loop ends and none was begun; a record is gone to on a layout that shows no occurrence, or, in the debug build, counted from the end of an empty found set; records are made or searched for on a layout without a table with fields; a search names something that is not a field of the table; a field is set that does not exist or whose occurrence has no current record; and an else-if after a branch that was taken has no end of the chain and the last step of the script has no value. In every other case it goes on.", "quantifier": "all schemas, scripts, tests and calculations, every state of every run, both builds", "why_tests_cant": "It ranges over all states that runs can reach, and excludes crashes for every other reason.", "anchors": ["src/testing/test.rs: TestEnvironment::step, run_tests", "src/testing/database.rs: create_record, update_found_set, goto_record, get_current_record_by_table_field_mut"]}
{"id": "C136", "title": "Every calculation has one value, crashes or runs for ever, as the language says", "statement": "The value the calculator gives an expression is the one defined by the rules of the language: numbers, texts, names looked up until a number or a text in quotes is reached, concatenation, comparison, arithmetic and the functions Abs, Acos, Asin, Char, Min and Get. It crashes exactly if the rules say so (a name that cannot be looked up, a function without its arguments, a function of numbers on something else, a character that does not exist, an order with NaN), and never ends exactly if it looks up names that lead into a circle. In a running script with a current record, where no stored text is a name, every expression without function calls has a value.", "quantifier": "every expression, however deeply nested, every state and every calculation text", "why_tests_cant": "It is an equivalence over all expressions and states, and says when evaluation never ends.", "anchors": ["src/testing/test.rs: TestEnvironment::evaluate, get_operand_val, eval_calculation"]}
{"id": "C137", "title": "The warnings of a calculation are known exactly, with their number and order", "statement": "Evaluating an expression that has a value prints, for each name it looks up that leads to a variable that is not set, one warning with that variable; then, for each arithmetic operation whose operands are not both numbers, one warning, after those of its operands; and nothing else. Operands are evaluated from left to right, then their values are looked up from left to right.", "quantifier": "every expression that has a value, every state, every text", "why_tests_cant": "The list of warnings is exact for expressions of any size in any state.", "anchors": ["src/testing/test.rs: TestEnvironment::evaluate, get_operand_val, eval_calculation"]}
{"id": "C138", "title": "What a compiled file contains is known exactly", "statement": "Reading a compiled file shows a fixed part that says which program made it, the numbers and names of the tables and occurrences, the number of tables, layouts and scripts, and nothing else. Two schemas give the same file exactly if they agree in these.", "quantifier": "every schema in range that can be compiled, every pair of such schemas, every directory of the file", "why_tests_cant": "The contents are exact for schemas of any size, and the absence of everything else in every directory is part of the claim.", "anchors": ["src/compile/assembler.rs: Assembler::assemble_fmp12, emit_init_blobs, emit_table_metadata, emit_relationship_data, emit_layout_data, emit_script_data", "src/decompile/decompiler.rs: decompile_fmp12_file"]}
{"id": "C139", "title": "The header of a compiled file names the file", "statement": "The header of a compiled file is that of the template, with the name of the file in place of the name `blank`: after `R,` come the name, a slash and the end of line.", "quantifier": "every schema that can be compiled", "why_tests_cant": "It must hold for names of every length; it holds for exactly two lengths.", "anchors": ["src/compile/assembler.rs: Assembler::assemble_fmp12", "src/compile/header.rs: HEADER_INIT"]}
{"id": "C140", "title": "What the compiler prints while it writes a file is known exactly", "statement": "While it writes a file the compiler prints a line for every directory it enters, for every table and for every long value, in the order of the file. If it stops early, it has printed the first of these lines. Printing does not change the file.", "quantifier": "every schema in range, in both builds, also those that do not fit", "why_tests_cant": "The lines are exact for schemas of any size, and also where it stops early at any point.", "anchors": ["src/compile/assembler.rs: Assembler::emit_simple_kv_e, emit_simple_kv, push_directory, emit_table_metadata, assemble_fmp12"]}
{"id": "C141", "title": "How any sequence of words is read as a calculation is known exactly", "statement": "For every sequence of words, documented or not, a complete grammar says which expression the calculation is read as, whether the program crashes, and whether it runs for ever. A sequence is read in at most one way, and what is written as documented is read as documented.", "quantifier": "every sequence of words of the calculation language", "why_tests_cant": "The sequences are unbounded, and most of them are not as documented.", "anchors": ["src/testing/calc_eval.rs: Parser::parse, parse_comparison, parse_concatenation, parse_expr, parse_term, parse_factor, parse_primary, parse_args"]}
{"id": "C142", "title": "What any calculation text means is known exactly, from its characters", "statement": "For every text, a specification says into which words it is cut, or that something in it is no word, in which case the program crashes. Together with the complete grammar of words and the rules for values this says for every text whether it has a value, and which, whether evaluating it crashes, and whether it never ends. Words written as documented are recognised as such.", "quantifier": "every text, documented as a calculation or not, every state", "why_tests_cant": "The texts are unbounded, and most of them are not as documented.", "anchors": ["src/testing/test.rs: eval_calculation, flush_buffer", "src/testing/calc_eval.rs: Parser::parse"]}
{"id": "C143", "title": "How any script text is cut into tokens is known exactly, from its characters", "statement": "For every text given as the source of scripts, a specification says into which tokens it is cut, or that its last character is one that needs another after it, in which case the program crashes. Texts written as documented are cut into the tokens they spell.", "quantifier": "every text, a documented script or not", "why_tests_cant": "The texts are unbounded, and most of them are not as documented.", "anchors": ["src/burn_script/lexer.rs: get_tokens"]}
{"id": "C144", "title": "What any script text compiles to is known exactly", "statement": "For every text given as the source of scripts, a specification says which scripts it compiles to, with their names, parameters and instructions, or for which reason compiling it crashes. Scripts written as documented compile to what they say; for all other texts the specification says what is skipped, what is lost and what ends a script.", "quantifier": "every text, a documented script or not, and every list of tokens", "why_tests_cant": "The texts are unbounded, nest to any depth, and most of them are not as documented.", "anchors": ["src/burn_script/parser.rs: Parser::parse", "src/burn_script/compiler.rs: compile_burn_script", "src/burn_script/lexer.rs: get_tokens"]}
{"id": "C145", "title": "How the text of any program is cut into tokens is known exactly, from its characters", "statement": "For every text of a program, a specification says into which tokens it is cut, or for which reason cutting it crashes. Which texts crash is the same for debug and release builds; the kind of crash is not. The text of a program written as documented is cut into the tokens it spells.", "quantifier": "every text, a documented program or not, debug and release builds", "why_tests_cant": "The texts are unbounded, and what a character means depends on how many tokens came before it.", "anchors": ["src/compile/lexer.rs: tokenize, flush_buffer"]}
{"id": "C146", "title": "What the text of any program compiles to is known exactly", "statement": "For every text of a program, a specification says what it declares, and the compiled file has exactly that: tables, value lists, scripts and occurrences by number, tests in order, relationships by the number of tables before them. For all other texts it says for which reason compiling crashes. Which texts compile, and to what, is the same for debug and release builds. Programs written as documented declare what they say.", "quantifier": "every text, a documented program or not, and every list of tokens without the tokens of assertions, which no text has", "why_tests_cant": "The texts are unbounded, and most of them are not as documented.", "anchors": ["src/compile/parser.rs: parse_program", "src/compile/compiler.rs: compile_burn", "src/compile/lexer.rs: tokenize", "src/burn_script/compiler.rs: compile_burn_script"]}
{"id": "C147", "title": "Which warnings compiling any text prints is known exactly", "statement": "For every text of scripts and every text of a program, a specification says which warnings the compiler prints on the error output, in which order, also if compiling crashes: one for each token outside of a definition, each token between a name and a body that is no parameter, each word that is no step, each other token that is skipped except opening brackets, and each loop or else without a bracket. A program prints the warnings of the script blocks it comes to before it fails. The warnings are the same in debug and release builds.", "quantifier": "every text, as documented or not, that compiles or not", "why_tests_cant": "The texts are unbounded, and most of them are not as documented.", "anchors": ["src/burn_script/parser.rs: parse", "src/compile/parser.rs: parse_program", "src/burn_script/compiler.rs: compile_burn_script"]}
{"id": "C148", "title": "Which text any stored calculation is shown as is known exactly, from its bytes", "statement": "For all bytes stored as a calculation, a specification says which text the decompiler shows for them, or that they end within an item, in which case it crashes. Together with the exact meaning of texts this says for all bytes whether the stored calculation has a value, and which. Complete items are shown as their texts.", "quantifier": "all byte sequences, complete or not, every state", "why_tests_cant": "The byte sequences are unbounded, and files written by other programs contain items that no test has.", "anchors": ["src/decompile/decompiler.rs: decompile_calculation", "src/encoding_util.rs: fm_string_decrypt", "src/testing/test.rs: eval_calculation"]}
{"id": "C149", "title": "What every step of every script does, and so every verdict, is known exactly", "statement": "For every script, whether its blocks are in order or not, and every state, a specification says what the next step does: where the script continues, and how variables, records, found sets, layouts, find mode, messages and the verdict change. So for any tests it says which verdicts they give. A step has such a result exactly if there is none of the reasons to stop of C135.", "quantifier": "all scripts, tests, states, calculators, both builds", "why_tests_cant": "The scripts and the states are unbounded, and so are the ways in which blocks can be nested, crossed or left open.", "anchors": ["src/testing/test.rs: step, run_tests, load_test", "src/testing/database.rs: create_record, update_found_set, reset_found_set, goto_record"]}
{"id": "C150", "title": "Which verdicts any program text gives is known exactly from the text", "statement": "For every text, a specification says which verdicts the tests in it give: the grammar says which tests it declares, the rules for steps say how they run, and the meaning of calculation texts says what their parameters are worth. A run gives these verdicts if it is given enough time, and no others. If the specification allows no verdicts, the run crashes or never ends.", "quantifier": "all texts, tests, scripts, states, both builds", "why_tests_cant": "Texts, runs and calculations are unbounded.", "anchors": ["src/main.rs: main", "src/compile/compiler.rs: compile_burn", "src/testing/test.rs: run_tests", "src/testing/test.rs: eval_calculation"]}
{"id": "C151", "title": "Every run of tests ends in exactly one of three ways", "statement": "The tests of a file give verdicts, or one of them comes to a step with one of the reasons to stop of C135, or one of them is an infinite sequence of steps; always one of these, and never two. If the program crashes in a test, it is because of the second. In the third case it neither crashes nor shows the verdicts, however long one waits.", "quantifier": "all files, scripts, tests and calculations, both builds", "why_tests_cant": "That a run never ends cannot be observed, and runs are unbounded.", "anchors": ["src/testing/test.rs: run_tests, step, eval_calculation"]}
{"id": "C152", "title": "What any invocation shows and writes is known exactly", "statement": "For all arguments and input files a specification says what the program does: for each input file in order its components are added to those so far, the tests so far are run and their verdicts shown, unless tests are switched off or there are none, and, when compiling, a file with the components so far is written under the name of the input. The program does exactly this and ends, or the specification allows nothing and the program crashes or never ends.", "quantifier": "all arguments, all input files (texts and bytes), both builds", "why_tests_cant": "The input files, their number and the runs of their tests are unbounded.", "anchors": ["src/main.rs: main"]}
{"id": "C153", "title": "When a run of tests crashes and when it never ends is known exactly", "statement": "The tests of a file crash exactly if one of them comes, by steps that each do what they should, to a step with one of the listed reasons to stop which is not one of the listed reasons never to end. They never end exactly if one of them takes infinitely many steps or comes to a step for which one of the reasons never to end holds: evaluating a parameter never ends and those evaluated before it have a value. Every file's tests give verdicts, or crash, or never end, and only one of these.", "quantifier": "all generated files, all tests and scripts, both builds", "why_tests_cant": "The scripts, their loops and the states they come to are unbounded, and a test cannot observe that a run never ends.", "anchors": ["src/testing/test.rs: run_tests", "src/testing/test.rs: step", "src/testing/test.rs: eval_calculation"]}
{"id": "C154", "title": "Exactly which invocations crash or never end, and what they have shown and written by then, is known", "statement": "For all arguments and input files a specification says whether the program crashes and after which actions: a text given with -t or as an input cannot be compiled, an input is not named .burn, bytes cannot be decompiled, testing the components so far crashes, or they cannot be assembled; the verdicts and files of the inputs before, and the verdicts of this one if assembling it crashes, have been shown and written. The program crashes after these actions exactly if the specification says so, and never ends exactly if it neither crashes nor ends in the sense of C152. Likewise a specification says which invocations do which actions and then go on forever: testing the components so far never ends, or reading the bytes of an input does not.", "quantifier": "all arguments, all input files (texts and bytes), both builds", "why_tests_cant": "The input files, their number and the runs of their tests are unbounded, and a test cannot observe that a run never ends.", "anchors": ["src/main.rs: main"]}
