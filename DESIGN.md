# Formal model of burn_fm in Lean 4

The model lives in `lean/Verif`. It is a function-by-function transcription of the Rust
source under `/repo/src`, followed by theorems about it. `properties.jsonl` lists the
claims, `MANIFEST.json` maps each claim to exact theorem names.

## Layout

| directory | content |
|---|---|
| `Verif/Base.lean` | panics, build profile, text and byte conventions |
| `Verif/Model/*` | the model; each definition cites the file and lines it models |
| `Verif/Spec/*` | small specifications used in theorem statements; they do not mention the model |
| `Verif/Proofs/*` | helper lemmas |
| `Verif/Props/*` | the property theorems, with a satisfiability `example` beside each |

## Conventions

* A Rust function that can panic returns `Except Panic a`; the constructors of `Panic` say why.
* `&mut` parameters become returned values. A panic aborts the program, so no state is returned with it.
* Text is a list of characters, bytes are `UInt8`. `usize` is `Nat`; every subtraction that can underflow
  goes through `usub`, which panics in a build with overflow checks and wraps modulo 2^64 without
  (`Profile`). Additions on `usize` are taken not to overflow 2^64. `as u8`/`as u16` truncations are explicit.
* A Rust `HashMap` is an association list with distinct keys, in *iteration order*. Order
  independence is stated over all permutations.
* Loops with a structural measure are recursive functions. Loops that may diverge
  (`decompile_fmp12_file`, the script VM) are a step function plus a fuelled iterator; "diverges" means
  that every fuel value runs out.
* `f64`, `f32`, Unicode letter classification and the clock are fields of the class `Rt` (external
  runtime). Theorems that need a law of floating point formatting state it as a hypothesis class
  (`LawfulRt`) and a concrete instance shows it can be met.

## Plan per property

"full" = the statement of `properties.jsonl` is proved. "refuted" = the code violates the statement: the
negation is proved with a witness, and a `_partial` theorem gives the strongest true part.

| id | what is modelled | how it is proved | plan |
|---|---|---|---|
| C01 | `put_path_int`, `get_path_int` | arithmetic on the two bytes | refuted from 384 up, partial below |
| C02 | `put_int`, `get_int`, both profiles | loop unrolled through base-256 digits | full |
| C03 | `fm_string_encrypt/decrypt` over real UTF-8 | XOR involution, UTF-8 validity from Lean core | full |
| C04 | same | same | full |
| C05 | `dbcharconv.rs` with the whole table | table lemma by cases, induction on the string | full |
| C06 | `decode_bytes` | induction on pairs | full |
| C07 | `get_chunk_from_code`, all opcodes | case analysis over opcodes | refuted by 0x0F, partial otherwise |
| C08 | same | same | refuted by 0x1F (key/data overlap), partial otherwise |
| C09 | same | same | full |
| C10 | same | decoder run on `pre ++ bytes ++ post` | full |
| C11 | `emit_simple_kv` + decoder | composition | refuted at lengths 0,3,5,7,9 and over 255; partial otherwise |
| C12 | `emit_long_kv`, `emit_simple_kv_e`, `emit_simple_data_1b` + decoder | composition | full |
| C13 | `push_directory`, `pop_directory` + decoder | composition | full |
| C14 | all emitters + decoder loop | induction on the operation list using locality (C10) | full |
| C15 | `assemble_fmp12`, header, sectors | frame lemmas on buffer writes | full |
| C16 | assembler + decompiler | trace the emitted operations through the path dispatch | refuted |
| C17 | decompiler main loop | cyclic sector chain witness; links are 32-bit, so a chain that does not end revisits a sector | refuted; partial: acyclic chains without 0x0F; exact: hangs iff no panic and a revisited sector or a bare 0x0F |
| C18 | `Instruction`, `INSTRUCTIONMAP` | table lookup for every index | refuted at 254, partial otherwise |
| C19 | script assembly | sorting lemma, induction over records | full |
| C20 | `decompile_calculation` | homomorphism by induction | full |
| C21 | decompiler on encoded schemas | induction over schema using C14 | full for tables and fields |
| C22-C25 | `relation_mgr.rs` | history induction; BFS invariant | full |
| C26 | `layout_mgr.rs` | last-write-wins on distinct names | full |
| C27 | `generate_from_fmp12` | permutation invariance of folds with distinct keys | full |
| C28-C31 | `database.rs` | state invariant over all operations | full |
| C32,C33 | `goto_*` | arithmetic; induction on found set | full |
| C34 | PerformFind step | set reasoning plus sorting | full |
| C35 | `goto_*` | witness | refuted; exact panic condition |
| C36 | `get_related_record_field` | scan lemma | refuted for `<` and `>` (they include equality), partial otherwise |
| C37 | relationship generation | symmetry by cases | refuted for inequalities, partial for `==`, `!=`, `x` |
| C38 | `calc_eval.rs` parser | printer/parser round trip by induction on trees | full (call-free) |
| C39 | same | fuel bound | refuted (a sequence ending in `(`), partial otherwise |
| C40 | same, `Spec/CalcArgs.lean` | witness; parser characterised at a call | refuted (the arguments are folded into one expression by the comma level); partial: what a call with any arguments parses to after its parenthesis, and one-argument calls in last position |
| C41 | calculation lexer | induction on tokens | refuted for signed numbers, strings without letters or digits and trailing comparisons; partial otherwise |
| C42-C45 | `evaluate`, `get_operand_val`, `Spec/CalcValue.lean` | induction on trees; texts of digits are ordered like decimal fractions | C42, C44 full; C43, C45 refuted with partial and exact characterisations |
| C46 | field references | witness; relation `Resolves`, induction | refuted; partial for the current occurrence; exact |
| C47 | VM | induction on runs | full |
| C48, C49 | VM | witnesses | refuted with partial |
| C50, C51 | VM | witnesses for nesting; simulation for flat code | refuted with partial |
| C52 | VM + structured semantics with calls (`Spec/Script`) | simulation in both directions (`runs_sim`, `back_all`) | partial: proved for orderly scripts (`Orderly`), refuted outside |
| C53, C54 | VM | witness for every state | refuted |
| C55 | VM | run composition | full |
| C56 | `burn_script/lexer.rs`, `parser.rs` | induction on the text and on the structured script | full |
| C57 | `burn_script/lexer.rs` against texts (`Spec/BurnScript`) | induction on the text | refuted for strings; partial; exact for balanced parentheses |
| C58 | same, with warnings | for every script; induction over the tokens | refuted; the warnings are proved exact |
| C59, C60 | `compile/lexer.rs`, `parser.rs` against texts (`Spec/Burn`) | induction on the text and on declarations | C59 full, C60 refuted, characterised exactly |
| C61 | `main.rs` merge | induction on the files; for all programs | refuted; partial for distinct numbers |
| C62 | `delete_record` | witness | refuted |
| C63 | `get_int` | induction on bytes | full |
| C64 | chunk decoder against a declarative format (`Spec/ChunkFormat`) | case analysis per opcode, induction on sequences | full |
| C65 | VM + database | every step performs at most one operation; induction on runs | full |
| C66 | VM + database | frame lemmas per operation; induction on runs | full |
| C67 | `burn_script/parser.rs`, with warnings | for all pairs of scripts; induction over the tokens | refuted; partial: reported by a warning |
| C68, C69, C70 | `compile/parser.rs` | consequences of C59 | refuted for every program |
| C71 | `compile/parser.rs` | for every program | refuted |
| C72 | compiler + `Database::generate` + VM | composition of C27, C52, C56, C59 | generation full, verdict partial |
| C73 | occurrence arm, relationship arm, whole reading loop | frame theorem for the four parts of the state; invariant "the relationships are the links so far" by induction over occurrences | full |
| C74 | join arm | fold over the criteria | full |
| C75 | layout arm | fold over items; projection to the events about layouts | refuted for nested directories (general theorem `layout_reset`), partial otherwise |
| C76 | three script arms, `assembleScripts` | invariants per storage form | refuted for long code not numbered from 0 (general theorem `long_code_numbers`), partial otherwise; exact for every file that decompiles (`script_steps_provenance`) |
| C77 | step parameter arms | fold over parameters with calculation text (C20) | refuted for segments (general theorem `parameters_need_steps`) and for two steps with one number (`same_number_refuted`), partial otherwise; exact for every other file that decompiles |
| C78 | whole decompiler | composition of C21, C73 to C77 | partial (limits of C75 to C77 and C95) |
| C79 | whole decompiler, `Spec/Reordered.lean` | every arm touches one of five parts of the state; lookups by number do not depend on the order of insertion | refuted for code before name, partial: parts may be mixed, and the components of each part given in any order |
| C80 | `Model/Main.lean`: `main` as a sequence of actions (verdicts shown, files written), contents of files as inputs | induction over the inputs | proved: `compile_run`, `output_names`, `output_has_tables`, `other_names_fail`, `program_output` |
| C81 | same | exact numbers of verdicts by induction | refuted with several inputs: the tests of earlier ones run again (`tests_once_refuted`); `test_counts` exact, `tests_once_partial` for one input |
| C82 | same | the run on `xs ++ ys` is the run on `xs` followed by `ys` | proved |
| C83 | same | induction over the inputs | proved |
| C84 | same, with the decompiler | no chunk ever adds a test (`decompile_tests`) | proved: `decompile_run` |
| C85 | whole assembler | sum of the sizes of all records against the room in the sector | proved as an equivalence: `assembles_iff`, `program_output` |
| C86 | VM | one step at any place in a script | partial: proved for flags that are on, refuted for flags that are off |
| C87 | `.burn` parser | parser run up to the test | proved |
| C88 | VM, `clear_records` | unfolding | proved |
| C89 | VM | `Loopless` certificate, induction over the call structure and the code left to run | proved: `loopless_tests_end`; the three excluded cases do not end |
| C90 | whole assembler | decode the written sector and compare the events in order | refuted; exact characterisation `same_file_iff` |
| C91 | VM script lookup | simulation over permuted script maps | refuted for duplicate names; proved for distinct names |
| C92 | `get_related_record_field` | induction over the path, chains enumerated in lexicographic order, invariant of found sets | refuted for paths with different middle fields; proved for the others |
| C93 | the reading of sectors and chunks, the loop over sectors | every slice that succeeds on a prefix gives the same bytes on the whole; induction over both loops | proved |
| C94 | the first sector is never read | two files that agree after byte 4096 give the same result; concrete file without signature | refuted |
| C95 | data source arms, `SourceFileLocation::from_bytes`, path substitution, name queue | a run over chunks succeeds iff a run over the notes about data sources and a run over the rest succeed; invariant "the queue holds the names not yet used" | refuted for paths with `h`, nested directories and two-byte numbers; partial otherwise |
| C96 | whole decompiler | the result is a function of the chunks (C79) | proved |
| C97 | evaluation of comparisons | UTF-8 keeps the order of code points, so `String` comparison is the order of bytes | proved |
| C98 | `evaluate` of calls, with lexer and parser | fold invariant for `Min`; calls written as text through C40 and C41 | refuted for `Asin`, `Get` and `Min` in texts; partial otherwise |
| C99 | lexer and parser of programs | invariant over the lexer: no token begins an assertion block; invariant over the parser | proved |
| C100 | lexer and parser of programs | the parser after a program is in its first state | refuted for named relationships and exported scripts; partial otherwise |
| C101 | lexers of programs and scripts | the tokens of a text are determined by `BurnText` and `ScriptText` | refuted for parentheses near the start; partial otherwise |
| C102 | `Model/Chunk`, `Model/Decompiler`; `Spec/Opcodes` lists the opcodes and says which sectors are in use | case distinction over all byte values for the decoder; induction on the fuel turns a result into a complete reading of all sectors | partial (division by zero at the first byte of a block) |
| C103 | `Model/Vm`, `Model/Calc`; `Spec/Counting` defines the rounds and the instructions of the loop | evaluation of `i == n` and `i + 1` by C41 and C42, then induction on the rounds and C51 | partial (with `>=` the numbers are compared as texts) |
| C104 | `Model/Vm`, `Model/Calc`, `Model/Database` | composition of C31, C41, C45 and C47 | partial (fields of occurrences that are not current are read from the current one) |
| C105 | `Model/Database` | unfolding against `Spec/CalcValue.ValueAt`, which says where a value is stored | partial (disagreement without a record or without the field) |
| C106 | `Model/Main` and all below it, over all limits (`Spec/Outcome`) | monotonicity in the limits, by induction on each loop | proved |
| C107 | all functions with a `Profile` | relation `LeO` between the builds, by induction on each loop | proved |
| C108 | `lexCalc` on texts laid out from words (`Spec/CalcLayout.lean`) | induction on the layout with the state of the lexer | partial: false for tabs and line breaks directly after a name or number |
| C109 | `parseCalc`, `evalCalc` on malformed texts | the grammar theorem with a following token that no level consumes | partial: text after an expression and a missing closing parenthesis are ignored |
| C110 | `getChunk`, `decompile` against `Spec.ChunkFormat`, `Spec.RawFileOf`, `Spec.Tidy` | completeness of the format, arm by arm, lifted to sectors and chains | partial: exact for tidy files; the opcode 0x1F, a bare 0x0F, 0x38 shorter than two bytes and chunks that run over a sector end are accepted though not in the format |
| C111 | `decompile` against `Spec.Recut` | entering a directory again leaves the state unchanged, given that scripts and segments never disappear; induction over the cuts | partial: false in the directories of fields, layouts, tables and data sources, and with padding among links |
| C112 | `decompile` and `Vm.generate` against the stored numbers in `Spec.StoredOccurrence` | the graph part of the decompiler computes exactly `Spec.mentionedPairs`, by induction over occurrences and links | partial: the numbers are those of the order of the file; necessary and sufficient conditions proved; refuted for files with gaps |
| C113 | messages as part of `World`, `Vm.step`, `Vm.runTests` against `Spec.Says` and `Spec.Transcript` | case analysis of the steps, induction over runs and over tests | full |
| C114 | `decompile` against `Spec.layoutSaid`, `fieldSaid`, `occurrencesSaid`, `relationshipsSaid`, `sourceSaid` on arbitrary sequences of events | induction over the events from the end, one case per arm | partial: tables numbered 128 apart are excluded (the code confuses them, C21) |
| C115 | `inspectText` (derived `Serialize`, `to_string_pretty`), `wholeProgram` against the grammar `Spec.JsonText` and the readers `Spec.readFile` | the text follows the grammar, the grammar is unambiguous (induction on the length), reading inverts writing; simulation with `mainProgram` | full |
| C116 | two runs of `wholeProgram` with different visiting orders | simulation between the two runs; two tables in both orders | refuted; partial: both show the same file |
| C117 | `wholeProgram` without the directory `inspect_output` | case analysis of the first input file | refuted for every input |
| C118 | `wholeProgram` with and without `printHeader` | induction over the input files | full |
| C119 | what remains of the events of `wholeProgram` | last event for the path; two concrete files | refuted for more than one file; partial: the last one |
| C120 | `parseScripts` and `parseBurn` with their warnings (`Model/ScriptWarnings`) against words read off the tokens (`Spec.heads`, `Spec.StepsKept`) | induction over the tokens with a promise per parser mode; erasing the warnings gives the functions used elsewhere | partial: false for a text that ends inside of a step and for a keyword after `define` |
| C121 | the printed lines (`Model/Console`), replayed by `Spec.openCalls` | one lemma on the line of a step, induction over the executed steps; collecting the lines does not change a run | full |
| C122 | the printed lines against the list of executed steps (`Spec.Executed`, `Spec.unknown`) | as C121 | full |
| C123 | the lines that begin and end tests, `Spec.report`; messages kept at a crash | induction over the tests | full |
| C124 | `punc_stack` and its warning | invariant that a loop has begun exactly if the stack is not empty; witnesses in both directions | refuted; proved that the warning only comes directly before a crash |
| C125 | `programShown` (`Model/Screen`): `main` with all output in one list; shape of the output of one input file and of a stop in `Spec/Screen` | case analysis of one input file, induction over the input files; agreement with `wholeProgram` | full, without the debugging output of the assembler and the decompiler |
| C126 | `evalCalcN` (`Model/CalcNotes`): lexer, lookup and evaluation with their warnings | relation between two evaluations in states that differ in variables, by induction over the lookup and the expression; a property of all warnings by the same induction | full |
| C127 | as C126; `Occurs` (`Spec/CalcNotes`): the parts of an expression | induction over the expression; two families of counterexamples | partial: false for boolean values and for operands of arithmetic |
| C128 | as C126 | induction over the expression | full, without function calls |
| C129 | as C126 | induction over the text before the colon; exactly, for every text, with the pieces of C142 (`Spec/CalcColons`) | partial: the first colon only; the third of three colons is not reported |
| C130 | `Vm.runNotes`, `Vm.testNotes` (`Model/VmNotes`): the warnings of the calculations of each step; `Vm.run` | simulation between the run alone and the run with left-over variables and loop entries, by induction over the steps | full |
| C131 | `decompileCalculation`, `lexCalc`, `parseCalc`, `evalNode` | the text of the items consists of the words of the expression: which tokens can be neighbours, by induction over the grammar; C20, C108 and C38 put together | partial: the code reads one byte of a number, and drops operators it does not know |
| C132 | `Vm.step`, the operations of `Database` | induction over the run; every step performs at most one operation (C65), and every operation changes the current occurrence only, except for the creation of records | partial: a record added to the same table on another layout joins the found set and becomes the current record |
| C133 | `mainProgram` from the bytes of the file and the text of the tests to the verdicts | the file is recovered (C78), generates a database, the interpreter ignores step numbers (simulation), structured scripts run as written (C52) | partial: a stored call shows the bare name of the script and is evaluated as a variable, so it panics |
| C134 | the loops of the decompiler again, with the lines they write | runs up to the first byte that begins no chunk, by induction on reading; lines of a described file from its chunks | partial: the numbers printed for the place are not the place (refuted) |
| C135 | the interpreter as it is | every operation of a step gives an error iff a condition on the state holds; valid states from C65; runs by induction | proved |
| C136 | the evaluator against an independent big-step semantics | soundness of each rule with bounds on the recursion joined, totality by induction on expressions, circles by the pigeonhole principle | proved |
| C137 | the evaluator with its output against an independent specification of the output | warnings follow the rules, by induction on expressions; every expression with a value has a list of warnings | proved |
| C138 | the assembler and the reader of chunks against a tree of directories (`Spec.contents`) | the records written are the walk of the tree, by composition; readings are unique, so every reading of the file shows the tree | proved |
| C139 | the header of an assembled file | byte by byte from the write that puts the name in the template; refuted by the name `ab` | partial (false of the code) |
| C140 | the assembler with its `println!`s (`Model/AssemblerOutput`) against the walk of the contents of the file | functions that print a list of lines or, on a panic, a prefix of it, closed under composition; erasing the lines gives the assembler | proved |
| C141 | the calculation parser against an independent grammar over the words that are left (`Spec/CalcReading`), of which nine rules read and two combine | the parsing functions and loops of the five levels treated as one family; soundness by induction on the recursion depth, completeness by induction on derivations; running for ever as an inductive relation, with the depth bound of C39 for the converse | proved |
| C142 | the lexer of calculations against an independent relation that takes one piece after the other off the text (`Spec/CalcWords`) | each piece is one equation of the lexer; a first piece always exists or there is none for a stated reason (longest prefixes); induction on the length of the text; composed with C141 and C136 | proved |
| C143 | the lexer of scripts against an independent relation that takes one piece after the other off the text (`Spec/ScriptCut`) | each piece is one equation of the lexer; a first piece always exists or the text is one of four characters; arguments that are never closed by induction with a depth; induction on the length of the text | proved |
| C144 | the parser of scripts against an independent grammar of phrases, script ends and breaks (`Spec/ScriptGrammar`), on top of C143 | each phrase is one equation of the parser; a phrase, an end or a break always exists; induction on the number of tokens | proved |
| C145 | the lexer of programs against an independent relation: a run of characters gathered to a word, then a blank or a mark, again and again (`Spec/ProgramCut`) | each run, blank and mark is one equation of the lexer; the longest run exists, and after it a mark or a stated reason for a crash; induction on the length of the text | proved |
| C146 | the parser of programs against an independent grammar of declarations and their failures (`Spec/ProgramGrammar`), on top of C144 and C145 | each phrase, end and failure is one equation of the parser; one of them always exists; induction on the number of tokens; the file by induction on what is declared | proved |
| C147 | the parsers with their warnings against an independent relation over the grammars of C144 and C146 (`Spec/ScriptSays`) | one equation for each phrase, end and failure; one of them always exists; induction on the number of tokens | proved |
| C148 | the decompiler of calculations against an independent grammar of items (`Spec/CalcBytes`) | one equation for each kind of item; one always exists; induction on the number of bytes; the value by C142 | proved |
| C149 | the interpreter against an independent relation between states (`Spec/StepDoes`) | one equivalence for each instruction; positions by the first step of a kind instead of the scan; runs by induction on their length | proved |
| C150 | C146, C149 and C142 together, with the calculator that gives each text its meaning (`Spec/Verdicts`) | steps are monotone in the values of the parameters, so a finite run needs finitely many rounds | proved |
| C151 | runs as sequences of states of `Spec/StepDoes`, finite or infinite (`Spec/Endings`) | a run that neither ends nor stops always has a next state, so an infinite sequence can be chosen; the three exclude each other because steps are deterministic | proved |
| C152 | the main program against a relation between arguments and actions (`Spec/Invocation`) that uses C150 for the verdicts | induction on the input files; enough time for each test run, and the largest of these times for all | proved |
| C153 | runs of tests with the calculation language's own values (`trueCalc` of C150, which crashes or never ends where C142 says so) against lists of reasons (`Spec/Crashes`, `Spec/Crash`) | cases on the steps for the reasons never to end; enough time for each step on the way to a crash; no time is enough for a step that never ends | proved |
| C154 | the main program against a relation between arguments and the actions before a crash, or before going on forever (`Spec/InvocationCrash`) that uses C153 for tests that crash or never end | induction on the input files in both directions, with enough time for each test run before the crash | proved |

## Checks of the model against real data

* The file `blank.fmp12` of the repository (exported by the original product) was run through the model outside of the
  kernel: 77 sectors, all chunks in `Spec.ChunkFormat`, tidy in the sense of `Spec.Tidy`, hence in the class `Spec.RawFileOf`
  over which the theorems about file contents range. This is evidence that the hypotheses are met by real files, not a proof.
  Its decoded contents are the same by both readings below.
* `differential/` holds a second transcription of the code in Python, written from the Rust source without the model: the
  chunk reader, the decompiler, the burn compiler, the assembler, and the test runner with its calculations and database.
  `differential/run.sh SEED` compares it with the compiled model on random inputs, in both build profiles. So far: 20000 chunk
  readings, 420 files, 62000 burn texts, 1900 written files, 9000 test runs, 40000 calculations and 90000 related reads, without
  a difference. These are tests of the transcription (numbers are exact decimals in both), not part of any proof.
* The unit tests of the repository and its burn files are run in the model by the kernel: `Verif/Checks`. Each assertion of
  the original tests holds in the model. `basic_loop_test` reads blank.fmp12; it is run on a file built by hand instead,
  because on blank.fmp12 the model (like, by reading, the code) panics: occurrence 10 of the file is the ninth (C112).

## Trusted base

* Lean 4.33.0's kernel. No `native_decide`, no `bv_decide`, no compiled evaluation in any proof; `decide` and
  `decide +kernel` are only used on closed concrete facts, mostly in examples and refutations.
* The axioms `propext`, `Classical.choice` and `Quot.sound`, and no others; the list per theorem is below.
* The faithfulness of the transcription, as documented by the citations in `Verif/Model`.
* The conventions above, in particular: `usize` additions do not overflow 2^64, allocation never fails, the stack is
  unbounded except where the code recurses for ever (which is modelled as running out of every fuel).
* Floating point: `f64` parsing, printing, arithmetic and comparison are the operations of the class `Rt`. What the proofs
  assume about them is the class `LawfulRt` (for example that printing a parsed integer literal gives the literal back,
  and that whole numbers up to 2⁵³ are added exactly).
  Theorems that need no law do not mention `LawfulRt`. The instance `toyRt` shows that the laws are consistent.
* `HashMap` and `HashSet`: association lists in iteration order. Theorems hold for every order, unless order itself is the
  subject (C21, C90, C91).

### What is modelled

| source file | modelled | not modelled |
|---|---|---|
| `encoding_util.rs` | everything | |
| `dbcharconv.rs` | everything | |
| `chunk.rs` | everything (`Model/Chunk`) | |
| `decompile/sector.rs` | everything | |
| `decompile/decompiler.rs` | sector walk, chunk dispatch, all arms that change the result, terminal output (`Model/DecompilerOutput`); `header.log` is in `Model/Inspect` | `print_chunk`, which is never called |
| `compile/assembler.rs`, `compile/header.rs` | everything | two functions with empty bodies (`emit_simple_data`, `emit_table_data`) |
| `compile/lexer.rs`, `parser.rs`, `compiler.rs`, `token.rs` | everything | |
| `burn_script/*` | everything, with its warnings (`Model/ScriptWarnings`) | |
| `component.rs`, `file.rs` | data types and `FmpFile::merge`-like code | constructors that only fill in fields are record syntax in Lean |
| `fm_script_engine_instructions.rs` | everything | |
| `metadata_constants.rs` | constants, where used | |
| `testing/calc_eval.rs`, `calc_tokens.rs` | lexer, parser and evaluator as called | `Precedence` and `parse_func_call`, `parse_identifier`, `parse_numeric`, `parse_string`: never called |
| `testing/database.rs` | everything observable | `..._mut` accessors that only return a reference are modelled together with the assignment made through them; `get_table_mut`, `get_current_record_by_field_mut` are never called |
| `testing/relation_mgr.rs`, `layout_mgr.rs` | everything | |
| `testing/test.rs` | everything, with all terminal output: `Model/Console`, and for the warnings inside of calculations `Model/CalcNotes` | messages of panics |
| `main.rs`, `cli.rs` | modes, flags, inputs and outputs (`Model/Main`), JSON files and `header.log` (`Model/Inspect`, `Model/Json`), the order of all output (`Model/Screen`), parsed arguments given | parsing of the command line (clap), operating system errors |

The texts of panics are not modelled: a panic is a value that says why it happened. What the test runner, the script compiler, the assembler, the decompiler and calculations print is modelled, also what is printed before a panic (C120 to C129, C134, C137, C140).

### Axioms per theorem

* **propext** (37 theorems): `argument_lists`, `concatenation_joins`, `decode_bytes_panic`, `decode_bytes_value`, `decode_char_unknown`, `delete_record_keeps_others_partial`, `empty_navigation_panics`, `failed_test_fails_rest`, `instruction_code_injective`, `instruction_map_complete_partial`, `instruction_map_refuted`, `join_symmetric_refuted`, `lookup_warning_iff`, `missing_brace_merges`, `no_pair_iff`, `number_equality_partial`, `open_block_leaks`, `operation_reported_or_done`, `powers_less_than_nine`, `quoted_comma_refuted`, `quoted_paren_swallows`, `related_read_strict_refuted`, `render_spells`, `says_unique`, `script_end_exact`, `self_named_variable_diverges`, `silent_brace_refuted`, `silent_end_refuted`, `silent_keyword_refuted`, `standsFor_unique`, `structured_tokens_parse`, `tab_after_name`, `ten_less_than_nine`, `test_sees_old_variables`, `third_colon_not_reported`, `unknown_step_refuted`, `write_without_record`.
* **Quot.sound, propext** (122 theorems): `accepted_chunk_in_format`, `arithmetic_undefined`, `arithmetic_value`, `assembler_output_exact`, `assembler_output_prefix`, `bad_begin_reported_partial`, `block_warning_crashes_partial`, `boolean_variable_false_alarm`, `boolean_variable_reads_empty`, `calc_parser_fuel`, `calc_parser_terminates_partial`, `calculation_outcome_unique`, `call_order_irrelevant_partial`, `chunk_context_independent`, `chunk_data_span_refuted`, `chunk_format_exact`, `chunk_key_overlap_refuted`, `chunk_local_refuted`, `chunk_progress_refuted`, `chunk_sequence_exact`, `cleanup_ends`, `cleanup_removes_records`, `compiled_only_names`, `compiled_tests_have_no_assertions`, `concatenation_assoc`, `crash_reports_unknown_steps`, `crash_shows_active`, `create_record_current`, `create_record_data`, `currentValue_iff`, `database_after_tests`, `decode_bytes_ok_iff`, `decodes_deterministic`, `definitions_are_scripts_partial`, `delete_record_refuted`, `delete_record_removes_field`, `empty_loop_never_ends`, `empty_navigation_partial`, `encode_text_length`, `exit_flag_ignored`, `exit_flag_partial`, `exit_script_continues`, `failed_assertion_ends_run`, `failure_is_named`, `field_exact`, `field_reads_current_partial`, `find_mode_changes_no_data`, `find_succeeds`, `first_next_visits_all`, `first_verdict`, `frames_le_vars`, `goto_ends`, `goto_next_clamps`, `goto_previous_clamps`, `goto_record_clamps`, `instruction_map_sound_partial`, `invocation_sees_old_variables`, `invocation_starts_empty_partial`, `kv_roundtrip_refuted`, `lex_drops_string`, `loop_begun_iff`, `missing_script_hangs`, `missing_script_silent`, `multi_hop_missed`, `named_are_undefined`, `neighbour_iff_declared`, `neighbour_symmetric`, `neighbours_nodup`, `new_record_step`, `no_colon_not_reported`, `no_warning_no_loss_partial`, `not_numbers_reported_iff`, `notes_change_nothing`, `occurrence_name_ignored`, `only_set_field_and_new_record_change_data`, `open_directories_entered`, `operand_exact`, `output_changes_nothing`, `output_shows_active`, `output_survives_crash`, `passed_test_balanced`, `printing_changes_nothing`, `push_roundtrip_fails`, `put_int_debug_ok_iff`, `put_int_never_wrong`, `put_int_release_ok_iff`, `read_only_tests_change_no_data`, `readers_agree`, `readers_without_record`, `record_by_number`, `report_names_failure`, `resolves_unique`, `run_tests_is_test_run`, `run_transcript`, `scattered_holds`, `script_parser_never_reports`, `set_field_collects`, `single_colon_reported_partial`, `source_number_mismatch`, `step_performs_operation`, `step_prints`, `table_by_name`, `tables_reported`, `test_fails_iff_assertion_fails`, `transcript_printed`, `undefined_operand_reported_twice`, `undefined_variable_named`, `unknown_functions_reported`, `unknown_opcode_at_start`, `unknown_opcode_no_chunk`, `unknown_opcode_reported_partial`, `unknown_opcode_reported_refuted`, `unknown_steps_named`, `unknown_steps_reported`, `unknown_steps_warned`, `variable_exact`, `variable_reads_back_partial`, `variable_tests_leave_state`, `verdict_independent_partial`, `warnings_change_nothing`, `write_changes_one_cell`, `write_succeeds`.
* **Classical.choice, Quot.sound, propext** (430 theorems): `accepted_file_determined`, `accepted_file_in_format_exact`, `accepted_file_in_format_partial`, `accepted_file_in_format_refuted`, `actions_grow`, `arguments_as_written_partial`, `arguments_exact`, `arithmetic_text_value`, `asin_is_text_minimum`, `asin_refuted`, `assemble_layout`, `assemble_name`, `assemble_one_sector`, `assembled_schema_lost`, `assembled_tables_partial`, `assembled_tables_reappear_refuted`, `assembles_iff`, `assembles_in_every_order_partial`, `bad_text_reported_partial`, `blank_text_reported`, `block_warning_false_alarm_refuted`, `block_warning_missing_refuted`, `block_warnings_unique`, `break_no_verdicts`, `builds_differ`, `builds_panic_differently`, `calc_crashes_iff`, `calc_layout_partial`, `calc_lexes_words_partial`, `calc_parser_decided`, `calc_parser_diverges`, `calc_parser_hangs_iff`, `calc_parses_grammar`, `calc_reading_iff`, `calc_reading_unique`, `calc_round_trip`, `calc_text_evaluates`, `calculation_compositional`, `calculation_crashes_exact`, `calculation_endless_exact`, `calculation_items`, `calculation_one_of_three`, `calculation_string`, `calculation_truncated`, `calculation_value_exact`, `call_arguments_after_parenthesis`, `call_loses_comparison`, `call_loses_second_argument`, `call_one_argument_partial`, `call_order_refuted`, `call_returns`, `call_second_argument_operator`, `call_takes_following_sum`, `char_of_number`, `char_of_other_panics`, `chunk_data_slice_partial`, `chunk_key_slice_partial`, `chunk_local_partial`, `chunk_path`, `chunk_progress_partial`, `chunk_pushed`, `chunk_pushed_other`, `chunk_stuck_iff`, `cleanup_leaves_stale_found_sets`, `code_needs_name`, `colon_reports_counted`, `colon_reports_exact`, `comparison_by_bytes`, `comparison_opposites`, `comparison_transitive`, `comparison_trichotomy`, `compile_json`, `compile_json_first`, `compile_run`, `compile_screen`, `compiled_contents`, `compiled_determines_schema_refuted`, `compiled_maker`, `compiled_records`, `compiled_same_iff`, `compiled_tables_have_no_fields`, `contents_ignored`, `counting_loop`, `counting_to_ten_refuted`, `crash_breaks`, `crash_located`, `criterion_recovered`, `cut_field_loses_name`, `cut_irrelevant_partial`, `cut_irrelevant_refuted`, `cut_layout_loses`, `cut_links_panics`, `cut_off_file`, `dangling_link_panics`, `data_roundtrip`, `decode_encode_storable`, `decode_encode_text`, `decompile_cycle_hangs`, `decompile_fuel_irrelevant`, `decompile_hangs_iff`, `decompile_json`, `decompile_json_first`, `decompile_run`, `decompile_screen`, `decompile_terminates_partial`, `decompile_terminates_refuted`, `decompile_trichotomy`, `decompiled_tests_partial`, `decompiled_tests_refuted`, `decrypt_exact`, `decrypt_exact_or_marker`, `decrypt_marker_iff`, `described_lines`, `description_order_irrelevant_partial`, `digits_exact`, `documented_program`, `documented_program_tokens`, `documented_reading`, `documented_script_tokens`, `documented_scripts`, `documented_scripts_silent`, `documented_words`, `each_input_shown_refuted`, `empty_comparison_ignored`, `empty_navigation_refuted`, `endless_tests_run_on`, `evalCalc_reports`, `exampleFile_decompiles`, `exit_flag_refuted`, `exit_in_if_refuted`, `exit_script_refuted`, `exported_script_refuted`, `expression_has_value`, `failed_input_writes_nothing`, `field_name_cut`, `field_name_cut_refuted`, `field_reference_refuted`, `file_crash_exact`, `file_endless_exact`, `file_recovered_partial`, `file_verdicts_exact`, `find_exact`, `finishes_links`, `foreign_file_refuted`, `found_set_empty_only_without_records`, `found_set_kept_partial`, `found_set_kept_refuted`, `found_set_left_alone`, `found_sets_valid`, `generate_order_irrelevant`, `generate_succeeds`, `generated_names`, `generated_no_other`, `generated_occurrences`, `generated_relationships`, `generated_tables`, `get_int_big_endian`, `get_path_none_iff`, `get_path_shortest`, `get_path_some_iff`, `get_path_sound`, `get_path_terminates`, `get_refuted`, `good_program_no_warnings`, `good_scripts_no_warnings`, `grammar_unambiguous`, `graph_numbering`, `graph_recovered`, `header_before_name`, `header_changes_nothing`, `header_first`, `header_is_input`, `header_name_exact`, `header_name_partial`, `header_name_refuted`, `if_chain_partial`, `inputs_in_order`, `invocation_crash_exact`, `invocation_crash_unique`, `invocation_does_unique`, `invocation_endless_iff`, `invocation_exact`, `invocation_fails_iff`, `invocation_hang_exact`, `invocation_refuted`, `invocation_three`, `join_inequality_sides`, `join_symmetric_partial`, `json_changes_nothing`, `json_same_contents_partial`, `json_same_text_refuted`, `json_shows_file`, `json_tells_apart`, `kv_e_roundtrip`, `kv_roundtrip_iff`, `kv_roundtrip_partial`, `last_input_shown_partial`, `layout_evaluates`, `layout_irrelevant_partial`, `layout_lookup`, `layout_lookup_unknown`, `layout_order_irrelevant`, `layout_provenance`, `layout_refuted`, `layout_reset`, `layouts_recovered_partial`, `layouts_recovered_refuted`, `leftover_variables_ignored`, `lex_trailing_comparison_panics`, `lines_do_not_matter`, `literal_order`, `literal_prefix_refuted`, `long_code_numbers`, `long_kv_roundtrip`, `longer_file_same`, `loop_creates_records`, `loop_partial`, `loopless_tests_end`, `malformed_start_reported`, `merge_keeps_partial`, `merge_last_wins`, `merge_loses_tables`, `min_of_mixed`, `min_of_naturals`, `min_of_texts`, `min_refuted`, `missing_script_refuted`, `multi_hop_exact`, `multi_hop_partial`, `multi_hop_wrong`, `name_without_value_iff`, `named_relationship_refuted`, `natural_comparison_exact`, `natural_comparison_partial`, `needs_directory`, `negative_number_panics`, `nested_if_refuted`, `nested_loop_refuted`, `no_testing`, `no_testing_outputs`, `no_verdict_iff`, `occurrence_numbers_exact`, `occurrence_provenance`, `occurrences_refer_to_no_table`, `one_relationship_per_link`, `only_exit_script_unknown`, `only_named_variables_matter`, `open_paren_ignored`, `order_independent_partial`, `order_refuted`, `other_names_fail`, `outcome_or_diverges`, `outcome_stable`, `outcome_unique`, `output_has_tables`, `output_names`, `panic_has_reason`, `parameter_value_exact`, `parameters_need_steps`, `parameters_recovered_refuted`, `parse_dangling_comparison`, `path_int_roundtrip_fails`, `path_int_roundtrip_partial`, `path_int_roundtrip_refuted`, `perform_find_step`, `placement_irrelevant`, `pop_roundtrip`, `program_compiles`, `program_crashes_in_both_builds`, `program_generates`, `program_grammar_fails_iff`, `program_grammar_iff`, `program_grammar_unique`, `program_layout_irrelevant`, `program_output`, `program_parses`, `program_same_in_both_builds`, `program_text_compiles_exact`, `program_text_crashes_exact`, `program_text_warnings_exact`, `program_tokens_iff`, `program_tokens_unique`, `program_uncut_iff`, `program_unknown_steps_named`, `program_verdicts_partial`, `program_warnings`, `push_roundtrip`, `reachable_valid`, `read_text_evaluates`, `readers_without_field`, `reason_stops_test`, `records_roundtrip`, `records_roundtrip_in_context`, `related_read_exact`, `related_read_partial`, `relationship_kept_partial`, `relationship_lost`, `relationship_numbers`, `relationship_numbers_exact`, `relationship_numbers_refuted`, `relationship_provenance`, `release_after_overflow`, `release_diverges`, `release_like_debug`, `reported_is_mentioned_partial`, `reproducible_refuted`, `rest_ignored`, `rest_of_text_ignored`, `result_covers_file`, `run_database_reachable`, `run_exact`, `same_file_iff`, `same_number_refuted`, `same_words_same_value`, `schema_file_recovered`, `schema_number_refuted`, `schema_order_refuted`, `schema_recovered_partial`, `screen_changes_nothing`, `script_grammar_breaks_iff`, `script_grammar_iff`, `script_grammar_unique`, `script_layout_irrelevant`, `script_name_provenance`, `script_parameters_provenance_partial`, `script_runs_as_written_partial`, `script_steps_provenance`, `script_text_compiles_exact`, `script_text_crashes_exact`, `script_text_warnings_exact`, `script_tokens_iff`, `script_tokens_unique`, `script_uncut_iff`, `script_warnings_iff`, `scripts_recovered_partial`, `segment_order_irrelevant`, `segments_in_order`, `self_call_never_ends`, `set_field_step`, `set_variable_then_assert`, `short_file_rejected`, `shorter_natural_less_iff`, `signature_ignored`, `silent_uses_defined_only`, `source_directory_refuted`, `source_number_refuted`, `source_path_letters`, `source_path_refuted`, `source_provenance`, `source_verdict_partial`, `source_verdicts_exact`, `source_verdicts_only`, `sources_recovered_partial`, `step_does_or_stops`, `step_does_unique`, `step_exact`, `step_hangs_iff`, `step_stops_iff`, `steps_recovered_refuted`, `stored_arithmetic_partial`, `stored_calculation_evaluates_partial`, `stored_call_evaluates_partial`, `stored_call_panics`, `stored_char_of_number`, `stored_get_refuted`, `stored_items_show`, `stored_literal_hidden`, `stored_number_one_byte`, `stored_numbers_refuted`, `stored_text_cut_iff`, `stored_text_iff`, `stored_text_unique`, `stored_value_exact`, `stray_token_reported`, `string_encrypt_ascii`, `string_encrypt_injective`, `string_roundtrip`, `structured_scripts_compile`, `structured_test_partial`, `structured_verdict_partial`, `structured_verdicts_partial`, `tab_after_name_refuted`, `table_provenance_partial`, `tables_rectangular`, `test_counts`, `test_file_screen`, `test_needs_one_script`, `tests_crash_exact`, `tests_endless_exact`, `tests_exact`, `tests_give_unique`, `tests_once_partial`, `tests_once_refuted`, `tests_one_of_four`, `tests_one_of_three`, `tests_only_one`, `tests_panic_has_reason`, `text_crashes_exact`, `text_endless_exact`, `text_means_exact`, `text_reports_exact`, `text_uncut_iff`, `text_value_exact`, `text_warnings_exact`, `text_without_value_iff`, `text_words_iff`, `text_words_unique`, `too_many_tables`, `two_relationships_refuted`, `unknown_code_last`, `unknown_code_place_refuted`, `unknown_code_reported`, `unknown_content_rejected`, `unknown_function`, `unknown_functions_exact`, `unknown_functions_unique`, `unknown_operator_joins_names`, `unknown_steps_lost`, `unterminated_table_accepted`, `verdict_refuted`, `verdict_variable_refuted`, `verdicts_exact`, `verdicts_independent_of_variables`, `warnings_exact`, `warnings_same_in_both_builds`, `warnings_unique`, `white_space_exact`, `write_then_assert_partial`, `write_then_assert_refuted`, `write_then_read`.

## Disagreements between the code and the properties

Every line is proved as a theorem named `..._refuted`, `..._fails` or similar (see `MANIFEST.json`), about reachable states.

* Two-byte path numbers ignore their first byte (C01).
* The decoder accepts chunks that the format does not have: 0x1F, a bare 0x0F, a short 0x38, chunks past the end of a sector (C110).
* Content that is cut between two sectors is lost in the directories of fields, layouts, tables and data sources; padding
  among the links of an occurrence panics (C111).
* The stored numbers of occurrences and relationships are ignored: files with gaps in them, such as blank.fmp12, get links
  and criteria between the wrong occurrences, or cannot be tested at all (C112).
* A loop that counts with `>=` stops after 2 rounds instead of 10 (C103); a value written to an occurrence that is not current
  cannot be checked (C104); the functions that read a record differ where there is no record or no such field (C105).
* The signature of a file is never checked (C94).
* The chunk decoder divides by zero for an unknown opcode at the first byte of a block (C102).
* In a calculation a tab after a name becomes part of it (C108), the name of a field ends at the first character that is
  neither letter nor digit (C41), and what follows a complete expression is ignored (C109).
* The letter `h` is dropped from the paths of data sources, a directory inside the directory of a data source takes the
  name of the next one, and data sources with two-byte numbers lose their properties (C95).
* A sector chain that loops is read for ever (C17); lost chunks after malformed ones (C16); results that depend on the order
  of chunks (C21).
* A record added on another layout of the same table joins the found set of every layout of that table and becomes the current
  record there (C132).
* A stored step that calls a script shows its bare name; executed in a test it panics unless a variable has this name (C133).
* Found sets are stale after the records of a test are cleared (C29); moving in an empty found set panics (C35).
* Strict comparisons in relationships are not strict (C36), inequalities are not symmetric (C37), and reads over several
  relationships compare with the wrong field (C92).
* The calculation parser recurses for ever on a trailing `(` (C39); calls drop their second argument, swallow the operators
  after them and lose comparisons (C40); strings without alphanumeric characters disappear; text is compared as text even
  if both sides are numbers (C43); results such as `true` are looked up as variables again (C45).
* `occ::field` in a calculation ignores `occ` (C46).
* `Min(a, b)` is `a`, `Asin` is a minimum of texts and always panics when called from a calculation, `Get` knows no argument
  (C98); `"a b" < "a"` is true (C97).
* A failed test makes all later tests fail, and variables leak between tests (C47, C48); nested conditionals and loops do not
  nest (C50, C51); a missing script, a self call and an empty loop hang (C89); `exit_script` is ignored; the exit flag of
  `go_to_record` is ignored (C86).
* Commas and parentheses in strings split arguments (C57); unknown steps disappear (C58); a missing brace merges scripts (C67). A `loop` or `else` without a bracket ends the script, and its open blocks go on in the next one, which gets an end of a block it never began (C144).
* The compiler drops fields, value list values and join criteria (C68, C69), points every occurrence at table 0 (C70),
  overwrites relationships (C60), accepts unterminated declarations (C71), and overwrites ids when merging (C61).
* Named relationships and exported script blocks, which the language description has, are rejected (C100); `table A(` at the
  start of a program panics (C101).
* `delete_record` removes a field (C62).
* Inputs after the first contain the components and tests of the earlier ones (C80, C81).
* The compiled file depends on the visiting order of hash maps (C90), and so do calls of scripts with equal names (C91).
* The header of a compiled file has the name of the file written over the template: a file `ab` is called `ab/nk` there (C139).
* Every compiled file names a directory of the computer on which its template was made (C138).
* The JSON files differ from run to run in their order (C116), are overwritten by the next input (C119), and without a directory
  `inspect_output` the program panics before it tests or writes anything (C117).
* The script compiler is silent about a step that is cut off by the end of the text (C120); the warning about unbalanced blocks is
  only printed directly before a crash (C124).
* Of a number in a stored calculation one byte is read, and operators that are not known disappear: the names around them become one
  name (C131).
* Calculations report variables that are not written in them: `true` for a variable that holds the result of a comparison, an
  empty name for an undefined operand (C127); a third colon is swallowed without a report (C129).
* The line about an unknown chunk code does not show where it is (C134).
