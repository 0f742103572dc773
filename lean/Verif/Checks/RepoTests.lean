import Verif.Checks.Runtime

/-! The other unit tests of the repository, and its burn files. -/

namespace BurnFm.Checks

/-! ### src/dbcharconv.rs:55-100 -/

/-- `encode_test` -/
example : t!"hello".map encodeChar = [(0x12, 0xd3), (0x12, 0x6b), (0x13, 0x30), (0x13, 0x30), (0x13, 0x8e)] := by decide +kernel
example : (t!"hello".map encodeChar).map (fun a => decodeChar a.1 a.2) = t!"hello" := by decide +kernel
example : encodeText t!"a_bcdefghijklmnopqrstuvwxy z\x00\x00" =
    [0x12, 0xf, 0x2, 0x1d, 0x12, 0x25, 0x12, 0x3d, 0x12, 0x50, 0x12, 0x6b,
     0x12, 0xa3, 0x12, 0xb0, 0x12, 0xd3, 0x12, 0xec, 0x13, 0x5, 0x13, 0x1e,
     0x13, 0x30, 0x13, 0x5f, 0x13, 0x6d, 0x13, 0x8e, 0x13, 0xb3, 0x13, 0xc8,
     0x13, 0xda, 0x14, 0x10, 0x14, 0x33, 0x14, 0x53,0x14, 0x7b, 0x14, 0x8d,
     0x14, 0x97, 0x14, 0x9c, 0x2, 0xa, 0x14, 0xad, 0x0, 0x0, 0x0, 0x0] := by decide +kernel

/-! ### src/testing/test.rs:907-981 -/

/-- `prec_test` -/
example : verdicts (runBurn {} t!"
        test basicTest:
            script: [
                define prec_test() {
                    set_variable(x, 2 + 3 * 4);
                    show_custom_dialog(x);
                    assert(x == 14);
                    set_variable(x, (2 + 3) * 4);
                    show_custom_dialog(x);
                    assert(x == 20);
                    set_variable(y, 6 / 2 * 3);
                    show_custom_dialog(y);
                    assert(y == 9);
                    set_variable(x, 10 - 2 + 3 * 4);
                    show_custom_dialog(x);
                    assert(x == 20);
                    set_variable(x, 2 * (3 + (4 - 1)));
                    show_custom_dialog(x);
                    assert(x == 12);
                    set_variable(x, 2 + 3 * (4 - 1) / 2);
                    show_custom_dialog(x);
                    assert(x == 6.5);
                }
            ]
        end test;
        " 100) = some [true] := by decide +kernel

/-- `calc_test` -/
example : verdicts (runBurn {} t!"
        test basicTest:
            script: [
                define paren_test() {
                    set_variable(x, 2 + 3 * 4);
                    show_custom_dialog(x);
                    assert(x == 14);
                    set_variable(x, (2 + 3) * 4);
                    show_custom_dialog(x);
                    assert(x == 20);
                    set_variable(x, (2 * (2 + 3)) & \" things\");
                    show_custom_dialog(x);
                    assert(x == \"10 things\");
                    set_variable(x, 2 * (2 * (2)));
                    show_custom_dialog(x);
                    assert(x == 8);
                    set_variable(y, 2 * (x * (2)));
                    show_custom_dialog(y);
                    assert(y == 32);
                    set_variable(x, 2 * Min((2 + 2 + 2), y));
                    show_custom_dialog(x);
                    assert(x == 12);
                }
            ]
        end test;
        " 100) = some [true] := by decide +kernel

/-! ### src/testing/relation_mgr.rs:73-86 -/

/-- `graph_test` -/
def testGraph : Graph :=
  addRelation (addRelation (addRelation (addRelation (addRelation (addRelation Graph.new 1 2) 2 1) 2 7) 1 3) 8 9) 5 1

example : getPathFuel 50 testGraph 1 7 = some (some [1, 2, 7]) := by decide +kernel
example : getPathFuel 50 testGraph 2 1 = some (some [2, 1]) := by decide +kernel
example : getPathFuel 50 testGraph 1 9 = some none := by decide +kernel

/-! ### src/testing/calc_eval.rs:446-506 -/

/-- `basic_addition` -/
example : parseCalc 50 [⟨.numericLiteral, t!"6"⟩, ⟨.plus, []⟩, ⟨.numericLiteral, t!"1"⟩] = .ok (.binary (.number (6 : Rat)) .plus (.number (1 : Rat))) := by with_unfolding_all rfl

/-- `group_arithmetic` -/
example : parseCalc 50 [⟨.openParen, []⟩, ⟨.numericLiteral, t!"3"⟩, ⟨.plus, []⟩, ⟨.numericLiteral, t!"2"⟩, ⟨.closeParen, []⟩, ⟨.multiply, []⟩, ⟨.numericLiteral, t!"4"⟩] =
    .ok (.binary (.binary (.number (3 : Rat)) .plus (.number (2 : Rat))) .multiply (.number (4 : Rat))) := by with_unfolding_all rfl

/-- `string_concat` -/
example : parseCalc 50 [⟨.string, t!"FileMaker"⟩, ⟨.ampersand, []⟩, ⟨.string, t!" Testing"⟩] =
    .ok (.concatenation (.stringLiteral t!"FileMaker") (.stringLiteral t!" Testing")) := by with_unfolding_all rfl

/-! ### src/burn_script/lexer.rs:300-352, parser.rs:220-296 -/

/-- `lex_test_basic` -/
example : lexScript t!"
        define test_func(x, y) {
            set_variable(i, x);
            loop {
                exit_loop_if(i == y);
                set_variable(i, i + 1);
            }
            set_variable(x, min(3, 3));
            assert(i == y);
            exit_script(i);
        }" = .ok
  [⟨.define, t!""⟩,
   ⟨.identifier, t!"test_func"⟩,
   ⟨.argument, t!"x"⟩,
   ⟨.argument, t!"y"⟩,
   ⟨.openBracket, t!""⟩,
   ⟨.identifier, t!"set_variable"⟩,
   ⟨.argument, t!"i"⟩,
   ⟨.argument, t!"x"⟩,
   ⟨.semiColon, t!""⟩,
   ⟨.loop, t!""⟩,
   ⟨.openBracket, t!""⟩,
   ⟨.identifier, t!"exit_loop_if"⟩,
   ⟨.argument, t!"i == y"⟩,
   ⟨.semiColon, t!""⟩,
   ⟨.identifier, t!"set_variable"⟩,
   ⟨.argument, t!"i"⟩,
   ⟨.argument, t!"i + 1"⟩,
   ⟨.semiColon, t!""⟩,
   ⟨.closeBracket, t!""⟩,
   ⟨.identifier, t!"set_variable"⟩,
   ⟨.argument, t!"x"⟩,
   ⟨.argument, t!"min(3, 3)"⟩,
   ⟨.semiColon, t!""⟩,
   ⟨.identifier, t!"assert"⟩,
   ⟨.argument, t!"i == y"⟩,
   ⟨.semiColon, t!""⟩,
   ⟨.identifier, t!"exit_script"⟩,
   ⟨.argument, t!"i"⟩,
   ⟨.semiColon, t!""⟩,
   ⟨.closeBracket, t!""⟩] := by decide +kernel

/-- `parse_test_basic` -/
example : (compileScripts t!"
        define test_func(x, y) {
            set_variable(i, x);
            loop {
                exit_loop_if(i == y);
                set_variable(i, (i + 1));
                if(i == 7) {
                    set_variable(x, 20);
                } else {
                    set_variable(x, \"Jeff\" & \" Keighly\");
                }
            }
            assert(1 == 1);
            exit_script(i);
        }").map (fun l => (l[0]?).map fun s => (s.name, s.arguments, s.instructions)) =
  .ok (some (t!"test_func", [t!"x", t!"y"],
  [{ opcode := .setVariable, switches := [t!"i", t!"x"], index := 0 },
   { opcode := .loop, switches := [], index := 0 },
   { opcode := .exitLoopIf, switches := [t!"i == y"], index := 0 },
   { opcode := .setVariable, switches := [t!"i", t!"(i + 1)"], index := 0 },
   { opcode := .«if», switches := [t!"i == 7"], index := 0 },
   { opcode := .setVariable, switches := [t!"x", t!"20"], index := 0 },
   { opcode := .«else», switches := [], index := 0 },
   { opcode := .setVariable, switches := [t!"x", t!"\"Jeff\" & \" Keighly\""], index := 0 },
   { opcode := .endIf, switches := [], index := 0 },
   { opcode := .endLoop, switches := [], index := 0 },
   { opcode := .assert, switches := [t!"1 == 1"], index := 0 },
   { opcode := .exitScript, switches := [t!"i"], index := 0 }])) := by decide +kernel

/-! ### src/encoding_util.rs:66-102 -/

/-- `path_int_testing` -/
example : getPathInt [1] = 1 ∧ getPathInt [127] = 127 ∧ getPathInt [128] = 128 ∧ getPathInt [252, 1] = 129 ∧ putPathInt 129 = [252, 1] ∧
    putPathInt 130 = [252, 2] ∧ putPathInt 131 = [252, 3] ∧ putPathInt 1 = [1] ∧ putPathInt 2 = [2] ∧ getPathInt [] = 0 ∧
    getPathInt [252, 138] = 266 ∧ getPathInt (putPathInt 266) = 266 ∧ getPathInt [128, 138] = 266 ∧ putPathInt 0 = [0] := by decide +kernel

/-- `int_testing` -/
example : putInt .debug 67 = .ok [0, 0, 0, 67] ∧ getInt [0, 0, 0, 67] = 67 ∧ getInt [0, 0, 4, 0] = 1024 ∧ putInt .debug 1024 = .ok [0, 0, 4, 0] := by decide +kernel

/-- `string_testing` -/
example : fmStringDecrypt [0x7e, 0x22] = t!"$x" ∧ fmStringDecrypt [0x7e, 0x23] = t!"$y" ∧
    fmStringDecrypt [0x19, 0x3b, 0x34, 0x39, 0x3f, 0x36] = t!"Cancel" ∧ fmStringDecrypt [0x32, 0x3f, 0x36, 0x36, 0x35] = t!"hello" ∧
    fmStringDecrypt [] = [] := by decide +kernel

/-! ### src/compile/assembler.rs:322-339 -/

/-- `kv_instruction_test` -/
example : calcSmallKvIns [120, 104, 106, 116, 107, 120] = 0x4 ∧
    calcSmallKvIns [4, 184] = 0x2 ∧
    calcSmallKvIns [0, 0, 0, 4, 56, 1, 64, 1] = 0x5 ∧
    calcSmallKvIns [78, 152, 78, 152, 78, 152, 0, 0, 0, 0, 0, 0, 0, 0, 0, 0, 0, 0, 0, 0, 0, 0, 0, 0, 0, 0, 0, 0, 0, 0, 0, 0, 0, 0, 0, 0, 0, 0, 0, 0, 0, 0, 23, 10, 10, 40, 53, 122, 104, 106, 116, 107, 116, 104, 0, 0, 0, 0, 0, 0, 0, 0, 0, 0, 0, 0, 0, 0, 0, 0, 0, 0, 0, 0, 0, 0, 0, 0, 0, 0, 0, 0, 0, 0, 0, 0, 0, 0, 0, 0, 0, 0, 0, 0, 0, 0, 0, 0, 0, 0, 0, 0, 0, 0, 0, 0, 0, 0, 0, 0, 0, 0, 0, 0, 0, 0, 0, 0, 0, 0, 0, 0, 0, 0, 0, 0, 0, 0, 0, 1, 0, 0, 0, 2, 8, 107, 122, 107, 110, 116, 107, 116, 107, 0, 0, 0, 21, 6, 107, 122, 107, 110, 116, 111, 0, 0, 0, 0, 0, 0, 0, 0, 0, 0, 0, 0, 0, 0, 0, 0, 0, 0, 0, 0, 0, 0, 0, 0, 0, 0, 0, 0, 0, 0, 0, 0, 0, 0, 0, 0, 0, 0, 0, 0, 0, 0, 0, 0, 0, 0, 0, 0, 0, 0, 0, 0, 0, 0, 0, 0, 0, 0, 0, 0, 0, 0, 0, 0, 0, 0, 0, 0, 0, 0] = 0x6 := by decide +kernel

/-! ### The burn files of the repository -/

/-- doc/example.burn -/
def exampleBurn : Str := t!"table Person:
  primaryKey: Unique, Required, Text, {get(uuid)},
  !{!isEmpty(primaryKey)},
  \"Used as a primary key for the Person Table\",

  firstName: Text,

  lastName: Text,

  sex: Text, foundIn[male_female],
  age: Number,
  jobid: Text,
end table;

table_occurence Job:
  table: Job,
end table_occurence;

table_occurence Person:
  table: Person,
end table_occurence;

table Job:
  PrimaryKey: Unique, Required, Text, {get(uuid)},
  !{!isEmpty(primary)},
  \"Used as a primary key for the Job table\",
end table;

value_list male_female:
  \"male\", \"female\"
end value_list;

relationship:
  Person:Job,
  jobid == PrimaryKey,
end relationship;

script: [
  define basic_script(x, y) {
    set_variable(i, x);
    loop {
      exit_loop_if(i == y);
      set_variable(i, i + 1);
    }
    exit_script(i);
  }
]

test BasicTest:
  script: [
    define test() {
      set_variable(x, 2);
    }
  ],
end test;




"

/-- Fields of tables are lost, occurrences are numbered from 0 and the relationship has the number 3 (C60, C68, C70). -/
example : (compileBurn .debug exampleBurn).map (fun f => (f.tables.map (fun t => (t.1, t.2.name)), f.tableOccurrences.map (fun t => (t.1, t.2.name)),
    f.scripts.map (fun x => (x.1, x.2.name)))) =
    .ok ([(1, t!"Person"), (2, t!"Job")], [(0, t!"Job"), (1, t!"Person")], [(1, t!"basic_script")]) := by decide +kernel

example : (compileBurn .debug exampleBurn).map (fun f => (f.relationships.map (fun r => (r.1, r.2.table1Name)), f.valueLists.map (fun v => (v.1, v.2.name)), f.tests.map (·.name))) =
    .ok ([(3, t!"Person")], [(1, t!"male_female")], [t!"BasicTest"]) := by decide +kernel

/-- tests/input/blank_tests.burn -/
def blankTests : Str := t!"test BasicTest:
  script: [
    define blank_test() {
      set_variable(x, 1);
      perform_script(\"testing\");
      loop {
        new_record_request();
        set_field(blank::PrimaryKey, \"Kevin\");
        assert(blank::PrimaryKey == \"Kevin\");
        exit_loop_if(x == 10);
        set_variable(x, x + 1);
      }
      show_custom_dialog(x);
      assert(x <= 10);
    }
  ],
end test;
"

/-- With an empty script `testing`. -/
example : verdicts (runBurn { blankFile with scripts := [(1, { name := t!"testing" })] } blankTests 300) = some [true] := by decide +kernel

end BurnFm.Checks
