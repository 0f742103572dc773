import Verif.Checks.Runtime

/-! The test `basic_loop_test` of src/testing/test.rs:982-1057, on a file built by hand and without the indentation. -/

namespace BurnFm.Checks

def basicLoopTest : Str := t!"test BasicTest:
script: [
define blank_test() {
set_variable(x, 0);
go_to_layout(\"second_table\");
new_record_request();
set_field(second_table::PrimaryKey, \"Kevin\");
set_field(second_table::add, \"secret\");
go_to_layout(\"testing\");
loop {
exit_loop_if(x == 10);
new_record_request();
assert(x != 10);
if(x == 7) {
set_field(blank::PrimaryKey, \"Kevin\");
} elif(x == 1) {
set_field(blank::PrimaryKey, \"alvin\" & \" Presley\");
} elif(x == 2) {
set_field(blank::PrimaryKey, \"NAHHH\");
assert(blank::PrimaryKey == \"NAHHH\");
} else {
set_field(blank::PrimaryKey, \"Jeff\" & \" Keighly\");
}
set_variable(x, x + 1);
}
enter_find_mode();
set_field(blank::PrimaryKey, \"Kevin\");
perform_find();
assert(blank::PrimaryKey == \"Kevin\");
enter_find_mode();
set_field(blank::PrimaryKey, \"Jeff Keighly\");
perform_find();
go_to_record(\"first\");
loop {
assert(blank::PrimaryKey == \"Jeff Keighly\");
go_to_record(\"next\", \"true\");
}
show_all_records();
go_to_record(\"first\");
loop {
show_custom_dialog(blank::PrimaryKey);
go_to_record(\"next\", \"true\");
}
}
],
end test;"

/-- The assertions of the test after the run, in its order. -/
def basicLoopChecks : Ev Bool := do
  let (vs, vm) ← runBurn blankFile basicLoopTest 1000
  let db := vm.world.db
  let blank ← liftR (unwrap (db.table t!"blank"))
  let second ← liftR (unwrap (db.table t!"second_table"))
  let col0 ← liftR (idx blank.fields 0)
  let col0' ← liftR (idx second.fields 0)
  let values ← (List.range 10).mapM fun i => liftR (db.recordByField t!"PrimaryKey" i)
  let db' ← liftR (db.gotoRecord .debug 7)
  let here ← liftR (db'.currentRecordField t!"PrimaryKey")
  let occ ← liftR (db'.occurrenceByName t!"second_table")
  let related ← liftR (db'.relatedField 50 t!"second_table" t!"add")
  let jeff := some t!"\"Jeff Keighly\""
  pure (col0.records.length == 10 && col0'.records.length == 1 &&
    values == [jeff, some t!"\"alvin Presley\"", some t!"\"NAHHH\"", jeff, jeff, jeff, jeff, some t!"\"Kevin\"", jeff, jeff] &&
    here == t!"\"Kevin\"" && occ.foundSet.length == 1 && related == some (some t!"\"secret\"") && vs == [true])

/-- `basic_loop_test`. On blank.fmp12 itself the model panics while the database is generated, because occurrence 10 of that file
is the ninth (see `Props.dangling_link_panics`, C112). -/
example : (match basicLoopChecks with | .ok b => b | .error _ => false) = true := by decide +kernel

end BurnFm.Checks
