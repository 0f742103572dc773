import Verif.Proofs.VmNotes
import Verif.Props.CalcNotes
import Verif.Props.Isolation

/-! C130: variables left over by earlier tests. -/

namespace BurnFm.Props
open Spec

/-- The calculator of the code is one of those the theorems below are about. -/
theorem evalCalc_reports [Rt] (fuel : Nat) : ReportsUnknown (fun env s => evalCalcN env fuel s) :=
  ⟨fun env s x h => named_are_undefined env fuel s x h, fun env env' s hm h => only_named_variables_matter env env' hm fuel s h⟩

/-- The test alone prints the warnings of its run. -/
theorem testNotes_one (evN : NotedCalculator) (p : Profile) (scripts : HMap FScript) (n : Nat) (t : FTest) (vm : Vm) :
    vm.testNotes evN p scripts n [t] = (vm.loadTest t).runNotes evN p scripts n := by
  simp only [Vm.testNotes]
  split <;> simp [Vm.testNotes]

theorem noVariable_iff (vm : Vm) (x : Str) : NoVariable vm x ↔ ∀ d, lookupIn vm.world.vars d x = none := by
  refine ⟨fun h d => ?_, fun h m hm => ?_⟩
  · unfold lookupIn
    cases hd : vm.world.vars[d]? with
    | none => rfl
    | some m => exact h m (List.mem_of_getElem? hd)
  · obtain ⟨d, hd⟩ := List.mem_iff_getElem?.mp hm
    have := h d
    unfold lookupIn at this
    rw [hd] at this
    exact this

/-- C130 for one test: variables left over by earlier tests, and loops that were left, change nothing about a test that, alone,
reports none of them as unknown: it ends in the same verdict, data and mode, with the same warnings and messages. -/
theorem leftover_variables_ignored (evN : NotedCalculator) (hr : ReportsUnknown evN) (p : Profile) (scripts : HMap FScript) (n : Nat)
    (vm vm' : Vm) (hf : Fresh vm) (hs : SameButVariables vm vm') (t : FTest) (alone : Vm)
    (h : (vm.loadTest t).run evN.mute p scripts n = .ok alone)
    (hx : ∀ x, ReportedBy evN p scripts n vm t x → NoVariable vm' x) :
    vm'.testNotes evN p scripts n [t] = vm.testNotes evN p scripts n [t] ∧
    ∃ after, (vm'.loadTest t).run evN.mute p scripts n = .ok after ∧ SameButVariables alone after ∧
      (∀ x, NoVariable vm' x → NoVariable alone x → NoVariable after x) ∧
      ∃ said, alone.world.out = vm.world.out ++ said ∧ after.world.out = vm'.world.out ++ said := by
  have e : vm'.loadTest t = carry (vm'.world.vars ++ [[]]) vm'.loops vm'.world.out (vm.loadTest t) := by
    obtain ⟨frames, loops, bt, test, world⟩ := vm
    obtain ⟨frames', loops', bt', test', world'⟩ := vm'
    obtain ⟨h1, h2, h3, h4, h5, h6, h7⟩ := hs
    obtain ⟨g1, g2, g3⟩ := hf
    obtain ⟨failed, fm, cr, db, lay, vars, out⟩ := world
    obtain ⟨failed', fm', cr', db', lay', vars', out'⟩ := world'
    simp only at h1 h2 h3 h4 h5 h6 h7 g1 g2 g3
    subst h1 h2 h3 h4 h5 h6 h7 g1 g2 g3
    rfl
  have hV : VarsLe (NoVariable vm') (vm.loadTest t).world.vars (vm'.world.vars ++ [[]]) := by
    have hnil : VarsLe (NoVariable vm') vm.world.vars vm'.world.vars := by
      rw [hf.vars]
      exact ⟨Nat.zero_le _, (fun d x v h => nomatch h), fun d x hx => (noVariable_iff vm' x).mp hx d⟩
    exact hnil.push
  have hd : (vm.loadTest t).frames.length ≤ (vm.loadTest t).world.vars.length := by simp [Vm.loadTest, hf.frames, hf.vars]
  obtain ⟨h1, V, z, h2, h3, h4⟩ := run_carry hr (ls := vm'.loops) (o := vm'.world.out) hV hd
    (fun x hn => hx x (by unfold ReportedBy; rw [testNotes_one]; exact hn)) h
  rw [← e] at h1 h4
  refine ⟨by rw [testNotes_one, testNotes_one, h1], _, h4, ⟨rfl, rfl, rfl, rfl, rfl, rfl, rfl⟩, fun x hn ha => ?_, z, h3, rfl⟩
  rw [noVariable_iff] at ha ⊢
  exact fun d => (h2.same d x hn).trans (ha d)

/-- C130: a test without steps that change data, found sets, record, layout or mode, in itself and in all scripts, that passes leaves
everything but variables as it was; if it does not end in the middle of a branch. -/
theorem variable_tests_leave_state (ev : Calculator) (p : Profile) (scripts : HMap FScript) (n : Nat) (vm : Vm) (hfr : vm.frames = [])
    (hfail : vm.world.failed = false) (t : FTest) (ht : ∀ s ∈ t.script.instructions, s.opcode ∉ changesState)
    (hsc : ∀ e ∈ scripts, ∀ s ∈ e.2.instructions, s.opcode ∉ changesState) (r : Vm)
    (h : (vm.loadTest t).run ev p scripts n = .ok r) (hpass : r.world.failed = false) (hbt : r.branchTaken = vm.branchTaken) :
    SameButVariables vm r := by
  obtain ⟨d, e⟩ := run_data (u := vm.loadTest t) ht hsc h
  refine ⟨?_, hbt, hpass.trans hfail.symm, d.findMode, d.criteria, d.db, d.layouts⟩
  rcases e with e | e
  · rw [hpass] at e; cases e
  · rw [e, hfr]

/-- C130 for a list of tests, and a part of C48: take tests that, each run alone, leave data, mode and verdict as they were (they
may set variables, call scripts, loop), and report no variable as unknown that one of them sets. Run one after the other they get
the verdicts and warnings they get alone, and so does any other such test after them, also one that changes data or fails. Missing
for C48: tests after a test that fails or changes data, and tests that use variables they have not set. -/
theorem verdicts_independent_of_variables (evN : NotedCalculator) (hr : ReportsUnknown evN) (p : Profile) (scripts : HMap FScript)
    (n : Nat) (vm : Vm) (hf : Fresh vm) (alone : FTest → Vm) (ts : List FTest) (t : FTest)
    (h : ∀ a ∈ ts ++ [t], (vm.loadTest a).run evN.mute p scripts n = .ok (alone a))
    (hsame : ∀ a ∈ ts, SameButVariables vm (alone a))
    (hx : ∀ a ∈ ts, ∀ b ∈ ts ++ [t], ∀ x, ReportedBy evN p scripts n vm b x → NoVariable (alone a) x) :
    (∃ last, vm.runTests evN.mute p scripts n (ts ++ [t]) = .ok ((ts ++ [t]).map (fun a => !(alone a).world.failed), last) ∧
      SameButVariables (alone t) last) ∧
    vm.testNotes evN p scripts n (ts ++ [t]) = (ts ++ [t]).flatMap (fun a => vm.testNotes evN p scripts n [a]) := by
  have hmain : ∀ vm', SameButVariables vm vm' → (∀ b ∈ ts ++ [t], ∀ x, ReportedBy evN p scripts n vm b x → NoVariable vm' x) →
      (∃ last, vm'.runTests evN.mute p scripts n (ts ++ [t]) = .ok ((ts ++ [t]).map (fun a => !(alone a).world.failed), last) ∧
        SameButVariables (alone t) last) ∧
      vm'.testNotes evN p scripts n (ts ++ [t]) = (ts ++ [t]).flatMap (fun a => vm.testNotes evN p scripts n [a]) := by
    induction ts with
    | nil =>
      intro vm' hs hn
      obtain ⟨h1, after, h2, h3, -, -⟩ := leftover_variables_ignored evN hr p scripts n vm vm' hf hs t (alone t)
        (h t (by simp)) (hn t (by simp))
      refine ⟨⟨after, ?_, h3⟩, by simpa using h1⟩
      simp [Vm.runTests, h2, ev_ok_bind, ev_pure, h3.failed]
    | cons a ts ih =>
      intro vm' hs hn
      obtain ⟨h1, after, h2, h3, h4, -⟩ := leftover_variables_ignored evN hr p scripts n vm vm' hf hs a (alone a)
        (h a (by simp)) (hn a (by simp))
      have hsa := hsame a (by simp)
      have hs' : SameButVariables vm after :=
        ⟨h3.frames.trans hsa.frames, h3.branchTaken.trans hsa.branchTaken, h3.failed.trans hsa.failed,
          h3.findMode.trans hsa.findMode, h3.criteria.trans hsa.criteria, h3.db.trans hsa.db, h3.layouts.trans hsa.layouts⟩
      obtain ⟨⟨last, h5, h6⟩, h7⟩ := ih (fun b hb => h b (by simp at hb ⊢; tauto)) (fun b hb => hsame b (by simp [hb]))
        (fun b hb c hc => hx b (by simp [hb]) c (by simp at hc ⊢; tauto)) after hs'
        (fun b hb x hb' => h4 x (hn b (by simp at hb ⊢; tauto) x hb') (hx a (by simp) b (by simp at hb ⊢; tauto) x hb'))
      refine ⟨⟨last, ?_, h6⟩, ?_⟩
      · simp only [List.cons_append, Vm.runTests, h2, ev_ok_bind, h5, ev_pure, List.map_cons, h3.failed]
      · rw [testNotes_one] at h1
        simp only [List.cons_append, Vm.testNotes, h2, h1, h7, List.flatMap_cons]
  refine hmain vm ⟨rfl, rfl, rfl, rfl, rfl, rfl, rfl⟩ fun b _ x _ m hm => ?_
  rw [hf.vars] at hm
  cases hm

/-! ### Examples -/

section Example
attribute [local instance] toyRt

/-- The calculations of the examples, with their warnings. -/
def toyCalcN : NotedCalculator := fun env s => evalCalcN env 60 s

/-- `set_variable(x, 5)`, a call of a script that sets `x` too, and an assertion. -/
def setsX : FTest := testOf t!"a" [(.setVariable, [t!"x", t!"5"]), (.performScript, [t!"\"s\""]), (.assert, [t!"x == 5"])]

/-- The script sets `y` and `x`. -/
def setsXY : FScript := (testOf t!"s" [(.setVariable, [t!"y", t!"7"]), (.setVariable, [t!"x", t!"y"])]).script

/-- A loop that counts `i` up to 2. -/
def counts : FTest := testOf t!"b" [(.setVariable, [t!"i", t!"0"]), (.loop, []), (.setVariable, [t!"i", t!"i + 1"]),
  (.exitLoopIf, [t!"i == 2"]), (.endLoop, []), (.showCustomDialog, [t!"i"])]

/-- A test that sets `x`, and reads `z`, which no test sets. -/
def readsZ : FTest := testOf t!"c" [(.setVariable, [t!"x", t!"1"]), (.assert, [t!"z == x"])]

/-- The state after a test alone. -/
def toyAlone (t : FTest) : Vm := (((({} : Vm).loadTest t).run toyCalcN.mute .debug [(1, setsXY)] 40).toOption).getD {}

example : Fresh {} ∧ ReportsUnknown toyCalcN ∧
    (∀ a ∈ [setsX, counts] ++ [readsZ], (({} : Vm).loadTest a).run toyCalcN.mute .debug [(1, setsXY)] 40 = .ok (toyAlone a)) ∧
    (∀ a ∈ [setsX, counts], SameButVariables {} (toyAlone a)) ∧
    (∀ b ∈ [setsX, counts] ++ [readsZ], ∀ x, ReportedBy toyCalcN .debug [(1, setsXY)] 40 {} b x → x = t!"z") ∧
    NoVariable (toyAlone setsX) t!"z" ∧ NoVariable (toyAlone counts) t!"z" ∧
    ({} : Vm).testNotes toyCalcN .debug [(1, setsXY)] 40 [readsZ] = [.unknownVariable t!"z"] ∧
    (toyAlone setsX).world.vars = [[(t!"x", t!"5")], [(t!"y", t!"7"), (t!"x", t!"7")]] ∧
    ([setsX, counts] ++ [readsZ]).map (fun a => !(toyAlone a).world.failed) = [true, true, false] := by
  have hrun : ∀ a ∈ [setsX, counts] ++ [readsZ],
      (({} : Vm).loadTest a).run toyCalcN.mute .debug [(1, setsXY)] 40 = .ok (toyAlone a) := by
    intro a ha
    have : ∀ a ∈ [setsX, counts] ++ [readsZ],
        ((({} : Vm).loadTest a).run toyCalcN.mute .debug [(1, setsXY)] 40).toOption.isSome = true := by decide +kernel
    have := this a ha
    unfold toyAlone
    generalize (({} : Vm).loadTest a).run toyCalcN.mute .debug [(1, setsXY)] 40 = r at this ⊢
    cases r with
    | error e => cases this
    | ok v => rfl
  refine ⟨⟨rfl, rfl, rfl⟩, evalCalc_reports 60, hrun, fun a ha => ?_, fun b hb x hx => ?_, by
    unfold NoVariable; decide +kernel, by unfold NoVariable; decide +kernel, by decide +kernel, by decide +kernel, by decide +kernel⟩
  · have h1 : ∀ a ∈ [setsX, counts], (∀ s ∈ a.script.instructions, s.opcode ∉ changesState) ∧
        (toyAlone a).world.failed = false ∧ (toyAlone a).branchTaken = false := by decide +kernel
    exact variable_tests_leave_state _ .debug [(1, setsXY)] 40 {} rfl rfl a (h1 a ha).1 (by decide +kernel) _
      (hrun a (List.mem_append_left _ ha)) (h1 a ha).2.1 (h1 a ha).2.2
  · have : ∀ b ∈ [setsX, counts] ++ [readsZ], ∀ y ∈ ({} : Vm).testNotes toyCalcN .debug [(1, setsXY)] 40 [b],
        y = .unknownVariable t!"z" := by decide +kernel
    have := this b hb _ hx
    injection this

/-- The warning matters: without `set_variable(x, 1)` the last test reads an unset `x`, reports it, and its verdict depends on the
first test. -/
example :
    let t := testOf t!"d" [(.assert, [t!"x != 5"])]
    ({} : Vm).testNotes toyCalcN .debug [(1, setsXY)] 40 [t] ≠ [] ∧
    (({} : Vm).runTests toyCalcN.mute .debug [(1, setsXY)] 40 [t]).map (·.1) = .ok [true] ∧
    (({} : Vm).runTests toyCalcN.mute .debug [(1, setsXY)] 40 [setsX, t]).map (·.1) = .ok [true, false] := by
  decide +kernel

end Example

end BurnFm.Props
