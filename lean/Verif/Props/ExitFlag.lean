import Verif.Props.Script

/-! Property C86: the exit flag of `go_to_record`. Structured scripts with calls and exit flags. -/

namespace BurnFm.Props
open Spec

/-- C86 (partial): inside a loop, `go_to_record(target, flag)` leaves the loop if the flag is on and there was nowhere to
go, and otherwise continues with the next step. Missing: flags that are off, see `exit_flag_ignored`. -/
theorem exit_flag_partial (ev : Calculator) (p : Profile) (scripts : HMap FScript) (u : Vm) (name : Str)
    (below : List (Str × Nat)) (pre mid post : List ScriptStep) (s : ScriptStep) (hfr : u.frames = (name, pre.length) :: below)
    (hcode : (u.script scripts name below).instructions = pre ++ s :: mid ++ instr .endLoop [] :: post)
    (hmid : ∀ x ∈ mid, x.opcode ≠ .endLoop) (hs : Leaves s)
    (hon : ∀ c v, s.switch 1 = .ok c → u.world.eval ev (below.length + 1) c = .ok v → v ∉ flagOff) (w' : World) (leave : Bool)
    (h : goOrLeave ev p (below.length + 1) s u.world = .ok (w', leave)) :
    u.step ev p scripts = .ok { u with world := w', frames :=
      (name, if leave then pre.length + mid.length + 2 else pre.length + 1) :: below } := by
  have hu : u = St name below u.test pre.length u.world u.loops u.branchTaken := by
    obtain ⟨fr, lo, br, te, wo⟩ := u
    dsimp only at hfr
    subst hfr; rfl
  have hC : Code scripts name below u.test = pre ++ (s :: mid) ++ instr .endLoop [] :: post := hcode
  have hseek : seek isEndLoop (Code scripts name below u.test) pre.length = pre.length + (s :: mid).length :=
    seek_at hC (by
      intro x hx
      rcases List.mem_cons.mp hx with rfl | hx
      · rw [hs.1]; rfl
      · have := hmid x hx
        revert this
        cases x.opcode <;> simp [isEndLoop]) rfl
  rw [hu, step_at (s := s) (by rw [hC]; simp), exec_leave hs hon h]
  cases leave with
  | false => rfl
  | true =>
    rw [if_pos rfl, if_pos rfl, afterLoop, hseek, if_pos (by rw [hC]; simp)]
    rfl

/-- C86 is false: if there was nowhere to go, the loop is left, whatever the value of the flag. -/
theorem exit_flag_ignored (ev : Calculator) (p : Profile) (scripts : HMap FScript) (u : Vm) (name : Str)
    (below : List (Str × Nat)) (pre mid post : List ScriptStep) (s : ScriptStep) (hfr : u.frames = (name, pre.length) :: below)
    (hcode : (u.script scripts name below).instructions = pre ++ s :: mid ++ instr .endLoop [] :: post)
    (hmid : ∀ x ∈ mid, x.opcode ≠ .endLoop) (hs : Leaves s) (target flag tv fv : Str) (ht : s.switch 0 = .ok target)
    (hf : s.switch 1 = .ok flag) (hte : u.world.eval ev (below.length + 1) target = .ok tv)
    (hfe : u.world.eval ev (below.length + 1) flag = .ok fv) (hbrowse : u.world.findMode = false) (before after : DOcc)
    (db : Database) (hb : u.world.db.currentOcc = .ok before) (hm : moveRecord p u.world.db tv = .ok db)
    (ha : db.currentOcc = .ok after) (hstay : after.recordPtr = before.recordPtr) :
    u.step ev p scripts = .ok { u with world := { u.world with db := db }, frames :=
      (name, pre.length + mid.length + 2) :: below } := by
  obtain ⟨fr, lo, br, te, wo⟩ := u
  dsimp only at *
  subst hfr
  have hC : Code scripts name below te = pre ++ (s :: mid) ++ instr .endLoop [] :: post := hcode
  have hseek : seek isEndLoop (Code scripts name below te) pre.length = pre.length + (s :: mid).length :=
    seek_at hC (by
      intro x hx
      rcases List.mem_cons.mp hx with rfl | hx
      · rw [hs.1]; rfl
      · have := hmid x hx
        revert this
        cases x.opcode <;> simp [isEndLoop]) rfl
  show (St name below te pre.length wo lo br).step ev p scripts = _
  rw [step_at (s := s) (by rw [hC]; simp)]
  have hloop : afterLoop (Code scripts name below te) pre.length = .ok (pre.length + mid.length + 2) := by
    rw [afterLoop, hseek, if_pos (by rw [hC]; simp)]; rfl
  unfold Vm.exec
  rw [hs.1]
  dsimp only
  rw [if_pos hs.2, ht, ev_ok_bind]
  show (wo.eval ev (below.length + 1) target >>= _) = _
  rw [hte, ev_ok_bind, hf, ev_ok_bind]
  show (wo.eval ev (below.length + 1) flag >>= _) = _
  rw [hfe, ev_ok_bind]
  show (if wo.findMode = true then _ else _) = _
  rw [hbrowse, if_neg (by simp)]
  show (liftR wo.db.currentOcc >>= _) = _
  rw [hb]
  show (liftR (moveRecord p wo.db tv) >>= _) = _
  rw [hm]
  show (liftR db.currentOcc >>= _) = _
  rw [ha]
  show (if after.recordPtr = before.recordPtr then _ else _) = _
  rw [if_pos hstay, hloop]
  simp only [St, hbrowse]
  rfl

/-- `loop { go_to_record("next", 1 == 2) assert(1 == 2) }` -/
def flagOffLoop : Prog :=
  .loop (.step (instr .goToRecordRequestPage [t!"\"next\"", t!"1 == 2"]) (.step (instr .assert [t!"1 == 2"]) .nil)) .nil

/-- C52 is false for exit flags that are off: on the only record of a table, the assertion in

    loop { go_to_record("next", 1 == 2) assert(1 == 2) }

is not executed. -/
theorem exit_flag_refuted [LawfulRt] (fuel : Nat) (hf : 40 ≤ fuel) (p : Profile) :
    ∃ (q : Prog) (vm : Vm) (w' : World), q.WellFormed false ∧ vm.frames = [] ∧ vm.branchTaken = false ∧ vm.world.failed = false ∧
      Runs (fun env => evalCalc env fuel) p (fun _ => none) 1 q { vm.world with vars := vm.world.vars ++ [[]] } .failed w' ∧
      ∃ last, vm.runTests (fun env => evalCalc env fuel) p [] 20 [progTest q] = .ok ([true], last) := by
  obtain ⟨ev, hev⟩ : ∃ ev : Calculator, ev = fun env => evalCalc env fuel := ⟨_, rfl⟩
  have hF : ∀ env, ev env t!"1 == 2" = .ok t!"false" := fun env => by rw [hev]; exact evalCalc_false env hf
  have hN : ∀ env, ev env t!"\"next\"" = .ok t!"\"next\"" := fun env => by
    rw [hev]; exact evalCalc_string (s := t!"next") (by decide) ⟨'n', by decide, rfl⟩ env (by omega)
  rw [← hev]
  obtain ⟨db, hdb⟩ : ∃ db : Database, db = { occs := [{ foundSet := [0] }], tables := [{ name := t!"A", fields := [{ records := [t!"x"] }] }] } := ⟨_, rfl⟩
  have hcur : db.currentOcc = .ok { foundSet := [0] } := by rw [hdb]; rfl
  have hmove : moveRecord p db t!"\"next\"" = .ok db := by rw [hdb]; cases p <;> rfl
  have hgo : ∀ w : World, w.findMode = false → w.db = db →
      goOrLeave ev p 1 (instr .goToRecordRequestPage [t!"\"next\"", t!"1 == 2"]) w = .ok (w, false) := by
    rintro ⟨db', _, _, _, _, _⟩ h1 h2
    dsimp only at h1 h2
    subst h1; subst h2
    simp [goOrLeave, instr, ScriptStep.switch, idx, liftR, ev_ok_bind, ev_pure, World.eval, hN, hF, hcur, hmove, flagOff]
  obtain ⟨vm, hvm⟩ : ∃ vm : Vm, vm = { world := { db := db } } := ⟨_, rfl⟩
  have hq : flagOffLoop.WellFormed false := by
    simp [flagOffLoop, Prog.WellFormed, Straight, Leaves, instr]
  refine ⟨flagOffLoop, vm, { vm.world with vars := [[]], failed := true, out := [.assertionFailed t!"1 == 2"] }, hq,
    by rw [hvm], by rw [hvm], by rw [hvm], ?_, ?_⟩
  · rw [hvm]
    refine .loopFail (.go (by decide) (hgo _ rfl rfl) (.stepFail (by decide) ?_ rfl))
    simp [effect, instr, World.eval, ScriptStep.switch, idx, liftR, ev_ok_bind, ev_pure, hF]
  · have e1 : (vm.loadTest (progTest flagOffLoop)).step ev p [] =
        .ok (St t!"a" [] (progTest flagOffLoop).script 1 { vm.world with vars := [[]] } [0] false) := by
      rw [hvm]
      simp [flagOffLoop, Vm.loadTest, St, progTest, Prog.code, instr, Vm.step, Vm.script, Vm.exec, ev_pure]
    have e2 := exit_flag_ignored ev p [] (St t!"a" [] (progTest flagOffLoop).script 1 { vm.world with vars := [[]] } [0] false)
      t!"a" [] [instr .loop []] [instr .assert [t!"1 == 2"]] [] (instr .goToRecordRequestPage [t!"\"next\"", t!"1 == 2"]) rfl rfl
      (by decide) (by decide) _ _ t!"\"next\"" t!"false" rfl rfl (hN _) (hF _) (by rw [hvm]; rfl) { foundSet := [0] } { foundSet := [0] } db
      (by rw [hvm]; exact hcur) (by rw [hvm]; exact hmove) hcur rfl
    obtain ⟨v, hv⟩ : ∃ v : Vm, v = { (St t!"a" [] (progTest flagOffLoop).script 4 { vm.world with vars := [[]] } [0] false) with frames := [] } := ⟨_, rfl⟩
    have e3 : (St t!"a" [] (progTest flagOffLoop).script 4 { vm.world with vars := [[]] } [0] false).step ev p [] = .ok v := by
      rw [hv, hvm]; rfl
    refine ⟨v, ?_⟩
    unfold Vm.runTests
    have hr : (vm.loadTest (progTest flagOffLoop)).run ev p [] 20 = .ok v := by
      unfold Vm.run
      rw [if_pos (by rw [hvm]; rfl), e1, ev_ok_bind]
      unfold Vm.run
      rw [if_pos (by rw [hvm]; rfl), e2, ev_ok_bind]
      unfold Vm.run
      rw [if_pos (by rw [hvm]; rfl)]
      have e4 : ({ (St t!"a" [] (progTest flagOffLoop).script 1 { vm.world with vars := [[]] } [0] false) with
          world := { (St t!"a" [] (progTest flagOffLoop).script 1 { vm.world with vars := [[]] } [0] false).world with db := db },
          frames := (t!"a", [instr .loop []].length + [instr .assert [t!"1 == 2"]].length + 2) :: [] } : Vm) =
          St t!"a" [] (progTest flagOffLoop).script 4 { vm.world with vars := [[]] } [0] false := by
        rw [hvm]; rfl
      rw [e4, e3, ev_ok_bind]
      exact run_stopped (.inr (by rw [hv]))
    rw [hr, ev_ok_bind]
    unfold Vm.runTests
    rw [hv, hvm]
    rfl

/-! ### Examples -/

section Example

/-- `go_to_record("first") if(x == 1) { } elif(x == 2) { set_variable(y, 1) }` -/
def setUp : Prog :=
  .step (instr .goToRecordRequestPage [t!"\"first\""]) (.cond t!"x == 1" .nil
    (.elif t!"x == 2" (.step (instr .setVariable [t!"y", t!"1"]) .nil) .none) .nil)

/-- `perform_script("set up") loop { assert(x == 1) if(x == 1) { } else { go_to_record("next", "true") } }
if(x == 1) { show_all_records() } perform_script("set up") if(x == 2) { } else { if(x == 3) { } else { assert(x == 4) } }` -/
def calling : Prog :=
  .step (instr .performScript [t!"\"set up\""])
    (.loop (.step (instr .assert [t!"x == 1"]) (.cond t!"x == 1" .nil
      (.else (.step (instr .goToRecordRequestPage [t!"\"next\"", t!"\"true\""]) .nil)) .nil))
    (.cond t!"x == 1" (.step (instr .showAllRecords []) .nil) .none
    (.step (instr .performScript [t!"\"set up\""])
    (.cond t!"x == 2" .nil (.else (.cond t!"x == 3" .nil (.else (.step (instr .assert [t!"x == 4"]) .nil)) .nil)) .nil))))

/-- The scripts that `calling` calls. -/
def callingEnv : Str → Option Prog := fun name => if name = t!"set up" then some setUp else none

/-- `set up` has no loops and leaves the flag off. -/
def callingOk (_ : Bool) (a a' : Taken) (name : Str) : Prop := name = t!"set up" ∧ a = some false ∧ a' = some false

example : Linked [(7, { name := t!"other" }), (9, { name := t!"set up", instructions := setUp.code })] callingEnv := by
  intro name q h
  unfold callingEnv at h
  split at h
  · next hn =>
    injection h with h
    subst h; subst hn
    exact ⟨_, rfl, rfl⟩
  · cases h

theorem calling_scripts_orderly (ev : Calculator) : OrderlyScripts ev callingEnv callingOk := by
  rintro l a a' name ⟨rfl, rfl, rfl⟩
  refine ⟨setUp, rfl, .step (by decide) (.cond trivial (fun _ => rfl) ?_ (.nil (.inr rfl)))⟩
  exact .elif (by simp) (.nil (.inr rfl)) (.last (t := some true) (.step (by decide) (.nil (.inr rfl))))

theorem calling_orderly [LawfulRt] (fuel : Nat) (hf : 40 ≤ fuel) :
    OrderlyTest (fun env => evalCalc env fuel) callingOk (some false) (progTest calling) calling := by
  have hcall : ∀ name, Calls (fun env => evalCalc env fuel) (instr .performScript [t!"\"set up\""]) name →
      callingOk true (some false) (some false) name := by
    rintro name ⟨d, w, -, c, v, h1, h2, h3⟩
    injection h1 with h1
    subst h1
    have h4 : w.eval (fun env => evalCalc env fuel) d t!"\"set up\"" = .ok t!"\"set up\"" :=
      evalCalc_string (s := t!"set up") (by decide) ⟨'s', by decide, rfl⟩ _ (by omega)
    have h5 : Except.ok v = Except.ok t!"\"set up\"" := h2.symm.trans h4
    injection h5 with h5
    subst h5
    have h6 : stripQuotes t!"\"set up\"" = .ok t!"set up" := rfl
    rw [h6] at h3
    injection h3 with h3
    exact ⟨h3.symm, rfl, rfl⟩
  have hflag : FlagOn (fun env => evalCalc env fuel) (instr .goToRecordRequestPage [t!"\"next\"", t!"\"true\""]) := by
    intro d c v w h1 h2
    injection h1 with h1
    subst h1
    have h4 : w.eval (fun env => evalCalc env fuel) d t!"\"true\"" = .ok t!"\"true\"" :=
      evalCalc_string (s := t!"true") (by decide) ⟨'t', by decide, rfl⟩ _ (by omega)
    have h5 : Except.ok v = Except.ok t!"\"true\"" := h2.symm.trans h4
    injection h5 with h5
    subst h5
    decide
  refine ⟨rfl, .call rfl hcall (.loop (x := some false) (y := some false) (.inr rfl) ?_ ?_)⟩
  · exact .step (by decide) (.cond trivial (fun _ => rfl) (.elif (by simp) (.nil (.inr rfl))
      (.else (t := some false) (.leave (by decide) hflag (.inr rfl) (.nil (.inr rfl))))) (.nil (.inr rfl)))
  · refine .cond trivial (fun h => (h rfl).elim) (.last (t := some true) (.step (by decide) (.nil (.inr rfl)))) ?_
    refine .call rfl hcall (.cond trivial (fun _ => rfl) (.elif (by simp) (.nil (.inr rfl)) ?_) (.nil (.inr rfl)))
    exact .else (t := some false) (.cond rfl (fun _ => rfl) (.elif (by simp) (.nil (.inr rfl))
      (.else (t := some false) (.step (by decide) (.nil (.inr rfl))))) (.nil (.inr rfl)))

/-- The hypothesis of `cleanup_removes_records`, with a table that has a record before the run. -/
example : ∃ vs last, Vm.runTestsWithCleanup (fun _ t => .ok t) .debug [] 5 [progTest (.step (instr .assert [t!"true"]) .nil)]
    { world := { db := { tables := [{ name := t!"A", fields := [{ name := t!"f", records := [t!"x"] }] }] } } } = .ok (vs, last) :=
  ⟨_, _, rfl⟩

end Example

end BurnFm.Props
