import Verif.Spec.Console
import Verif.Props.Messages

/-! Lemmas on the terminal output. -/

namespace BurnFm
open Spec

variable {ev : Calculator} {p : Profile} {scripts : HMap FScript}

theorem running_iff {u : Vm} : u.running = true ↔ u.world.failed = false ∧ u.frames ≠ [] := by
  simp only [Vm.running, Bool.and_eq_true, Bool.not_eq_true', List.isEmpty_eq_false_iff]

theorem messages_append (a b : List Line) : messages (a ++ b) = messages a ++ messages b := by
  induction a with
  | nil => rfl
  | cons l a ih => cases l <;> simp [messages, ih]

theorem reported_append (a b : List Line) : reported (a ++ b) = reported a ++ reported b := by
  induction a with
  | nil => rfl
  | cons l a ih => cases l <;> simp [reported, ih]

theorem openCalls_append (a b : List Line) : ∀ st st', openCalls st a = some st' → openCalls st (a ++ b) = openCalls st' b := by
  induction a with
  | nil => intro st st' h; cases h; rfl
  | cons l a ih =>
    intro st st' h
    cases l
    case popping n =>
      cases st with
      | nil => cases h
      | cons n' st =>
        simp only [openCalls, List.cons_append] at h ⊢
        split at h
        · rename_i e; rw [if_pos e]; exact ih _ _ h
        · cases h
    all_goals
      simp only [openCalls, List.cons_append] at h ⊢
      exact ih _ _ h

/-! ### One step -/

theorem hasBranch_iff (op : Instruction) : op.hasBranch = true ↔ op ∈ supported := by
  cases op <;> decide

/-- What the line of a step says, if the step can be executed. -/
structure StepSays (scripts : HMap FScript) (punc : List Instruction) (u u' : Vm) (ls : List Line) : Prop where
  calls : openCalls (active u) ls = some (active u')
  out : u'.world.out = u.world.out ++ messages ls
  ops : reported ls = unknown [nextStep scripts u]
  body : ls.filter isHeadline = []
  scope : .badScope ∈ ls → punc.getLast? ≠ some .loop

theorem stepLines_eq {punc : List Instruction} {u : Vm} {name : Str} {ip : Nat} {below : List (Str × Nat)} {s : ScriptStep}
    (hfr : u.frames = (name, ip) :: below) (hs : (u.script scripts name below).instructions[ip]? = some s) :
    u.stepLines ev scripts punc =
      match s.opcode with
      | .performScript =>
        printed (do liftR (stripQuotes (← (do u.world.eval ev (below.length + 1) (← s.switch 0) : Ev Str)))) fun callee =>
          if scripts.any (fun e => e.2.name == callee) then [.calling callee] else []
      | .showCustomDialog => printed (do u.world.eval ev (below.length + 1) (← s.switch 0) : Ev Str) fun v => [.dialog v]
      | .assert =>
        printed (do u.world.eval ev (below.length + 1) (← s.switch 0) : Ev Str)
          fun v => if v = t!"false" then printed (s.switch 0) fun c => [.assertionFailed c] else []
      | .endLoop => if punc.getLast? ≠ some .loop then [.badScope] else []
      | op => if op.hasBranch then [] else [.unimplemented op] := by
  unfold Vm.stepLines
  rw [hfr]
  dsimp only
  rw [hs]
  rfl

theorem switch_of {s : ScriptStep} {i : Nat} {c : Str} (h : s.switches[i]? = some c) : s.switch i = .ok c := by
  unfold ScriptStep.switch idx
  rw [h]
  rfl

theorem nextStep_eq {u : Vm} {name : Str} {ip : Nat} {below : List (Str × Nat)}
    (hfr : u.frames = (name, ip) :: below) : nextStep scripts u = (u.script scripts name below).instructions[ip]? := by
  unfold nextStep
  rw [hfr]

/-- The frames after a step that does not call a script. -/
theorem active_stay {u u' : Vm} {name : Str} {ip : Nat} {below : List (Str × Nat)} {s : ScriptStep}
    (hfr : u.frames = (name, ip) :: below) (sh : StepShape ev u u' name ip below s) (ho : s.opcode ≠ .performScript) :
    active u' = active u := by
  rcases sh.frames with ⟨i, h⟩ | ⟨h, -⟩
  · unfold active; rw [h, hfr]; rfl
  · exact absurd h ho

theorem says_silent {u : Vm} {name : Str} {ip : Nat} {below : List (Str × Nat)} {s : ScriptStep}
    (hfr : u.frames = (name, ip) :: below) (hs : (u.script scripts name below).instructions[ip]? = some s)
    (h1 : s.opcode ≠ .showCustomDialog) (h2 : s.opcode ≠ .assert) : Says ev scripts u [] := by
  have hat : AtStep scripts u s := ⟨name, ip, below, hfr, hs⟩
  refine .silent (fun s' hs' => ?_) (fun s' c hs' e => ?_)
  · cases Props.atStep_unique hat hs'; exact h1
  · cases Props.atStep_unique hat hs'; exact absurd e h2

theorem out_silent {u u' : Vm} {name : Str} {ip : Nat} {below : List (Str × Nat)} {s : ScriptStep}
    (hfr : u.frames = (name, ip) :: below) (hs : (u.script scripts name below).instructions[ip]? = some s)
    (h : u.step ev p scripts = .ok u') (h1 : s.opcode ≠ .showCustomDialog) (h2 : s.opcode ≠ .assert) :
    u'.world.out = u.world.out := by
  obtain ⟨m, hm, ho⟩ := Props.step_prints ev p scripts u u' h
  rw [ho, Props.says_unique hm (says_silent hfr hs h1 h2), List.append_nil]

theorem step_says {punc : List Instruction} {u u' : Vm} (h : u.step ev p scripts = .ok u') :
    StepSays scripts punc u u' (u.stepLines ev scripts punc) := by
  obtain ⟨name, ip, below, hfr, ⟨hn, rfl⟩ | ⟨s, hs, sh, hx⟩⟩ := step_cases h
  · have e : u.stepLines ev scripts punc = [.popping name] := by
      unfold Vm.stepLines; rw [hfr]; dsimp only; rw [hn]
    rw [e]
    refine ⟨?_, by simp [messages], ?_, rfl, by simp⟩
    · simp [active, hfr, openCalls]
    · rw [nextStep_eq hfr, hn]; rfl
  · have hat : AtStep scripts u s := ⟨name, ip, below, hfr, hs⟩
    have hlen : u.frames.length = below.length + 1 := by rw [hfr]; rfl
    rw [stepLines_eq hfr hs]
    by_cases hp : s.opcode = .performScript
    · have hout := out_silent hfr hs h (by rw [hp]; decide) (by rw [hp]; decide)
      have hops : unknown [nextStep scripts u] = [] := by
        rw [nextStep_eq hfr, hs]; simp [unknown, hp, supported]
      unfold Vm.exec at hx
      rw [hp] at hx ⊢
      dsimp only at hx ⊢
      rw [ev_bind_ok] at hx
      obtain ⟨c, hc, hx⟩ := hx
      rw [ev_bind_ok] at hx
      obtain ⟨v, hv, hx⟩ := hx
      rw [ev_bind_ok] at hx
      obtain ⟨callee, hq, hx⟩ := hx
      rw [hc, ev_ok_bind, hv, ev_ok_bind, hq]
      dsimp only [printed]
      split at hx
      · rename_i hany
        rw [if_pos hany]
        injection hx with hx; subst hx
        exact ⟨by simp [openCalls, active, hfr], by simp [messages], by rw [hops]; rfl, rfl, by simp⟩
      · rename_i hany
        rw [if_neg hany]
        injection hx with hx; subst hx
        exact ⟨by simp [openCalls, active], by simp [messages], by rw [hops]; rfl, rfl, by simp⟩
    · have hact : active u' = active u := active_stay hfr sh hp
      by_cases hd : s.opcode = .showCustomDialog
      · have hops : unknown [nextStep scripts u] = [] := by
          rw [nextStep_eq hfr, hs]; simp [unknown, hd, supported]
        obtain ⟨m, hm, ho⟩ := Props.step_prints ev p scripts u u' h
        cases hm with
        | dialog a1 a2 a3 a4 =>
          cases Props.atStep_unique hat a1
          have e := switch_of a3
          rw [hd]
          dsimp only
          rw [e, ev_ok_bind, ← hlen, a4]
          exact ⟨by rw [hact]; rfl, ho, by rw [hops]; rfl, rfl, by simp [printed]⟩
        | failure a1 a2 _ _ => cases Props.atStep_unique hat a1; rw [hd] at a2; cases a2
        | silent a1 _ => exact absurd hd (a1 s hat)
      · by_cases ha : s.opcode = .assert
        · have hops : unknown [nextStep scripts u] = [] := by
            rw [nextStep_eq hfr, hs]; simp [unknown, ha, supported]
          obtain ⟨m, hm, ho⟩ := Props.step_prints ev p scripts u u' h
          rw [ha]
          dsimp only
          cases hm with
          | dialog a1 a2 _ _ => cases Props.atStep_unique hat a1; rw [ha] at a2; cases a2
          | failure a1 a2 a3 a4 =>
            cases Props.atStep_unique hat a1
            have e := switch_of a3
            rw [e, ev_ok_bind, ← hlen, a4]
            exact ⟨by rw [hact]; rfl, ho, by rw [hops]; rfl, rfl, by simp [printed]⟩
          | silent _ a2 =>
            have e : printed (do u.world.eval ev (below.length + 1) (← s.switch 0) : Ev Str)
                (fun v => if v = t!"false" then printed (s.switch 0) fun c => [.assertionFailed c] else []) = [] := by
              cases hc : s.switch 0 with
              | error e => rfl
              | ok c =>
                rw [ev_ok_bind]
                cases hv : u.world.eval ev (below.length + 1) c with
                | error e => rfl
                | ok v =>
                  have := a2 s c hat ha (Props.switch_some hc)
                  rw [hlen, hv] at this
                  simp only [printed]
                  rw [if_neg (fun e => this (by rw [e]))]
            rw [e]
            exact ⟨by rw [hact]; rfl, ho, by rw [hops]; rfl, rfl, by simp⟩
        · have hout := out_silent hfr hs h hd ha
          have key : ∀ ls : List Line, (ls = [] ∧ s.opcode ∈ supported) ∨ (ls = [.badScope] ∧ s.opcode = .endLoop ∧
              punc.getLast? ≠ some .loop) ∨ (ls = [.unimplemented s.opcode] ∧ s.opcode ∉ supported) →
              StepSays scripts punc u u' ls := by
            rintro ls (⟨rfl, ho⟩ | ⟨rfl, ho, hpn⟩ | ⟨rfl, ho⟩)
            · exact ⟨by rw [hact]; rfl, by rw [hout]; simp [messages],
                by rw [nextStep_eq hfr, hs]; simp [unknown, ho, reported], rfl, by simp⟩
            · exact ⟨by rw [hact]; rfl, by rw [hout]; simp [messages],
                by rw [nextStep_eq hfr, hs]; simp [unknown, ho, supported, reported], rfl, fun _ => hpn⟩
            · exact ⟨by rw [hact]; rfl, by rw [hout]; simp [messages],
                by rw [nextStep_eq hfr, hs]; simp [unknown, ho, reported], rfl, by simp⟩
          refine key _ ?_
          split
          · exact absurd ‹_› hp
          · exact absurd ‹_› hd
          · exact absurd ‹_› ha
          · rename_i hl
            split
            · rename_i hpn; exact .inr (.inl ⟨rfl, hl, hpn⟩)
            · exact .inl ⟨rfl, by rw [hl]; decide⟩
          · split
            · rename_i hb; exact .inl ⟨rfl, (hasBranch_iff _).mp hb⟩
            · rename_i hb; exact .inr (.inr ⟨rfl, fun hm => hb ((hasBranch_iff _).mpr hm)⟩)

/-- What a step prints that cannot be executed. -/
theorem step_error_says {punc : List Instruction} {u : Vm} {e : Stop} (h : u.step ev p scripts = .error e) :
    u.stepLines ev scripts punc = [] ∨
      (u.stepLines ev scripts punc = [.badScope] ∧ punc.getLast? ≠ some .loop ∧ e = .panic .unwrap ∧
        (∃ s, nextStep scripts u = some s ∧ s.opcode = .endLoop)) := by
  unfold Vm.step at h
  split at h
  · rename_i hfr
    left; unfold Vm.stepLines; rw [hfr]
  · rename_i name ip below hfr
    dsimp only at h
    split at h
    · cases h
    · rename_i s hs
      rw [stepLines_eq hfr hs]
      unfold Vm.exec at h
      split
      · rename_i ho
        rw [ho] at h
        dsimp only at h
        left
        cases hc : s.switch 0 with
        | error e' => rfl
        | ok c =>
          rw [hc, ev_ok_bind] at h
          rw [ev_ok_bind]
          cases hv : u.world.eval ev (below.length + 1) c with
          | error e' => rfl
          | ok v =>
            rw [hv, ev_ok_bind] at h
            rw [ev_ok_bind]
            cases hq : (liftR (stripQuotes v) : Ev Str) with
            | error e' => rfl
            | ok callee =>
              rw [hq, ev_ok_bind] at h
              split at h <;> cases h
      · rename_i ho
        rw [ho] at h
        dsimp only at h
        left
        unfold effect at h
        rw [ho] at h
        dsimp only at h
        cases hc : s.switch 0 with
        | error e' => rfl
        | ok c =>
          rw [hc, ev_ok_bind] at h
          rw [ev_ok_bind]
          cases hv : u.world.eval ev (below.length + 1) c with
          | error e' => rfl
          | ok v => rw [hv] at h; cases h
      · rename_i ho
        rw [ho] at h
        dsimp only at h
        left
        unfold effect at h
        rw [ho] at h
        dsimp only at h
        cases hc : s.switch 0 with
        | error e' => rfl
        | ok c =>
          rw [hc, ev_ok_bind] at h
          rw [ev_ok_bind]
          cases hv : u.world.eval ev (below.length + 1) c with
          | error e' => rfl
          | ok v =>
            rw [hv, ev_ok_bind] at h
            split at h <;> cases h
      · rename_i ho
        rw [ho] at h
        dsimp only at h
        split
        · rename_i hpn
          refine .inr ⟨rfl, hpn, ?_, s, by rw [nextStep_eq hfr, hs], ho⟩
          cases hl : u.loops.head? with
          | none => rw [hl] at h; cases h; rfl
          | some i => rw [hl] at h; cases h
        · exact .inl rfl
      · rename_i h1 h2 h3 h4
        left
        split
        · rfl
        · rename_i hb
          exfalso
          have hx : effect ev p (below.length + 1) s u.world = .ok u.world := by
            unfold effect
            cases ho : s.opcode <;> rw [ho] at hb <;> first | rfl | exact absurd rfl hb
          cases ho : s.opcode <;> rw [ho] at hb h <;> first
            | exact absurd rfl hb
            | (dsimp only at h; rw [hx] at h; cases h)

/-! ### Runs -/

theorem runShown_stopped {n : Nat} {punc : List Instruction} {u : Vm} (h : ¬u.running = true) :
    u.runShown ev p scripts n punc = ([], .ok (punc, u)) := by
  cases n <;> unfold Vm.runShown <;> rw [if_neg h]

theorem runShown_step {n : Nat} {punc : List Instruction} {u u' : Vm} (h : u.running = true) (hs : u.step ev p scripts = .ok u') :
    u.runShown ev p scripts (n + 1) punc =
      (u.stepLines ev scripts punc ++ (u'.runShown ev p scripts n (u.stepPunc scripts punc)).1,
        (u'.runShown ev p scripts n (u.stepPunc scripts punc)).2) := by
  conv => lhs; unfold Vm.runShown
  rw [if_pos h, hs]

theorem runShown_error {n : Nat} {punc : List Instruction} {u : Vm} {e : Stop} (h : u.running = true)
    (hs : u.step ev p scripts = .error e) :
    u.runShown ev p scripts (n + 1) punc = (u.stepLines ev scripts punc, .error e) := by
  unfold Vm.runShown
  rw [if_pos h, hs]

/-- Collecting the lines does not change a run. -/
theorem runShown_run (n : Nat) (punc : List Instruction) (u : Vm) :
    (u.runShown ev p scripts n punc).2.map (·.2) = u.run ev p scripts n := by
  induction n generalizing punc u with
  | zero =>
    unfold Vm.runShown Vm.run
    split <;> rfl
  | succ n ih =>
    by_cases h : u.running = true
    · conv => rhs; unfold Vm.run
      rw [if_pos h]
      cases hs : u.step ev p scripts with
      | error e => rw [runShown_error h hs]; rfl
      | ok u' => rw [runShown_step h hs, ev_ok_bind, ← ih]
    · rw [runShown_stopped h]
      unfold Vm.run
      rw [if_neg h]; rfl

theorem runTestsShown_run (n : Nat) (ts : List FTest) (punc : List Instruction) (u : Vm) :
    (u.runTestsShown ev p scripts n ts punc).2 = u.runTests ev p scripts n ts := by
  induction ts generalizing punc u with
  | nil => rfl
  | cons t ts ih =>
    unfold Vm.runTestsShown Vm.runTests
    rw [← runShown_run n punc]
    cases h : ((u.loadTest t).runShown ev p scripts n punc).2 with
    | error e => dsimp only; rw [h]; rfl
    | ok r =>
      obtain ⟨punc', u'⟩ := r
      dsimp only
      rw [h]
      dsimp only
      rw [ih]
      change _ = (Except.ok u' >>= fun vm => _)
      rw [ev_ok_bind]
      cases u'.runTests ev p scripts n ts <;> rfl

theorem exec_loops {vm vm' : Vm} {name : Str} {ip : Nat} {below : List (Str × Nat)} {code : List ScriptStep} {s : ScriptStep}
    (h : vm.exec ev p scripts name ip below code s = .ok vm') (ho : s.opcode ≠ .loop) : vm'.loops = vm.loops := by
  unfold Vm.exec at h
  dsimp only at h
  split at h <;> simp only [ev_bind_ok, ev_pure, liftR_ok] at h
  case h_3 hl => exact absurd hl ho
  · obtain ⟨_, -, _, -, callee, -, he⟩ := h
    split at he <;> injection he with he <;> subst he <;> rfl
  · split at h
    · simp only [ev_bind_ok, ev_pure, liftR_ok] at h
      obtain ⟨_, -, _, -, _, -, _, -, he⟩ := h
      split at he
      · injection he with he; subst he; rfl
      · simp only [ev_bind_ok, ev_pure, liftR_ok] at he
        obtain ⟨_, -, _, -, _, -, he⟩ := he
        split at he
        · simp only [ev_bind_ok, ev_pure, liftR_ok] at he
          obtain ⟨_, -, he⟩ := he
          injection he with he; subst he; rfl
        · injection he with he; subst he; rfl
    · simp only [ev_bind_ok, ev_pure, liftR_ok] at h
      obtain ⟨_, -, he⟩ := h
      injection he with he; subst he; rfl
  · obtain ⟨_, -, _, -, he⟩ := h
    split at he <;> injection he with he <;> subst he <;> rfl
  · split at h
    · injection h with he; subst he; rfl
    · simp only [ev_bind_ok, ev_pure, liftR_ok] at h
      obtain ⟨_, -, _, -, he⟩ := h
      split at he <;> injection he with he <;> subst he <;> rfl
  · split at h
    · split at h <;> injection h with he <;> subst he <;> rfl
    · injection h with he; subst he; rfl
  · injection h with he; subst he; rfl
  · obtain ⟨_, -, he⟩ := h; injection he with he; subst he; rfl
  · obtain ⟨_, -, _, -, he⟩ := h
    split at he
    · simp only [ev_bind_ok, ev_pure, liftR_ok] at he
      obtain ⟨_, -, he⟩ := he
      injection he with he; subst he; rfl
    · injection he with he; subst he; rfl
  · obtain ⟨_, -, he⟩ := h; injection he with he; subst he; rfl

/-- `punc_stack` has an entry exactly if a loop has begun. -/
def InStep (punc : List Instruction) (u : Vm) : Prop := punc.getLast? = some .loop ∨ (punc = [] ∧ u.loops = [])

theorem stepPunc_inStep {punc : List Instruction} {u u' : Vm} (h : InStep punc u) (hs : u.step ev p scripts = .ok u') :
    InStep (u.stepPunc scripts punc) u' := by
  obtain ⟨name, ip, below, hfr, ⟨hn, rfl⟩ | ⟨s, hi, sh, hx⟩⟩ := step_cases hs
  · unfold Vm.stepPunc; rw [hfr]; dsimp only; rw [hn]; exact h
  · have e : u.stepPunc scripts punc = if s.opcode = .loop then punc ++ [.loop] else punc := by
      unfold Vm.stepPunc; rw [hfr]; dsimp only; rw [hi]
    rw [e]
    by_cases ho : s.opcode = .loop
    · rw [if_pos ho]; left; simp
    · rw [if_neg ho]
      rcases h with h | ⟨h1, h2⟩
      · exact .inl h
      · refine .inr ⟨h1, ?_⟩
        rw [exec_loops hx ho, h2]

/-- What the lines of a run say that has executed some steps. -/
structure RunSays (punc : List Instruction) (u v : Vm) (ms : List (Option ScriptStep)) (ls : List Line) : Prop where
  calls : openCalls (active u) ls = some (active v)
  out : v.world.out = u.world.out ++ messages ls
  ops : reported ls = unknown ms
  body : ls.filter isHeadline = []
  scope : InStep punc u → .badScope ∉ ls

theorem unknown_cons (m : Option ScriptStep) (ms : List (Option ScriptStep)) : unknown (m :: ms) = unknown [m] ++ unknown ms := by
  cases m with
  | none => rfl
  | some s => by_cases h : s.opcode ∈ supported <;> simp [unknown, h]

theorem step_no_badScope {punc : List Instruction} {u u' : Vm} (hi : InStep punc u) (hs : u.step ev p scripts = .ok u') :
    .badScope ∉ u.stepLines ev scripts punc := by
  intro hm
  rcases hi with hi | ⟨h1, h2⟩
  · exact (step_says hs).scope hm hi
  · obtain ⟨name, ip, below, hfr, ⟨hn, rfl⟩ | ⟨s, hx, sh, he⟩⟩ := step_cases hs
    · have e : u.stepLines ev scripts punc = [.popping name] := by
        unfold Vm.stepLines; rw [hfr]; dsimp only; rw [hn]
      rw [e] at hm; simp at hm
    · rw [stepLines_eq hfr hx] at hm
      split at hm
      · revert hm
        generalize (do liftR (stripQuotes (← (do u.world.eval ev (below.length + 1) (← s.switch 0) : Ev Str))) : Ev Str) = r
        cases r with
        | error e => intro hm; simp [printed] at hm
        | ok c => intro hm; simp only [printed] at hm; split at hm <;> simp at hm
      · revert hm
        generalize (do u.world.eval ev (below.length + 1) (← s.switch 0) : Ev Str) = r
        cases r <;> intro hm <;> simp [printed] at hm
      · revert hm
        generalize (do u.world.eval ev (below.length + 1) (← s.switch 0) : Ev Str) = r
        generalize s.switch 0 = q
        cases r <;> intro hm
        · simp [printed] at hm
        · simp only [printed] at hm
          split at hm
          · cases q <;> simp at hm
          · simp at hm
      · rename_i ho
        unfold Vm.exec at he
        rw [ho] at he
        dsimp only at he
        rw [h2] at he
        cases he
      · split at hm <;> simp at hm

theorem ran_says {u v : Vm} {ms : List (Option ScriptStep)} (h : Executed ev p scripts u ms v) (punc : List Instruction) :
    ∃ ls punc', RunSays punc u v ms ls ∧ (InStep punc u → InStep punc' v) ∧
      ∀ n, u.runShown ev p scripts (ms.length + n) punc =
        (ls ++ (v.runShown ev p scripts n punc').1, (v.runShown ev p scripts n punc').2) := by
  induction h generalizing punc with
  | here => exact ⟨[], punc, ⟨rfl, by simp [messages], rfl, rfl, by simp⟩, id, by simp⟩
  | @step u u' v ms hf hn hs _ ih =>
    have hr : u.running = true := running_iff.mpr ⟨hf, hn⟩
    obtain ⟨ls, punc', h1, h2, h3⟩ := ih (u.stepPunc scripts punc)
    have hsay := step_says (punc := punc) hs
    refine ⟨u.stepLines ev scripts punc ++ ls, punc', ⟨?_, ?_, ?_, ?_, ?_⟩, ?_, ?_⟩
    · rw [openCalls_append _ _ _ _ hsay.calls, h1.calls]
    · rw [h1.out, hsay.out, messages_append, List.append_assoc]
    · rw [reported_append, hsay.ops, h1.ops, ← unknown_cons]
    · rw [List.filter_append, hsay.body, h1.body]; rfl
    · intro hi hm
      rcases List.mem_append.mp hm with hm | hm
      · exact step_no_badScope hi hs hm
      · exact h1.scope (stepPunc_inStep hi hs) hm
    · exact fun hi => h2 (stepPunc_inStep hi hs)
    · intro n
      rw [List.length_cons, Nat.add_right_comm, runShown_step hr hs, h3]
      simp

/-- How a run ends, or where it is when the rounds are over. -/
theorem runShown_ran (n : Nat) (punc : List Instruction) (u : Vm) :
    ∃ ms v, Executed ev p scripts u ms v ∧ ms.length ≤ n ∧
      ((¬v.running = true ∧ ∃ punc', (u.runShown ev p scripts n punc).2 = .ok (punc', v)) ∨
       (v.running = true ∧ ms.length = n ∧ (u.runShown ev p scripts n punc).2 = .error .fuel) ∨
       (∃ e, ms.length < n ∧ StepCrashes ev p scripts v e ∧ (u.runShown ev p scripts n punc).2 = .error e)) := by
  induction n generalizing punc u with
  | zero =>
    refine ⟨[], u, .here, Nat.le_refl _, ?_⟩
    by_cases h : u.running = true
    · refine .inr (.inl ⟨h, rfl, ?_⟩)
      unfold Vm.runShown; rw [if_pos h]
    · exact .inl ⟨h, punc, by rw [runShown_stopped h]⟩
  | succ n ih =>
    by_cases h : u.running = true
    · cases hs : u.step ev p scripts with
      | error e =>
        obtain ⟨h1, h2⟩ := running_iff.mp h
        exact ⟨[], u, .here, Nat.zero_le _, .inr (.inr ⟨e, Nat.succ_pos _, ⟨h1, h2, hs⟩, by rw [runShown_error h hs]⟩)⟩
      | ok u' =>
        obtain ⟨h1, h2⟩ := running_iff.mp h
        obtain ⟨ms, v, h3, h4, h5⟩ := ih (u.stepPunc scripts punc) u'
        refine ⟨nextStep scripts u :: ms, v, .step h1 h2 hs h3, Nat.succ_le_succ h4, ?_⟩
        rw [runShown_step h hs]
        rcases h5 with h5 | ⟨h5, h6, h7⟩ | ⟨e, h5, h6, h7⟩
        · exact .inl h5
        · exact .inr (.inl ⟨h5, by rw [List.length_cons, h6], h7⟩)
        · exact .inr (.inr ⟨e, Nat.succ_lt_succ h5, h6, h7⟩)
    · exact ⟨[], u, .here, Nat.zero_le _, .inl ⟨h, punc, by rw [runShown_stopped h]⟩⟩

end BurnFm
