import Verif.Spec.Vm
import Verif.Proofs.Ev
import Verif.Proofs.Database

/-! Lemmas on the script interpreter. -/

namespace BurnFm
open Spec

variable {ev : Calculator} {p : Profile} {scripts : HMap FScript}

/-- The steps that always continue with the next step. -/
def isPlain (s : ScriptStep) : Bool :=
  match s.opcode with
  | .performScript | .loop | .if | .elseIf | .else | .endIf | .endLoop | .exitLoopIf => false
  | .goToRecordRequestPage => decide (s.switches.length ≤ 1)
  | _ => true

theorem exec_plain {vm : Vm} {name : Str} {ip : Nat} {below : List (Str × Nat)} {code : List ScriptStep}
    {s : ScriptStep} (h : isPlain s = true) :
    vm.exec ev p scripts name ip below code s = (do
      let w ← effect ev p (below.length + 1) s vm.world
      pure { vm with world := w, frames := (name, ip + 1) :: below }) := by
  unfold Vm.exec
  unfold isPlain at h
  split <;> rename_i ho <;> simp only [ho, Bool.false_eq_true, decide_eq_true_eq] at h <;> try rfl
  rw [if_neg (by omega)]

/-- Every step keeps the frames under the running script, and what it does to the rest. -/
structure StepShape (ev : Calculator) (vm vm' : Vm) (name : Str) (ip : Nat) (below : List (Str × Nat))
    (s : ScriptStep) : Prop where
  frames : (∃ i, vm'.frames = (name, i) :: below) ∨
    (s.opcode = .performScript ∧ vm'.world.vars = vm.world.vars ++ [[]] ∧
      ∃ callee, vm'.frames = (callee, 0) :: (name, ip + 1) :: below)
  test : vm'.test = vm.test
  vars : vm'.world.vars = vm.world.vars ∨ (s.opcode = .performScript ∧ vm'.world.vars = vm.world.vars ++ [[]]) ∨
    (s.opcode = .setVariable ∧ ∃ f, modIdx vm.world.vars below.length f = .ok vm'.world.vars)
  failed : vm.world.failed = false → (vm'.world.failed = true ↔
    s.opcode = .assert ∧ ∃ c, s.switches[0]? = some c ∧ vm.world.eval ev (below.length + 1) c = .ok t!"false")

theorem effect_vars {d : Nat} {s : ScriptStep} {w w' : World} (h : effect ev p d s w = .ok w') :
    w'.vars = w.vars ∨ (s.opcode = .setVariable ∧ ∃ f, modIdx w.vars (d - 1) f = .ok w'.vars) := by
  unfold effect at h
  split at h <;> simp only [ev_bind_ok, ev_pure, liftR_ok] at h
  case h_6 ho =>
    obtain ⟨n, -, c, -, v, -, vs, hv, he⟩ := h
    injection he with he; subst he
    exact .inr ⟨ho, _, hv⟩
  all_goals left
  · obtain ⟨c, -, v, -, n, -, he⟩ := h
    split at he <;> injection he with he <;> subst he <;> rfl
  · obtain ⟨c, -, v, -, he⟩ := h
    split at he
    · injection he with he; subst he; rfl
    · simp only [ev_bind_ok, ev_pure, liftR_ok] at he
      obtain ⟨_, -, _, -, he⟩ := he
      injection he with he; subst he; rfl
  · injection h with he; subst he; rfl
  · obtain ⟨_, -, he⟩ := h; injection he with he; subst he; rfl
  · obtain ⟨_, -, he⟩ := h; injection he with he; subst he; rfl
  · obtain ⟨n, -, c, -, v, -, he⟩ := h
    split at he
    · injection he with he; subst he; rfl
    · simp only [ev_bind_ok, ev_pure, liftR_ok] at he
      obtain ⟨_, -, _, -, _, -, _, -, he⟩ := he
      injection he with he; subst he; rfl
  · obtain ⟨_, -, he⟩ := h; injection he with he; subst he; rfl
  · obtain ⟨_, -, _, -, he⟩ := h; injection he with he; subst he; rfl
  · obtain ⟨_, -, _, -, he⟩ := h
    split at he <;> injection he with he <;> subst he <;> rfl
  · injection h with he; subst he; rfl

/-- Only a failed assertion makes the test fail. -/
theorem effect_failed {d : Nat} {s : ScriptStep} {w w' : World} (h : effect ev p d s w = .ok w')
    (hw : w.failed = false) :
    w'.failed = true ↔ s.opcode = .assert ∧ ∃ c, s.switches[0]? = some c ∧ w.eval ev d c = .ok t!"false" := by
  unfold effect at h
  split at h <;> simp only [ev_bind_ok, ev_pure, liftR_ok] at h <;> rename_i ho
  case h_10 =>
    obtain ⟨c, hc, v, hv, he⟩ := h
    have hc' : s.switches[0]? = some c := by
      simp only [ScriptStep.switch, liftR_ok, idx] at hc
      split at hc
      · injection hc with hc; subst hc; assumption
      · cases hc
    simp only [ho, hc', hv, true_and, Option.some.injEq, exists_eq_left']
    split at he <;> injection he with he <;> subst he
    · rename_i e; simp [e]
    · rename_i e; simp [e, hw]
  case h_11 =>
    injection h with he; subst he
    constructor
    · intro e; rw [hw] at e; cases e
    · rintro ⟨e, -⟩; exact absurd e (by assumption)
  all_goals
    have key : w'.failed = w.failed := by
      first
        | (injection h with he; subst he; rfl)
        | (obtain ⟨_, -, he⟩ := h; injection he with he; subst he; rfl)
        | (obtain ⟨_, -, _, -, he⟩ := h; injection he with he; subst he; rfl)
        | (obtain ⟨_, -, _, -, _, -, _, -, he⟩ := h; injection he with he; subst he; rfl)
        | (obtain ⟨_, -, _, -, _, -, he⟩ := h
           split at he
           · injection he with he; subst he; rfl
           · first
              | (injection he with he; subst he; rfl)
              | (simp only [ev_bind_ok, ev_pure, liftR_ok] at he
                 obtain ⟨_, -, _, -, _, -, _, -, he⟩ := he
                 injection he with he; subst he; rfl))
        | (obtain ⟨_, -, _, -, he⟩ := h
           split at he
           · injection he with he; subst he; rfl
           · simp only [ev_bind_ok, ev_pure, liftR_ok] at he
             obtain ⟨_, -, _, -, he⟩ := he
             injection he with he; subst he; rfl)
    simp [key, hw, ho]

theorem exec_shape {vm vm' : Vm} {name : Str} {ip : Nat} {below : List (Str × Nat)} {code : List ScriptStep}
    {s : ScriptStep} (hfr : vm.frames = (name, ip) :: below)
    (h : vm.exec ev p scripts name ip below code s = .ok vm') : StepShape ev vm vm' name ip below s := by
  have plain : ∀ {j : Nat}, (do
      let w ← effect ev p (below.length + 1) s vm.world
      pure { vm with world := w, frames := (name, j) :: below }) = Except.ok vm' →
      StepShape ev vm vm' name ip below s := by
    intro j h
    simp only [ev_bind_ok, ev_pure] at h
    obtain ⟨w, hw, he⟩ := h
    injection he with he; subst he
    refine ⟨.inl ⟨_, rfl⟩, rfl, ?_, fun hf => effect_failed hw hf⟩
    rcases effect_vars hw with h | h
    · exact .inl h
    · exact .inr (.inr h)
  have stay : ∀ {j : Nat} {l b db}, s.opcode ≠ .assert →
      { vm with world := { vm.world with db := db }, loops := l, branchTaken := b, frames := (name, j) :: below } = vm' →
      StepShape ev vm vm' name ip below s := by
    intro j l b db ho he
    subst he
    exact ⟨.inl ⟨_, rfl⟩, rfl, .inl rfl, fun hf => by simp [hf, ho]⟩
  unfold Vm.exec at h
  dsimp only at h
  split at h
  case h_1 ho =>
    simp only [ev_bind_ok, ev_pure, liftR_ok] at h
    obtain ⟨_, -, _, -, callee, -, he⟩ := h
    split at he <;> injection he with he <;> subst he
    · exact ⟨.inr ⟨ho, rfl, _, rfl⟩, rfl, .inr (.inl ⟨ho, rfl⟩), fun hf => by simp [hf, ho]⟩
    · exact ⟨.inl ⟨ip, hfr⟩, rfl, .inr (.inl ⟨ho, rfl⟩), fun hf => by simp [hf, ho]⟩
  case h_2 ho =>
    split at h
    · simp only [ev_bind_ok, ev_pure, liftR_ok] at h
      obtain ⟨_, -, _, -, _, -, _, -, he⟩ := h
      split at he
      · injection he with he; exact stay (by simp [ho]) he
      · simp only [ev_bind_ok, ev_pure, liftR_ok] at he
        obtain ⟨_, -, _, -, _, -, he⟩ := he
        split at he
        · simp only [ev_bind_ok, ev_pure, liftR_ok] at he
          obtain ⟨_, -, he⟩ := he
          injection he with he; exact stay (by simp [ho]) he
        · injection he with he; exact stay (by simp [ho]) he
    · exact plain h
  case h_10 => exact plain h
  all_goals rename_i ho; simp only [ev_bind_ok, ev_pure, liftR_ok] at h
  · injection h with he; exact stay (by simp [ho]) he
  · obtain ⟨_, -, _, -, he⟩ := h
    split at he <;> injection he with he <;> exact stay (by simp [ho]) he
  · split at h
    · injection h with he; exact stay (by simp [ho]) he
    · simp only [ev_bind_ok, ev_pure, liftR_ok] at h
      obtain ⟨_, -, _, -, he⟩ := h
      split at he <;> injection he with he <;> exact stay (by simp [ho]) he
  · split at h
    · split at h <;> injection h with he <;> exact stay (by simp [ho]) he
    · injection h with he; exact stay (by simp [ho]) he
  · injection h with he; exact stay (by simp [ho]) he
  · obtain ⟨_, -, he⟩ := h; injection he with he; exact stay (by simp [ho]) he
  · obtain ⟨_, -, _, -, he⟩ := h
    split at he
    · simp only [ev_bind_ok, ev_pure, liftR_ok] at he
      obtain ⟨_, -, he⟩ := he
      injection he with he; exact stay (by simp [ho]) he
    · injection he with he; exact stay (by simp [ho]) he

theorem step_cases {vm vm' : Vm} (h : vm.step ev p scripts = .ok vm') :
    ∃ name ip below, vm.frames = (name, ip) :: below ∧
      (((vm.script scripts name below).instructions[ip]? = none ∧ vm' = { vm with frames := below }) ∨
       ∃ s, (vm.script scripts name below).instructions[ip]? = some s ∧ StepShape ev vm vm' name ip below s ∧
         vm.exec ev p scripts name ip below (vm.script scripts name below).instructions s = .ok vm') := by
  unfold Vm.step at h
  split at h
  · cases h
  · rename_i name ip below hfr
    refine ⟨name, ip, below, hfr, ?_⟩
    dsimp only at h
    split at h
    · rename_i hn
      injection h with h
      exact .inl ⟨hn, h.symm⟩
    · rename_i s hs
      exact .inr ⟨s, hs, exec_shape hfr h, h⟩

/-- A step makes the test fail exactly if it is a failing assertion. -/
theorem step_failed {vm vm' : Vm} (h : vm.step ev p scripts = .ok vm') (hf : vm.world.failed = false) :
    vm'.world.failed = true ↔ FailsAssertion ev scripts vm := by
  obtain ⟨name, ip, below, hfr, ⟨hn, rfl⟩ | ⟨s, hs, sh, -⟩⟩ := step_cases h
  · constructor
    · intro h; simp only at h; rw [hf] at h; cases h
    · rintro ⟨-, s, c, ⟨name', ip', below', hfr', hs⟩, -⟩
      rw [hfr] at hfr'; cases hfr'
      rw [hn] at hs; cases hs
  · rw [sh.failed hf]
    constructor
    · rintro ⟨ho, c, hc, he⟩
      exact ⟨hf, s, c, ⟨name, ip, below, hfr, hs⟩, ho, hc, by rw [hfr]; exact he⟩
    · rintro ⟨-, s', c, ⟨name', ip', below', hfr', hs'⟩, ho, hc, he⟩
      rw [hfr] at hfr'; cases hfr'
      rw [hs] at hs'; cases hs'
      exact ⟨ho, c, hc, by rw [hfr] at he; exact he⟩

theorem run_ok_executes {n : Nat} {vm vm' : Vm} (h : vm.run ev p scripts n = .ok vm') :
    Executes ev p scripts vm vm' ∧ (vm'.world.failed = true ∨ vm'.frames = []) := by
  have stop : ∀ {vm : Vm}, ¬vm.running = true → vm.world.failed = true ∨ vm.frames = [] := by
    intro vm h
    simp only [Vm.running, Bool.and_eq_true, Bool.not_eq_true'] at h
    cases hf : vm.world.failed with
    | true => exact .inl rfl
    | false =>
      right
      rw [← List.isEmpty_iff, ← Bool.not_eq_false]
      exact fun e => h ⟨hf, e⟩
  induction n generalizing vm with
  | zero =>
    unfold Vm.run at h
    split at h
    · cases h
    · rename_i hr
      injection h with h; subst h
      exact ⟨.here, stop hr⟩
  | succ n ih =>
    unfold Vm.run at h
    split at h
    · rename_i hr
      rw [ev_bind_ok] at h
      obtain ⟨u, hu, h⟩ := h
      obtain ⟨h1, h2⟩ := ih h
      simp only [Vm.running, Bool.and_eq_true, Bool.not_eq_true', List.isEmpty_eq_false_iff] at hr
      exact ⟨.step hr.1 hr.2 hu h1, h2⟩
    · rename_i hr
      injection h with h; subst h
      exact ⟨.here, stop hr⟩

theorem Spec.Executes.trans {u v w : Vm} (h : Executes ev p scripts u v) (h' : Executes ev p scripts v w) :
    Executes ev p scripts u w := by
  induction h with
  | here => exact h'
  | step hf hn hs _ ih => exact .step hf hn hs (ih h')

theorem Spec.Executes.run {u v : Vm} (h : Executes ev p scripts u v) :
    ∃ k, ∀ n, u.run ev p scripts (n + k) = v.run ev p scripts n := by
  induction h with
  | here => exact ⟨0, fun n => rfl⟩
  | @step u u' v hf hn hs _ ih =>
    obtain ⟨k, hk⟩ := ih
    refine ⟨k + 1, fun n => ?_⟩
    rw [← hk, ← Nat.add_assoc]
    conv => lhs; unfold Vm.run
    rw [if_pos (by simp [Vm.running, hf, List.isEmpty_eq_false_iff.mpr hn]), hs]
    rfl

theorem run_stopped {n : Nat} {vm : Vm} (h : vm.world.failed = true ∨ vm.frames = []) :
    vm.run ev p scripts n = .ok vm := by
  have hr : ¬vm.running = true := by
    rcases h with h | h <;> simp [Vm.running, h]
  cases n <;> unfold Vm.run <;> rw [if_neg hr] <;> rfl

/-- More rounds do not change the result of a run that ended. -/
theorem run_mono {n m : Nat} {vm vm' : Vm} (h : vm.run ev p scripts n = .ok vm') (hm : n ≤ m) :
    vm.run ev p scripts m = .ok vm' := by
  induction n generalizing vm m with
  | zero =>
    unfold Vm.run at h
    split at h
    · cases h
    · rename_i hr
      cases m <;> unfold Vm.run <;> rw [if_neg hr] <;> exact h
  | succ n ih =>
    obtain ⟨m, rfl⟩ : ∃ k, m = k + 1 := ⟨m - 1, by omega⟩
    unfold Vm.run at h ⊢
    split at h
    · rename_i hr
      rw [ev_bind_ok] at h
      obtain ⟨u, hu, h⟩ := h
      rw [if_pos hr, hu]
      exact ih h (by omega)
    · rename_i hr
      rw [if_neg hr]; exact h

/-- A run that ends passes through every state it executes. -/
theorem run_after {n : Nat} {u v vm' : Vm} (h : u.run ev p scripts n = .ok vm') (he : Executes ev p scripts u v) :
    v.run ev p scripts n = .ok vm' := by
  obtain ⟨k, hk⟩ := he.run
  rw [← hk]
  exact run_mono h (by omega)

theorem modIdx_set {α : Type} {l l' : List α} {i : Nat} {f : α → α} (h : modIdx l i f = .ok l') :
    ∃ a, l[i]? = some a ∧ l' = l.set i (f a) := by
  unfold modIdx idx setIdx at h
  cases hi : l[i]? with
  | none => rw [hi] at h; cases h
  | some a =>
    rw [hi, ok_bind] at h
    split at h
    · injection h with h; exact ⟨a, rfl, h.symm⟩
    · cases h

theorem modIdx_getElem_ne {α : Type} {l l' : List α} {i j : Nat} {f : α → α} (h : modIdx l i f = .ok l')
    (hj : j ≠ i) : l'[j]? = l[j]? := by
  obtain ⟨a, -, rfl⟩ := modIdx_set h
  rw [List.getElem?_set_ne (Ne.symm hj)]

/-- While more than `low.length` scripts are active, the frames `low` and their variables stay. -/
theorem step_low {vm vm' : Vm} {top low : List (Str × Nat)} (hfr : vm.frames = top ++ low) (ht : top ≠ [])
    (h : vm.step ev p scripts = .ok vm') (hlen : low.length ≤ vm.world.vars.length) :
    (∃ top', vm'.frames = top' ++ low) ∧ (∀ i, i < low.length → vm'.world.vars[i]? = vm.world.vars[i]?) ∧
      low.length ≤ vm'.world.vars.length := by
  obtain ⟨name, ip, below, hfr', hc⟩ := step_cases h
  obtain ⟨t, top, rfl⟩ : ∃ t ts, top = t :: ts := by
    cases top with
    | nil => exact absurd rfl ht
    | cons t ts => exact ⟨t, ts, rfl⟩
  rw [hfr, List.cons_append] at hfr'
  injection hfr' with h1 h2
  subst h1
  rcases hc with ⟨-, rfl⟩ | ⟨s, -, sh, -⟩
  · exact ⟨⟨top, h2.symm⟩, fun _ _ => rfl, hlen⟩
  · refine ⟨?_, ?_⟩
    · rcases sh.frames with ⟨i, h⟩ | ⟨-, -, callee, h⟩
      · exact ⟨(name, i) :: top, by rw [h, ← h2]; rfl⟩
      · exact ⟨(callee, 0) :: (name, ip + 1) :: top, by rw [h, ← h2]; rfl⟩
    · have hb : low.length ≤ below.length := by rw [← h2]; simp
      rcases sh.vars with h | ⟨-, h⟩ | ⟨-, f, h⟩
      · rw [h]; exact ⟨fun _ _ => rfl, hlen⟩
      · rw [h]
        refine ⟨fun i hi => ?_, by simp; omega⟩
        rw [List.getElem?_append_left (by omega)]
      · refine ⟨fun i hi => modIdx_getElem_ne h (by omega), ?_⟩
        have hl : vm'.world.vars.length = vm.world.vars.length := by
          obtain ⟨a, -, e⟩ := modIdx_set h
          rw [e]; simp
        omega

theorem executesAbove_low {vm vm' : Vm} {top low : List (Str × Nat)} (hfr : vm.frames = top ++ low)
    (h : ExecutesAbove ev p scripts low.length vm vm') (hlen : low.length ≤ vm.world.vars.length) :
    (∃ top', vm'.frames = top' ++ low) ∧ (∀ i, i < low.length → vm'.world.vars[i]? = vm.world.vars[i]?) := by
  induction h generalizing top with
  | here => exact ⟨⟨top, hfr⟩, fun _ _ => rfl⟩
  | step _ hk hs _ ih =>
    have ht : top ≠ [] := by
      rintro rfl
      rw [hfr] at hk; simp at hk
    obtain ⟨⟨top', h1⟩, h2, h3⟩ := step_low hfr ht hs hlen
    obtain ⟨h4, h5⟩ := ih h1 h3
    exact ⟨h4, fun i hi => by rw [h5 i hi, h2 i hi]⟩

end BurnFm
