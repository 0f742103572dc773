import Verif.Spec.Messages
import Verif.Props.Isolation

/-! Property C113: what a run prints. -/

namespace BurnFm.Props
open Spec

variable {ev : Calculator} {p : Profile} {scripts : HMap FScript}

/-- The step executed next is determined by the state. -/
theorem atStep_unique {u : Vm} {s s' : ScriptStep} (h : AtStep scripts u s) (h' : AtStep scripts u s') : s = s' := by
  obtain ⟨n, i, b, h1, h2⟩ := h
  obtain ⟨n', i', b', h1', h2'⟩ := h'
  rw [h1] at h1'
  injection h1' with e1 e2
  injection e1 with e1 e3
  subst e1; subst e2; subst e3
  rw [h2] at h2'
  exact Option.some.inj h2'

/-- C113: what is printed next is determined by the state. -/
theorem says_unique {u : Vm} {m m' : List Message} (h : Says ev scripts u m) (h' : Says ev scripts u m') : m = m' := by
  cases h with
  | dialog a1 a2 a3 a4 =>
    cases h' with
    | dialog b1 b2 b3 b4 =>
      cases atStep_unique a1 b1
      rw [a3] at b3; cases b3
      rw [a4] at b4; cases b4
      rfl
    | failure b1 b2 _ _ => cases atStep_unique a1 b1; rw [a2] at b2; cases b2
    | silent b1 _ => exact absurd a2 (b1 _ a1)
  | failure a1 a2 a3 a4 =>
    cases h' with
    | dialog b1 b2 b3 b4 => cases atStep_unique a1 b1; rw [a2] at b2; cases b2
    | failure b1 b2 b3 _ =>
      cases atStep_unique a1 b1
      rw [a3] at b3; cases b3
      rfl
    | silent _ b2 => exact absurd a4 (b2 _ _ a1 a2 a3)
  | silent a1 a2 =>
    cases h' with
    | dialog b1 b2 b3 b4 => exact absurd b2 (a1 _ b1)
    | failure b1 b2 b3 b4 => exact absurd b4 (a2 _ _ b1 b2 b3)
    | silent _ _ => rfl

theorem switch_some {s : ScriptStep} {i : Nat} {c : Str} (h : s.switch i = .ok c) : s.switches[i]? = some c := by
  simp only [ScriptStep.switch, liftR_ok, idx] at h
  split at h
  · injection h with h; subst h; assumption
  · cases h

/-- What a step without control flow prints. -/
theorem effect_out {d : Nat} {s : ScriptStep} {w w' : World} (h : effect ev p d s w = .ok w') :
    (s.opcode = .showCustomDialog ∧ ∃ c v, s.switches[0]? = some c ∧ w.eval ev d c = .ok v ∧
      w'.out = w.out ++ [.dialog v]) ∨
    (s.opcode = .assert ∧ ∃ c, s.switches[0]? = some c ∧ w.eval ev d c = .ok t!"false" ∧
      w'.out = w.out ++ [.assertionFailed c]) ∨
    (s.opcode ≠ .showCustomDialog ∧ (s.opcode = .assert → ∀ c, s.switches[0]? = some c → w.eval ev d c ≠ .ok t!"false") ∧
      w'.out = w.out) := by
  unfold effect at h
  split at h <;> simp only [ev_bind_ok, ev_pure, liftR_ok] at h <;> rename_i ho
  case h_9 =>
    obtain ⟨c, hc, v, hv, he⟩ := h
    injection he with he; subst he
    exact .inl ⟨ho, c, v, switch_some hc, hv, rfl⟩
  case h_10 =>
    obtain ⟨c, hc, v, hv, he⟩ := h
    split at he <;> injection he with he <;> subst he
    · rename_i e; subst e
      exact .inr (.inl ⟨ho, c, switch_some hc, hv, rfl⟩)
    · rename_i e
      refine .inr (.inr ⟨by rw [ho]; decide, fun _ c' hc' => ?_, rfl⟩)
      rw [switch_some hc] at hc'
      cases hc'
      rw [hv]
      intro e'; injection e' with e'; exact e e'
  case h_11 =>
    injection h with he; subst he
    exact .inr (.inr ⟨by assumption, fun e => absurd e (by assumption), rfl⟩)
  all_goals
    refine .inr (.inr ⟨by rw [ho]; decide, fun e => (by rw [ho] at e; cases e), ?_⟩)
    first
      | (injection h with he; subst he; rfl)
      | (obtain ⟨_, -, he⟩ := h; injection he with he; subst he; rfl)
      | (obtain ⟨_, -, _, -, he⟩ := h; injection he with he; subst he; rfl)
      | (obtain ⟨_, -, _, -, _, -, _, -, he⟩ := h; injection he with he; subst he; rfl)
      | (obtain ⟨_, -, _, -, _, -, he⟩ := h
         split at he
         · injection he with he; subst he; rfl
         · first
            | (injection he with he; subst he; rfl)
            | (simp only [ev_bind_ok, ev_pure, liftR_ok] at he
               obtain ⟨_, -, _, -, _, -, _, -, he⟩ := he
               injection he with he; subst he; rfl))
      | (obtain ⟨_, -, _, -, he⟩ := h
         split at he
         · injection he with he; subst he; rfl
         · simp only [ev_bind_ok, ev_pure, liftR_ok] at he
           obtain ⟨_, -, _, -, he⟩ := he
           injection he with he; subst he; rfl)

/-- Only dialogs and assertions print. -/
theorem exec_out {u v : Vm} {name : Str} {ip : Nat} {below : List (Str × Nat)} {code : List ScriptStep} {s : ScriptStep}
    (h : u.exec ev p scripts name ip below code s = .ok v) :
    (∃ w, effect ev p (below.length + 1) s u.world = .ok w ∧ v.world.out = w.out) ∨
    (s.opcode ≠ .showCustomDialog ∧ s.opcode ≠ .assert ∧ v.world.out = u.world.out) := by
  unfold Vm.exec at h
  split at h <;> rename_i ho <;> simp only [ev_bind_ok, ev_pure, liftR_ok] at h
  case h_10 =>
    obtain ⟨w, h1, he⟩ := h
    injection he with he; subst he
    exact .inl ⟨w, h1, rfl⟩
  case h_2 =>
    split at h
    · refine .inr ⟨by rw [ho]; decide, by rw [ho]; decide, ?_⟩
      simp only [ev_bind_ok, ev_pure, liftR_ok] at h
      obtain ⟨c, -, v, -, c', -, v', -, h⟩ := h
      split at h
      · injection h with h; subst h; rfl
      · simp only [ev_bind_ok, ev_pure, liftR_ok] at h
        obtain ⟨a, -, db, -, b, -, h⟩ := h
        split at h
        · simp only [ev_bind_ok, ev_pure, liftR_ok] at h
          obtain ⟨i, -, h⟩ := h
          injection h with h; subst h; rfl
        · injection h with h; subst h; rfl
    · simp only [ev_bind_ok, ev_pure, liftR_ok] at h
      obtain ⟨w, h1, he⟩ := h
      injection he with he; subst he
      exact .inl ⟨w, h1, rfl⟩
  all_goals refine .inr ⟨by rw [ho]; decide, by rw [ho]; decide, ?_⟩
  · obtain ⟨_, -, _, -, _, -, h⟩ := h
    split at h <;> injection h with h <;> subst h <;> rfl
  · injection h with h; subst h; rfl
  · obtain ⟨_, -, _, -, h⟩ := h
    split at h <;> injection h with h <;> subst h <;> rfl
  · split at h
    · injection h with h; subst h; rfl
    · simp only [ev_bind_ok, ev_pure, liftR_ok] at h
      obtain ⟨_, -, _, -, h⟩ := h
      split at h <;> injection h with h <;> subst h <;> rfl
  · split at h
    · split at h <;> injection h with h <;> subst h <;> rfl
    · injection h with h; subst h; rfl
  · injection h with h; subst h; rfl
  · obtain ⟨_, -, h⟩ := h
    injection h with h; subst h; rfl
  · obtain ⟨_, -, _, -, h⟩ := h
    split at h
    · simp only [ev_bind_ok, ev_pure, liftR_ok] at h
      obtain ⟨_, -, h⟩ := h
      injection h with h; subst h; rfl
    · injection h with h; subst h; rfl

/-- C113 for one step: it prints what its state says, after everything printed before. -/
theorem step_prints (ev : Calculator) (p : Profile) (scripts : HMap FScript) (u v : Vm) (h : u.step ev p scripts = .ok v) :
    ∃ m, Says ev scripts u m ∧ v.world.out = u.world.out ++ m := by
  unfold Vm.step at h
  split at h
  · cases h
  · rename_i name ip below hfr
    dsimp only at h
    split at h
    · rename_i hnone
      injection h with h; subst h
      have hno : ∀ s, ¬ AtStep scripts u s := by
        rintro s ⟨n', i', b', h1, h2⟩
        rw [hfr] at h1
        cases h1
        rw [hnone] at h2; cases h2
      exact ⟨[], .silent (fun s hs => absurd hs (hno s)) (fun s _ hs => absurd hs (hno s)), by simp⟩
    · rename_i s hs
      have hat : AtStep scripts u s := ⟨name, ip, below, hfr, hs⟩
      have hlen : u.frames.length = below.length + 1 := by rw [hfr]; rfl
      rcases exec_out h with ⟨w, h1, h2⟩ | ⟨h1, h2, h3⟩
      · rw [h2]
        rcases effect_out h1 with ⟨ho, c, x, hc, hx, he⟩ | ⟨ho, c, hc, hx, he⟩ | ⟨ho, hn, he⟩
        · exact ⟨_, .dialog hat ho hc (by rw [hlen]; exact hx), he⟩
        · exact ⟨_, .failure hat ho hc (by rw [hlen]; exact hx), he⟩
        · refine ⟨[], .silent (fun s' hs' => ?_) (fun s' c hs' => ?_), by rw [he]; simp⟩
          · cases atStep_unique hat hs'; exact ho
          · cases atStep_unique hat hs'
            rw [hlen]
            exact fun e => hn e c
      · refine ⟨[], .silent (fun s' hs' => ?_) (fun s' c hs' e => ?_), by rw [h3]; simp⟩
        · cases atStep_unique hat hs'; exact h1
        · cases atStep_unique hat hs'; exact absurd e h2

/-- C113: what has been printed stays, and what comes after it is the transcript of the steps executed. -/
theorem transcript_printed (ev : Calculator) (p : Profile) (scripts : HMap FScript) (u v : Vm) (ms : List Message)
    (h : Transcript ev p scripts u ms v) : v.world.out = u.world.out ++ ms := by
  induction h with
  | here => simp
  | step _ _ hm hs _ ih =>
    obtain ⟨m', h1, h2⟩ := step_prints ev p scripts _ _ hs
    rw [ih, h2, says_unique h1 hm, List.append_assoc]

/-- C113: every run has a transcript. -/
theorem run_transcript (ev : Calculator) (p : Profile) (scripts : HMap FScript) (n : Nat) (vm vm' : Vm)
    (h : vm.run ev p scripts n = .ok vm') :
    ∃ ms, Transcript ev p scripts vm ms vm' ∧ vm'.world.out = vm.world.out ++ ms := by
  obtain ⟨he, -⟩ := run_ok_executes h
  suffices H : ∃ ms, Transcript ev p scripts vm ms vm' by
    obtain ⟨ms, hm⟩ := H
    exact ⟨ms, hm, transcript_printed ev p scripts _ _ _ hm⟩
  clear h
  induction he with
  | here => exact ⟨[], .here⟩
  | step hf hn hs _ ih =>
    obtain ⟨ms, hm⟩ := ih
    obtain ⟨m, h1, -⟩ := step_prints ev p scripts _ _ hs
    exact ⟨m ++ ms, .step hf hn h1 hs hm⟩

/-- The assertion with calculation `c` is executed in `u`, and gives `false`. -/
def AssertionGivesFalse (ev : Calculator) (scripts : HMap FScript) (u : Vm) (c : Str) : Prop :=
  ∃ s, AtStep scripts u s ∧ s.opcode = .assert ∧ s.switches[0]? = some c ∧ u.world.eval ev u.frames.length c = .ok t!"false"

/-- C113: a run that passes prints dialogs only. A run that fails prints dialogs, and then one message that names the
calculation of the assertion it failed at. -/
theorem failure_is_named (ev : Calculator) (p : Profile) (scripts : HMap FScript) (n : Nat) (vm vm' : Vm)
    (hf : vm.world.failed = false) (h : vm.run ev p scripts n = .ok vm') :
    ∃ texts : List Str,
      (vm'.world.failed = false ∧ vm'.world.out = vm.world.out ++ texts.map .dialog) ∨
      (vm'.world.failed = true ∧ ∃ c u, vm'.world.out = vm.world.out ++ texts.map .dialog ++ [.assertionFailed c] ∧
        Executes ev p scripts vm u ∧ u.step ev p scripts = .ok vm' ∧ AssertionGivesFalse ev scripts u c) := by
  obtain ⟨he, -⟩ := run_ok_executes h
  clear h
  induction he with
  | here => exact ⟨[], .inl ⟨hf, by simp⟩⟩
  | @step u u' v hf' hn hs he ih =>
    obtain ⟨m, hm, ho⟩ := step_prints ev p scripts u u' hs
    cases hu : u'.world.failed with
    | true =>
      have hv : v = u' := by
        cases he with
        | here => rfl
        | step hx _ _ _ => rw [hu] at hx; cases hx
      subst hv
      obtain ⟨-, s, c, h1, h2, h3, h4⟩ := (step_failed hs hf').mp hu
      refine ⟨[], .inr ⟨hu, c, u, ?_, .here, hs, s, h1, h2, h3, h4⟩⟩
      rw [ho, says_unique hm (.failure h1 h2 h3 h4)]
      simp
    | false =>
      obtain ⟨texts, ht⟩ := ih hu
      have hm' : ∃ pre : List Str, m = pre.map .dialog := by
        cases hm with
        | @dialog s c x _ _ _ _ => exact ⟨[x], rfl⟩
        | failure h1 h2 h3 h4 =>
          have := (step_failed hs hf').mpr ⟨hf', _, _, h1, h2, h3, h4⟩
          rw [hu] at this; cases this
        | silent _ _ => exact ⟨[], rfl⟩
      obtain ⟨pre, rfl⟩ := hm'
      refine ⟨pre ++ texts, ?_⟩
      rcases ht with ⟨h1, h2⟩ | ⟨h1, c, x, h2, h3, h4, h5⟩
      · exact .inl ⟨h1, by rw [h2, ho]; simp⟩
      · exact .inr ⟨h1, c, x, by rw [h2, ho]; simp, .step hf' hn hs h3, h4, h5⟩

/-- C113 for a whole report: the tests that pass print dialogs only, and if there is a test with the verdict Fail, the
report ends with one message that names the calculation of an assertion. -/
theorem report_names_failure (ev : Calculator) (p : Profile) (scripts : HMap FScript) (n : Nat) (ts : List FTest)
    (vm last : Vm) (vs : List Bool) (hf : vm.world.failed = false) (h : vm.runTests ev p scripts n ts = .ok (vs, last)) :
    ∃ texts : List Str,
      ((∀ v ∈ vs, v = true) ∧ last.world.out = vm.world.out ++ texts.map .dialog) ∨
      (∃ v ∈ vs, v = false) ∧ ∃ c u, last.world.out = vm.world.out ++ texts.map .dialog ++ [.assertionFailed c] ∧
        AssertionGivesFalse ev scripts u c := by
  induction ts generalizing vm vs with
  | nil =>
    injection h with h
    injection h with h1 h2
    subst h1; subst h2
    exact ⟨[], .inl ⟨by simp, by simp⟩⟩
  | cons t ts ih =>
    unfold Vm.runTests at h
    rw [ev_bind_ok] at h
    obtain ⟨vm', h1, h2⟩ := h
    rw [ev_bind_ok] at h2
    obtain ⟨⟨vs', last'⟩, h3, h4⟩ := h2
    injection h4 with h4
    injection h4 with h4 h5
    subst h4; subst h5
    obtain ⟨texts, ⟨h6, h7⟩ | ⟨h6, c, u, h7, -, -, h8⟩⟩ := failure_is_named ev p scripts n (vm.loadTest t) vm' hf h1
    · replace h7 : vm'.world.out = vm.world.out ++ texts.map .dialog := h7
      obtain ⟨texts', ⟨h9, h10⟩ | ⟨⟨v, hv, hvf⟩, c, u, h9, h10⟩⟩ := ih vm' vs' h6 h3
      · refine ⟨texts ++ texts', .inl ⟨?_, by rw [h10, h7]; simp⟩⟩
        rw [h6]
        simpa using h9
      · exact ⟨texts ++ texts', .inr ⟨⟨v, by simp [hv], hvf⟩, c, u, by rw [h9, h7]; simp, h10⟩⟩
    · replace h7 : vm'.world.out = vm.world.out ++ texts.map .dialog ++ [.assertionFailed c] := h7
      refine ⟨texts, .inr ⟨⟨false, by simp [h6], rfl⟩, c, u, ?_, h8⟩⟩
      have hl : last'.world.out = vm'.world.out := by
        clear ih h1 h7 h8 hf
        induction ts generalizing vm' vs' with
        | nil => injection h3 with h3; injection h3 with _ h3; rw [h3]
        | cons t' ts ih =>
          unfold Vm.runTests at h3
          rw [run_stopped (.inl (show (vm'.loadTest t').world.failed = true from h6)), ev_ok_bind, ev_bind_ok] at h3
          obtain ⟨⟨vs2, last2⟩, h4, h5⟩ := h3
          injection h5 with h5
          injection h5 with _ h5
          subst h5
          rw [ih (vm'.loadTest t') vs2 h4 h6]
          rfl
      rw [hl, h7]

/-! ### Examples -/

section Example
attribute [local instance] toyRt

/-- `show_custom_dialog("hi") assert(1 == 1) show_custom_dialog(x) assert(x != 5) show_custom_dialog("no")`, with a
variable set before the second dialog. -/
def talking : FTest :=
  testOf t!"t" [(.showCustomDialog, [t!"\"hi\""]), (.assert, [t!"1 == 1"]), (.setVariable, [t!"x", t!"5"]),
    (.showCustomDialog, [t!"x"]), (.assert, [t!"x != 5"]), (.showCustomDialog, [t!"\"no\""])]

/-- Two dialogs and the failed assertion are printed, and nothing of the test after it. -/
example : (Vm.runTests toyCalc .debug [] 20 [talking, talking] {}).map (fun r => (r.1, r.2.world.out)) =
    .ok ([false, false], [.dialog t!"\"hi\"", .dialog t!"5", .assertionFailed t!"x != 5"]) := by decide +kernel

example : ∃ last vs, Vm.runTests toyCalc .debug [] 20 [talking, talking] {} = .ok (vs, last) ∧
    ∃ texts : List Str,
      ((∀ v ∈ vs, v = true) ∧ last.world.out = texts.map .dialog) ∨
      (∃ v ∈ vs, v = false) ∧ ∃ c u, last.world.out = texts.map .dialog ++ [.assertionFailed c] ∧
        AssertionGivesFalse toyCalc [] u c := by
  obtain ⟨r, hr⟩ : ∃ r, Vm.runTests toyCalc .debug [] 20 [talking, talking] {} = .ok r := by
    have h : ((Vm.runTests toyCalc .debug [] 20 [talking, talking] {}).map (fun r => (r.1, r.2.world.out))).isOk = true := by
      decide +kernel
    revert h
    generalize Vm.runTests toyCalc .debug [] 20 [talking, talking] {} = x
    cases x <;> intro h
    · cases h
    · exact ⟨_, rfl⟩
  obtain ⟨texts, h⟩ := report_names_failure toyCalc .debug [] 20 [talking, talking] {} r.2 r.1 rfl hr
  exact ⟨r.2, r.1, hr, texts, h⟩

end Example

end BurnFm.Props
