import Verif.Props.Isolation

/-! Property C91: which script a call runs does not depend on the iteration order of the map of scripts. -/

namespace BurnFm.Props
open Spec

/-- Scripts with the same name are the same script. -/
def DistinctScripts (scripts : HMap FScript) : Prop :=
  ∀ a ∈ scripts, ∀ b ∈ scripts, a.2.name = b.2.name → a.2 = b.2

theorem find_perm {l m : HMap FScript} (hp : l.Perm m) (hd : DistinctScripts l) (name : Str) :
    (l.find? (fun e => e.2.name == name)).map (·.2) = (m.find? (fun e => e.2.name == name)).map (·.2) := by
  cases h1 : l.find? (fun e => e.2.name == name) with
  | none =>
    rw [List.find?_eq_none] at h1
    rw [List.find?_eq_none.mpr (fun x hx => h1 x (hp.mem_iff.mpr hx))]
  | some a =>
    cases h2 : m.find? (fun e => e.2.name == name) with
    | none =>
      rw [List.find?_eq_none] at h2
      exact absurd (List.find?_some h1) (h2 a (hp.mem_iff.mp (List.mem_of_find?_eq_some h1)))
    | some b =>
      have e1 : a.2.name = name := by simpa using List.find?_some h1
      have e2 : b.2.name = name := by simpa using List.find?_some h2
      simp only [Option.map_some, Option.some.injEq]
      exact hd a (List.mem_of_find?_eq_some h1) b (hp.mem_iff.mpr (List.mem_of_find?_eq_some h2)) (e1.trans e2.symm)

/-- C91: with distinct script names, the verdicts of a run and the state it leaves do not depend on the order in which
the map of scripts is visited. -/
theorem call_order_irrelevant_partial (ev : Calculator) (p : Profile) (l m : HMap FScript) (hp : l.Perm m) (hd : DistinctScripts l)
    (n : Nat) (ts : List FTest) (vm : Vm) : vm.runTests ev p l n ts = vm.runTests ev p m n ts := by
  have h1 : ∀ (u : Vm) name below, u.script l name below = u.script m name below := by
    intro u name below
    unfold Vm.script
    rw [find_perm hp hd name]
  have h2 : ∀ name : Str, l.any (fun e => e.2.name == name) = m.any (fun e => e.2.name == name) := by
    intro name
    rw [Bool.eq_iff_iff, List.any_eq_true, List.any_eq_true]
    constructor
    · rintro ⟨x, hx, hn⟩; exact ⟨x, hp.mem_iff.mp hx, hn⟩
    · rintro ⟨x, hx, hn⟩; exact ⟨x, hp.mem_iff.mpr hx, hn⟩
  have h3 : ∀ u : Vm, u.step ev p l = u.step ev p m := by
    intro u
    unfold Vm.step Vm.exec
    simp only [h1, h2]
  have h4 : ∀ (n : Nat) (u : Vm), u.run ev p l n = u.run ev p m n := by
    intro n
    induction n with
    | zero => intro u; rfl
    | succ n ih =>
      intro u
      unfold Vm.run
      simp only [h3, ih]
  induction ts generalizing vm with
  | nil => rfl
  | cons t ts ih =>
    unfold Vm.runTests
    rw [h4]
    congr 1
    funext v
    rw [ih]

/-- C91 is false for scripts that share a name: the test that calls them passes in one order and fails in the other. -/
theorem call_order_refuted [LawfulRt] (fuel : Nat) (hf : 40 ≤ fuel) (p : Profile) :
    ∃ (l m : HMap FScript) (t : FTest), l.Perm m ∧ (l.map (·.1)).Nodup ∧
      (Vm.runTests (fun env => evalCalc env fuel) p l 10 [t] {}).map (·.1) = .ok [true] ∧
      (Vm.runTests (fun env => evalCalc env fuel) p m 10 [t] {}).map (·.1) = .ok [false] := by
  obtain ⟨ev, hev⟩ : ∃ ev : Calculator, ev = fun env => evalCalc env fuel := ⟨_, rfl⟩
  have hF : ∀ env, ev env t!"1 == 2" = .ok t!"false" := fun env => by rw [hev]; exact evalCalc_false env hf
  have hT : ∀ env, ev env t!"1 == 1" = .ok t!"true" := fun env => by rw [hev]; exact evalCalc_true env hf
  have hs : ∀ env, ev env t!"\"s\"" = .ok t!"\"s\"" := fun env => by
    rw [hev]; exact evalCalc_string (s := t!"s") (by decide) ⟨'s', by decide, rfl⟩ _ (by omega)
  rw [← hev]
  refine ⟨[(1, { name := t!"s", instructions := [⟨.assert, 0, [t!"1 == 1"]⟩] }), (2, { name := t!"s", instructions := [⟨.assert, 0, [t!"1 == 2"]⟩] })],
    [(2, { name := t!"s", instructions := [⟨.assert, 0, [t!"1 == 2"]⟩] }), (1, { name := t!"s", instructions := [⟨.assert, 0, [t!"1 == 1"]⟩] })],
    testOf t!"a" [(.performScript, [t!"\"s\""])], .swap _ _ _, by decide, ?_, ?_⟩
  · simp [Vm.runTests, Vm.loadTest, testOf, Vm.run, Vm.running, Vm.step, Vm.script, Vm.exec, effect, World.eval,
      ScriptStep.switch, idx, liftR, ev_ok_bind, ev_pure, hT, hs, stripQuotes, Except.map]
  · simp [Vm.runTests, Vm.loadTest, testOf, Vm.run, Vm.running, Vm.step, Vm.script, Vm.exec, effect, World.eval,
      ScriptStep.switch, idx, liftR, ev_ok_bind, ev_pure, hF, hs, stripQuotes, Except.map]

/-! ### Example -/

example : DistinctScripts [(1, { name := t!"a" }), (2, { name := t!"b", instructions := [⟨.newRecordRequest, 0, []⟩] })] := by
  simp [DistinctScripts]

end BurnFm.Props
