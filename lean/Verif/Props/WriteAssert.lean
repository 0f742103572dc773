import Verif.Proofs.WriteAssert
import Verif.Spec.ToyRuntime

/-! C104: what a test writes it can check. -/

namespace BurnFm.Props
open Spec

/-- A text that can be written in quotes in a calculation. -/
def Quotable [Rt] (s : Str) : Prop := '"' ∉ s ∧ ∃ c ∈ s, Alnum c

/-- Two steps without control flow, executed anywhere in a script. -/
theorem two_steps (ev : Calculator) (p : Profile) (scripts : HMap FScript) (u : Vm) (name : Str) (below : List (Str × Nat))
    (pre post : List ScriptStep) (s1 s2 : ScriptStep) (hfr : u.frames = (name, pre.length) :: below)
    (hcode : (u.script scripts name below).instructions = pre ++ [s1, s2] ++ post) (hfail : u.world.failed = false)
    (h1 : isPlain s1 = true) (h2 : isPlain s2 = true) (w1 w2 : World) (e1 : effect ev p (below.length + 1) s1 u.world = .ok w1)
    (hf1 : w1.failed = false) (e2 : effect ev p (below.length + 1) s2 w1 = .ok w2) :
    ∃ v, Executes ev p scripts u v ∧ v.world = w2 ∧ v.frames = (name, pre.length + 2) :: below := by
  obtain ⟨u', hu⟩ : ∃ u' : Vm, u' = { u with world := w1, frames := (name, pre.length + 1) :: below } := ⟨_, rfl⟩
  have st1 : u.step ev p scripts = .ok u' := by
    unfold Vm.step
    rw [hfr]
    dsimp only
    rw [hcode, show (pre ++ [s1, s2] ++ post)[pre.length]? = some s1 by simp]
    dsimp only
    rw [exec_plain h1, e1, hu]
    rfl
  have st2 : u'.step ev p scripts = .ok { u' with world := w2, frames := (name, pre.length + 1 + 1) :: below } := by
    unfold Vm.step
    rw [show u'.frames = (name, pre.length + 1) :: below by rw [hu]]
    dsimp only
    rw [show u'.script scripts name below = u.script scripts name below by rw [hu]; rfl, hcode,
      show (pre ++ [s1, s2] ++ post)[pre.length + 1]? = some s2 by simp]
    dsimp only
    rw [exec_plain h2, show u'.world = w1 by rw [hu], e2]
    rfl
  exact ⟨_, .step hfail (by rw [hfr]; simp) st1 (.step (by rw [hu]; exact hf1) (by rw [hu]; simp) st2 .here), rfl, rfl⟩

/-- The effect of an assertion. -/
theorem effect_assert {ev : Calculator} {p : Profile} {d : Nat} {w : World} {c : Str} {b : Bool} (hw : w.failed = false)
    (h : w.eval ev d c = .ok (boolText b)) :
    effect ev p d (instr .assert [c]) w =
      .ok { w with failed := !b, out := if b then w.out else w.out ++ [.assertionFailed c] } := by
  unfold effect
  show (do let val ← w.eval ev d c; if val = t!"false" then
    pure { w with failed := true, out := w.out ++ [Message.assertionFailed c] } else pure w) = _
  rw [h, ev_ok_bind]
  cases b
  · rfl
  · show Except.ok w = _
    rw [show (!true) = w.failed by rw [hw]; rfl, if_pos rfl]

/-- C104 for variables: after `set_variable(i, "s")` the assertion `i == "t"` holds if and only if `s` and `t` are the same
text. -/
theorem set_variable_then_assert [Rt] (fuel : Nat) (hf : 40 ≤ fuel) (p : Profile) (scripts : HMap FScript) (u : Vm)
    (name : Str) (below : List (Str × Nat)) (pre post : List ScriptStep) (i s t : Str)
    (hfr : u.frames = (name, pre.length) :: below)
    (hcode : (u.script scripts name below).instructions =
      pre ++ [instr .setVariable [i, t!"\"" ++ s ++ t!"\""], instr .assert [i ++ t!" == \"" ++ t ++ t!"\""]] ++ post)
    (hvars : below.length < u.world.vars.length) (hfail : u.world.failed = false) (hi : IsName i)
    (hs : Quotable s) (ht : Quotable t) :
    ∃ v, Executes (fun env => evalCalc env fuel) p scripts u v ∧ v.frames = (name, pre.length + 2) :: below ∧
      (v.world.failed = false ↔ s = t) := by
  have e1 := effect_setVariable (ev := fun env => evalCalc env fuel) (p := p) (i := i) (c := t!"\"" ++ s ++ t!"\"")
    (v := '"' :: s ++ ['"']) hvars (evalCalc_string hs.1 hs.2 _ (by omega))
  have hv := varValue_withVar (i := i) (v := '"' :: s ++ ['"']) hvars
  obtain ⟨v, h1, h2, h3⟩ := two_steps (fun env => evalCalc env fuel) p scripts u name below pre post _ _ hfr hcode hfail rfl rfl _ _ e1
    hfail (effect_assert (b := s == t) hfail (evalCalc_equals (isName_word hi) (.variable (isName_varName hi).plain)
      (variable_reads_back_partial _ i _ (isName_varName hi) hv (.inr (isQuoted_quotes s)) fuel (by omega)) ht.1 ht.2 hf))
  refine ⟨v, h1, h3, ?_⟩
  rw [h2]
  simp

/-- C104 for fields of the current occurrence: after `set_field(occ::f, "s")` the assertion `occ::f == "t"` holds if and
only if `s` and `t` are the same text. Missing: other occurrences, see `write_then_assert_refuted`. -/
theorem write_then_assert_partial [Rt] (fuel : Nat) (hf : 40 ≤ fuel) (p : Profile) (scripts : HMap FScript) (u : Vm)
    (name : Str) (below : List (Str × Nat)) (pre post : List ScriptStep) (occ f s t : Str)
    (hfr : u.frames = (name, pre.length) :: below)
    (hcode : (u.script scripts name below).instructions =
      pre ++ [instr .setField [occ ++ t!"::" ++ f, t!"\"" ++ s ++ t!"\""],
        instr .assert [occ ++ t!"::" ++ f ++ t!" == \"" ++ t ++ t!"\""]] ++ post)
    (hfail : u.world.failed = false) (hmode : u.world.findMode = false) (hvalid : Valid u.world.db)
    (hocc : occ ≠ [] ∧ ∀ c ∈ occ, WordChar c) (hfn : f ≠ [] ∧ ':' ∉ f ∧ ∀ c ∈ f, Alnum c)
    (hcur : SMap.get u.world.db.indices occ = some u.world.db.handle) (o : DOcc) (tab : DTable)
    (ho : u.world.db.occs[u.world.db.handle]? = some o) (hrec : o.foundSet ≠ [])
    (htab : u.world.db.tables[o.tablePtr]? = some tab) (hfield : ∃ g ∈ tab.fields, g.name = f)
    (hs : Quotable s) (ht : Quotable t) :
    ∃ v, Executes (fun env => evalCalc env fuel) p scripts u v ∧ v.frames = (name, pre.length + 2) :: below ∧
      (v.world.failed = false ↔ s = t) := by
  have hpo : PlainName occ := fun h => (hocc.2 _ h).1 (by decide)
  obtain ⟨db', hdb⟩ := write_succeeds u.world.db hvalid occ f ('"' :: s ++ ['"']) _ o tab hcur ho hrec htab hfield
  have hval := written_value hcur hdb
  have hq : isQuoted (occ ++ t!"::" ++ f) = false := by
    obtain ⟨c, r, rfl⟩ := List.exists_cons_of_ne_nil hocc.1
    have : c ≠ '"' := fun e => (hocc.2 c (by simp)).1 (by rw [e]; decide)
    unfold isQuoted
    simp [this]
  have e1 : effect (fun env => evalCalc env fuel) p (below.length + 1)
      (instr .setField [occ ++ t!"::" ++ f, t!"\"" ++ s ++ t!"\""]) u.world = .ok { u.world with db := db' } := by
    have h0 : (instr .setField [occ ++ t!"::" ++ f, t!"\"" ++ s ++ t!"\""]).switch 0 = .ok (occ ++ t!"::" ++ f) := rfl
    have h1 : (instr .setField [occ ++ t!"::" ++ f, t!"\"" ++ s ++ t!"\""]).switch 1 = .ok (t!"\"" ++ s ++ t!"\"") := rfl
    unfold effect
    simp only [instr] at h0 h1 ⊢
    rw [h0, h1]
    simp only [ev_ok_bind]
    rw [show u.world.eval (fun env => evalCalc env fuel) (below.length + 1) (t!"\"" ++ s ++ t!"\"") = .ok ('"' :: s ++ ['"'])
      from evalCalc_string hs.1 hs.2 _ (by omega)]
    simp only [ev_ok_bind, hmode, Bool.false_eq_true, if_false]
    rw [splitCC_field hpo hfn.2.1]
    simp only [idx, List.getElem?_cons_zero, List.getElem?_cons_succ, liftR, ev_ok_bind, hdb, unwrap]
    rfl
  obtain ⟨v, h1, h2, h3⟩ := two_steps (fun env => evalCalc env fuel) p scripts u name below pre post _ _ hfr hcode hfail rfl rfl _ _ e1
    hfail (effect_assert (b := s == t) hfail (evalCalc_equals (.field hocc.1 hfn.1 hocc.2 hfn.2.2) (.field hpo hfn.2.1)
      (by
        obtain ⟨g, rfl⟩ : ∃ g, fuel = g + 2 := ⟨fuel - 2, by omega⟩
        rw [evalNode, operand_field hpo hfn.2.1 hq, foundSet_value hval]
        simp only [liftR, ev_ok_bind]
        rw [operand_quoted _ (isQuoted_quotes s)]
        rfl) ht.1 ht.2 hf))
  refine ⟨v, h1, h3, ?_⟩
  rw [h2]
  simp

section Example
attribute [local instance] toyRt

/-- `set_field(people::id, "x") assert(people::id == "y")` with the given texts. -/
def writeTest (s t : Str) : FTest :=
  { script := { name := t!"t", instructions := [instr .setField [t!"people::id", t!"\"" ++ s ++ t!"\""],
      instr .assert [t!"people::id" ++ t!" == \"" ++ t ++ t!"\""]] } }

set_option maxRecDepth 20000 in
/-- C104 is false for occurrences that are not current: in a reachable state in which `people` has a current record and a
field `id`, the test

    set_field(people::id, "x") assert(people::id == "x")

fails. -/
theorem write_then_assert_refuted : ∃ db o tab, Reachable .debug db ∧ SMap.get db.indices t!"people" = some 1 ∧
    db.occs[1]? = some o ∧ o.foundSet ≠ [] ∧ db.tables[o.tablePtr]? = some tab ∧ (∃ g ∈ tab.fields, g.name = t!"id") ∧
    (Vm.runTests (fun env => evalCalc env 40) .debug [] 10 [writeTest t!"x" t!"x"] { world := { db := db } }).map (·.1) =
      .ok [false] := by
  refine ⟨sampleDb, (sampleDb.occs[1]?).getD {}, (sampleDb.tables[1]?).getD {}, sampleDb_reachable, by decide, by decide,
    by decide, by decide, ?_, by decide +kernel⟩
  exact List.mem_map.mp (show t!"id" ∈ List.map DField.name ((sampleDb.tables[1]?).getD ({} : DTable)).fields by decide)

/-- In the same state, but with `people` current. -/
def peopleVm (s t : Str) : Vm :=
  { frames := [(t!"t", 0)], test := (writeTest s t).script, world := { vars := [[]], db := peopleDb } }

set_option maxRecDepth 20000 in
example : ∃ v, Executes (fun env => evalCalc env 40) .debug [] (peopleVm t!"hello" t!"world") v ∧ v.frames = [(t!"t", 2)] ∧
    (v.world.failed = false ↔ t!"hello" = t!"world") := by
  have h := reachable_valid .debug sampleDb sampleDb_reachable
  have hv : Valid peopleDb := ⟨h.rect, fun o ho => ⟨(h.found o ho).increasing, (h.found o ho).existing, (h.found o ho).pointer⟩⟩
  exact write_then_assert_partial 40 (by decide) .debug [] (peopleVm t!"hello" t!"world") t!"t" [] [] [] t!"people" t!"id" _ _ rfl rfl
    rfl rfl hv ⟨by decide, by decide⟩ ⟨by decide, by decide, by decide⟩ (by decide) ((peopleDb.occs[1]?).getD {})
    ((peopleDb.tables[1]?).getD {}) (by decide) (by decide) (by decide)
    (List.mem_map.mp (show t!"id" ∈ List.map DField.name ((peopleDb.tables[1]?).getD ({} : DTable)).fields by decide))
    ⟨by decide, 'h', by decide, by decide⟩ ⟨by decide, 'w', by decide, by decide⟩

set_option maxRecDepth 20000 in
example : ((peopleVm t!"hello" t!"hello").run (fun env => evalCalc env 40) .debug [] 10).map (·.world.failed) = .ok false ∧
    ((peopleVm t!"hello" t!"world").run (fun env => evalCalc env 40) .debug [] 10).map (·.world.failed) = .ok true := by
  decide +kernel

end Example

end BurnFm.Props
