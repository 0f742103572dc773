import Verif.Proofs.Counting
import Verif.Props.Database
import Verif.Spec.ToyRuntime

/-! C103: loops that count. -/

namespace BurnFm.Props
open Spec

/-- The part common to all exit conditions: the loop makes `n` rounds if `n` is the first value of the counter for which
the condition holds. -/
theorem counting_code_runs [LawfulRt] (fuel : Nat) (hf : 40 ≤ fuel) (p : Profile) (scripts : HMap FScript) (u : Vm) (name : Str)
    (below : List (Str × Nat)) (pre post : List ScriptStep) (i c : Str) (n : Nat) (b : List ScriptStep)
    (hfr : u.frames = (name, pre.length) :: below)
    (hcode : (u.script scripts name below).instructions = pre ++ countingCode i c b ++ post)
    (hvars : below.length < u.world.vars.length) (hfail : u.world.failed = false)
    (hi : IsName i) (hn : n ≤ 2 ^ 53) (hb : ∀ s ∈ b, Straight s ∧ Keeps i s)
    (stop : Nat → Bool) (hstop : stop n = true) (hgo : ∀ k, k < n → stop k = false)
    (hc : ∀ (env : CalcEnv) k, k ≤ n → varValue env i = some (Nat.toDigits 10 k) →
      evalCalc env fuel c = .ok (boolText (stop k))) (w' : World)
    (hr : Rounds (fun env => evalCalc env fuel) p (below.length + 1) i b n 0 u.world w') :
    ∃ v, Executes (fun env => evalCalc env fuel) p scripts u v ∧
      v.world = withVar w' (below.length + 1) i (Nat.toDigits 10 n) ∧
      v.frames = (name, pre.length + (countingCode i c b).length) :: below ∧ v.branchTaken = u.branchTaken := by
  obtain ⟨u', hu⟩ : ∃ u' : Vm, u' = { u with world := withVar u.world (below.length + 1) i (Nat.toDigits 10 0),
                                             frames := (name, pre.length + 1) :: below } := ⟨_, rfl⟩
  have hstep : u.step (fun env => evalCalc env fuel) p scripts = .ok u' := by
    rw [hu]
    unfold Vm.step
    rw [hfr]
    dsimp only
    rw [hcode]
    have : (pre ++ countingCode i c b ++ post)[pre.length]? = some (instr .setVariable [i, t!"0"]) := by
      simp [countingCode]
    rw [this]
    dsimp only
    rw [exec_plain rfl, effect_setVariable (ev := fun env => evalCalc env fuel) (v := Nat.toDigits 10 0) hvars]
    · rfl
    · exact evalCalc_numeral (k := 0) (by decide) _ hf
  obtain ⟨-, hit⟩ := rounds_iterate hf hi hn (fun s hs => (hb s hs).2) stop hstop hgo hc hr hvars hfail
  obtain ⟨v, h1, h2, h3, h4⟩ := loop_partial (fun env => evalCalc env fuel) p scripts u'
    name below (pre ++ [instr .setVariable [i, t!"0"]]) post [] (b ++ [instr .setVariable [i, i ++ t!" + 1"]]) c
    (by rw [hu]; simp)
    (by
      rw [show u'.script scripts name below = u.script scripts name below by rw [hu]; rfl, hcode]
      simp [countingCode])
    (by rw [hu]; exact hfail) (by simp)
    (by
      intro s hs
      rcases List.mem_append.mp hs with hs | hs
      · exact (hb s hs).1
      · rw [List.mem_singleton] at hs; subst hs; exact ⟨by simp [instr], by intro h; cases h⟩)
    _ _ (by rw [hu]; exact hit)
  refine ⟨v, .step hfail (by rw [hfr]; simp) hstep h1, h2, ?_, by rw [h4, hu]⟩
  rw [h3]
  simp [countingCode]
  omega

/-- C103: anywhere in a script,

    set_variable(i, 0) loop { exit_loop_if(i == n) b set_variable(i, i + 1) }

executes the steps `b` exactly `n` times, with `i = 0`, `i = 1`, …, `i = n - 1`, and then continues after the loop with
`i = n`: for every `n` up to 2⁵³ and all steps `b` without control flow that do not set `i`. -/
theorem counting_loop [LawfulRt] (fuel : Nat) (hf : 40 ≤ fuel) (p : Profile) (scripts : HMap FScript) (u : Vm) (name : Str)
    (below : List (Str × Nat)) (pre post : List ScriptStep) (i : Str) (n : Nat) (b : List ScriptStep)
    (hfr : u.frames = (name, pre.length) :: below)
    (hcode : (u.script scripts name below).instructions = pre ++ countingCode i (i ++ t!" == " ++ Nat.toDigits 10 n) b ++ post)
    (hvars : below.length < u.world.vars.length) (hfail : u.world.failed = false)
    (hi : IsName i) (hn : n ≤ 2 ^ 53) (hb : ∀ s ∈ b, Straight s ∧ Keeps i s) (w' : World)
    (hr : Rounds (fun env => evalCalc env fuel) p (below.length + 1) i b n 0 u.world w') :
    ∃ v, Executes (fun env => evalCalc env fuel) p scripts u v ∧
      v.world = withVar w' (below.length + 1) i (Nat.toDigits 10 n) ∧
      v.frames = (name, pre.length + (countingCode i (i ++ t!" == " ++ Nat.toDigits 10 n) b).length) :: below ∧
      v.branchTaken = u.branchTaken := by
  refine counting_code_runs fuel hf p scripts u name below pre post i _ n b hfr hcode hvars hfail hi hn hb
    (fun k => k == n) (by simp) (fun k hk => by simp; omega) ?_ w' hr
  intro env k hk hv
  have := evalCalc_counter (env := env) hi hv hn (s := t!"==") (op := .eq) (by decide) hf
  rw [show i ++ t!" == " ++ Nat.toDigits 10 n = i ++ ' ' :: t!"==" ++ ' ' :: Nat.toDigits 10 n by simp, this]
  show Except.ok (boolText _) = _
  by_cases e : k = n
  · subst e; simp
  · have : Nat.toDigits 10 k ≠ Nat.toDigits 10 n := fun h => e (toDigits_inj h)
    rw [beq_eq_false_iff_ne.mpr this, beq_eq_false_iff_ne.mpr e]

/-- C103 is false with `>=`: `exit_loop_if(i >= 10)` leaves the loop after 2 rounds, because the numbers are compared as
texts. -/
theorem counting_to_ten_refuted [LawfulRt] (fuel : Nat) (hf : 40 ≤ fuel) (p : Profile) (scripts : HMap FScript) (u : Vm)
    (name : Str) (below : List (Str × Nat)) (pre post : List ScriptStep) (i : Str) (b : List ScriptStep)
    (hfr : u.frames = (name, pre.length) :: below)
    (hcode : (u.script scripts name below).instructions = pre ++ countingCode i (i ++ t!" >= 10") b ++ post)
    (hvars : below.length < u.world.vars.length) (hfail : u.world.failed = false)
    (hi : IsName i) (hb : ∀ s ∈ b, Straight s ∧ Keeps i s) (w' : World)
    (hr : Rounds (fun env => evalCalc env fuel) p (below.length + 1) i b 2 0 u.world w') :
    ∃ v, Executes (fun env => evalCalc env fuel) p scripts u v ∧ v.world = withVar w' (below.length + 1) i t!"2" ∧
      v.frames = (name, pre.length + (countingCode i (i ++ t!" >= 10") b).length) :: below := by
  obtain ⟨v, h1, h2, h3, -⟩ := counting_code_runs fuel hf p scripts u name below pre post i _ 2 b hfr hcode hvars hfail hi
    (by decide) hb (fun k => strLe (Nat.toDigits 10 10) (Nat.toDigits 10 k)) (by decide)
    (fun k hk => by
      have : k = 0 ∨ k = 1 := by omega
      rcases this with rfl | rfl <;> decide)
    (by
      intro env k hk hv
      have := evalCalc_counter (env := env) hi hv (n := 10) (by decide) (s := t!">=") (op := .gtq) (by decide) hf
      rw [show i ++ t!" >= 10" = i ++ ' ' :: t!">=" ++ ' ' :: Nat.toDigits 10 10 by simp; decide, this]
      rfl) w' hr
  exact ⟨v, h1, h2, h3⟩

/-- A new record, as the loops below see it. -/
theorem create_record_blank (p : Profile) (db : Database) (o : DOcc) (t : DTable) (ho : db.occs[db.handle]? = some o)
    (ht : db.tables[o.tablePtr]? = some t) (hne : t.fields ≠ []) :
    ∃ db' o', db.createRecord p = .ok db' ∧ db'.handle = db.handle ∧ db'.occs[db'.handle]? = some o' ∧
      o'.tablePtr = o.tablePtr ∧ db'.tables[o.tablePtr]? = some t.addBlankRecord := by
  obtain ⟨db', h, -⟩ := create_record_data p db o t ho ht hne
  obtain ⟨o', t', f', fs', ho', ht', hfs', rfl⟩ := create_ok h
  rw [ho] at ho'; cases ho'
  rw [ht] at ht'; cases ht'
  refine ⟨_, { o with foundSet := o.foundSet ++ [f'.records.length], recordPtr := o.foundSet.length }, h, rfl, ?_, rfl, ?_⟩
  · simp only [List.getElem?_map, ho, Option.map_some]
    rw [if_pos trivial]
  · exact List.getElem?_set_self (List.getElem?_eq_some_iff.mp ht).1

theorem rounds_create [LawfulRt] (ev : Calculator) (p : Profile) (d : Nat) (i : Str) (n : Nat) (tp : Nat) :
    ∀ (m k : Nat) (w : World) (o : DOcc) (t : DTable), k + m = n → w.failed = false → w.db.occs[w.db.handle]? = some o →
      o.tablePtr = tp → w.db.tables[tp]? = some t → t.fields ≠ [] →
      ∃ w' t', Rounds ev p d i [instr .newRecordRequest []] n k w w' ∧ w'.db.tables[tp]? = some t' ∧
        t'.fields = t.fields.map (fun f => { f with records := f.records ++ List.replicate m [] })
  | 0, k, w, o, t, hk, _, _, _, ht, _ => by
    have : k = n := by omega
    subst this
    exact ⟨w, t, .stop, ht, by simp⟩
  | m + 1, k, w, o, t, hk, hw, ho, hp, ht, hne => by
    subst hp
    obtain ⟨db', o', h1, h2, h3, h4, h5⟩ := create_record_blank p w.db o t ho ht hne
    have he : effect ev p d (instr .newRecordRequest []) (withVar w d i (Nat.toDigits 10 k)) =
        .ok { withVar w d i (Nat.toDigits 10 k) with db := db' } := by
      unfold effect
      show (do let db ← liftR (w.db.createRecord p); pure _) = _
      rw [h1]; rfl
    have hr : runBody ev p d [instr .newRecordRequest []] (withVar w d i (Nat.toDigits 10 k)) =
        .ok { withVar w d i (Nat.toDigits 10 k) with db := db' } := by
      rw [runBody, he, ev_ok_bind]; split <;> rfl
    obtain ⟨w', t', g1, g2, g3⟩ := rounds_create ev p d i n o.tablePtr m (k + 1)
      { withVar w d i (Nat.toDigits 10 k) with db := db' } o' t.addBlankRecord (by omega) hw h3 h4 h5
      (by simpa [DTable.addBlankRecord] using hne)
    refine ⟨w', t', .round (by omega) hr hw g1, g2, ?_⟩
    rw [g3]
    simp [DTable.addBlankRecord, List.replicate_succ]

/-- C103 for `b` = `new_record_request()`: the loop creates exactly `n` blank records in the table of the current layout. -/
theorem loop_creates_records [LawfulRt] (fuel : Nat) (hf : 40 ≤ fuel) (p : Profile) (scripts : HMap FScript) (u : Vm)
    (name : Str) (below : List (Str × Nat)) (pre post : List ScriptStep) (i : Str) (n : Nat)
    (hfr : u.frames = (name, pre.length) :: below)
    (hcode : (u.script scripts name below).instructions =
      pre ++ countingCode i (i ++ t!" == " ++ Nat.toDigits 10 n) [instr .newRecordRequest []] ++ post)
    (hvars : below.length < u.world.vars.length) (hfail : u.world.failed = false) (hi : IsName i) (hn : n ≤ 2 ^ 53)
    (o : DOcc) (t : DTable) (ho : u.world.db.occs[u.world.db.handle]? = some o)
    (ht : u.world.db.tables[o.tablePtr]? = some t) (hne : t.fields ≠ []) :
    ∃ v t', Executes (fun env => evalCalc env fuel) p scripts u v ∧
      v.frames = (name, pre.length + (countingCode i (i ++ t!" == " ++ Nat.toDigits 10 n) [instr .newRecordRequest []]).length)
        :: below ∧
      v.world.db.tables[o.tablePtr]? = some t' ∧
      t'.fields = t.fields.map (fun f => { f with records := f.records ++ List.replicate n [] }) := by
  obtain ⟨w', t', h1, h2, h3⟩ := rounds_create (fun env => evalCalc env fuel) p (below.length + 1) i n o.tablePtr n 0 u.world o t
    (by omega) hfail ho rfl ht hne
  obtain ⟨v, e1, e2, e3, -⟩ := counting_loop fuel hf p scripts u name below pre post i n _ hfr hcode hvars hfail hi hn
    (by intro s hs; rw [List.mem_singleton] at hs; subst hs; exact ⟨by decide, fun h => by cases h⟩) w' h1
  exact ⟨v, t', e1, e3, by rw [e2]; exact h2, h3⟩

section Example
attribute [local instance] toyRt

/-- One table with two fields and one record. -/
def onePet : Database :=
  { tables := [{ name := t!"Pets", fields := [{ name := t!"Name", records := [t!"Rex"] }, { name := t!"Age", records := [t!"3"] }] }],
    occs := [{ tablePtr := 0, foundSet := [0] }] }

/-- A test that creates records in a loop. -/
def petLoop (c : Str) : Vm :=
  { frames := [(t!"t", 0)],
    test := { name := t!"t", instructions := countingCode t!"i" c [instr .newRecordRequest []] },
    world := { vars := [[]], db := onePet } }

example : ∃ v t', Executes (fun env => evalCalc env 40) .debug [] (petLoop t!"i == 25") v ∧ v.frames = [(t!"t", 6)] ∧
    v.world.db.tables[0]? = some t' ∧ (t'.fields.map (·.records.length)) = [26, 26] := by
  obtain ⟨v, t', h1, h2, h3, h4⟩ := loop_creates_records 40 (by decide) .debug [] (petLoop t!"i == 25") t!"t" [] [] [] t!"i" 25 rfl rfl
    (by decide) rfl ⟨by decide, by decide, _, _, rfl, by decide⟩ (by decide) _ _ rfl rfl (by decide)
  exact ⟨v, t', h1, h2, h3, by rw [h4]; rfl⟩

example : ∃ v w, Executes (fun env => evalCalc env 40) .debug [] (petLoop t!"i >= 10") v ∧ v.world = withVar w 1 t!"i" t!"2" := by
  obtain ⟨w, t', h1, -, -⟩ := rounds_create (fun env => evalCalc env 40) .debug 1 t!"i" 2 0 2 0 (petLoop t!"i >= 10").world _ _ rfl rfl
    rfl rfl rfl (by decide)
  obtain ⟨v, e1, e2, -⟩ := counting_to_ten_refuted 40 (by decide) .debug [] (petLoop t!"i >= 10") t!"t" [] [] [] t!"i"
    [instr .newRecordRequest []] rfl rfl (by decide) rfl ⟨by decide, by decide, _, _, rfl, by decide⟩
    (by intro s hs; rw [List.mem_singleton] at hs; subst hs; exact ⟨by decide, by decide⟩) w h1
  exact ⟨v, w, e1, e2⟩

end Example

end BurnFm.Props
