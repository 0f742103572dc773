import Verif.Proofs.Crash

/-! When a step of the interpreter gives an error, by opcode. -/

namespace BurnFm
open Spec

section
variable {ev : Calculator} {p : Profile} {scripts : HMap FScript} {u : Vm} {name : Str} {ip : Nat} {below : List (Str × Nat)}
  {code : List ScriptStep} {s : ScriptStep}

theorem exec_err_performScript (hfr : u.frames = (name, ip) :: below) (hop : s.opcode = .performScript) :
    Err (u.exec ev p scripts name ip below code s) ↔
      NoValue ev u s 0 ∨ ∃ v, HasValue ev u s 0 v ∧ ∀ t, v ≠ t!"\"" ++ t ++ t!"\"" := by
  unfold Vm.exec
  rw [hop]
  dsimp only
  rw [err_value (by rw [hfr]; rfl)]
  refine or_congr_right (exists_congr fun v => and_congr_right fun _ => ?_)
  rw [err_bind, err_liftR, err_stripQuotes]
  refine or_iff_left ?_
  rintro ⟨a, -, h⟩
  split at h <;> exact err_pure _ h

theorem exec_err_goToLayout (hfr : u.frames = (name, ip) :: below) (hop : s.opcode = .goToLayout) :
    Err (u.exec ev p scripts name ip below code s) ↔
      NoValue ev u s 0 ∨ ∃ v, HasValue ev u s 0 v ∧ ∀ t, v ≠ t!"\"" ++ t ++ t!"\"" := by
  unfold Vm.exec
  rw [hop]
  dsimp only
  rw [err_bind]
  simp only [err_pure, and_false, exists_false, or_false]
  unfold effect
  rw [hop]
  dsimp only
  rw [err_value (by rw [hfr]; rfl)]
  refine or_congr_right (exists_congr fun v => and_congr_right fun _ => ?_)
  rw [err_bind, err_liftR, err_stripQuotes]
  refine or_iff_left ?_
  rintro ⟨a, -, h⟩
  split at h <;> exact err_pure _ h

/-- The steps that only evaluate their first parameter. -/
theorem exec_err_value (hfr : u.frames = (name, ip) :: below)
    (hop : s.opcode = .showCustomDialog ∨ s.opcode = .assert ∨ s.opcode = .if) :
    Err (u.exec ev p scripts name ip below code s) ↔ NoValue ev u s 0 := by
  rcases hop with hop | hop | hop
  · unfold Vm.exec
    rw [hop]
    dsimp only
    rw [err_bind]
    simp only [err_pure, and_false, exists_false, or_false]
    unfold effect
    rw [hop]
    dsimp only
    rw [err_value (by rw [hfr]; rfl)]
    simp [err_pure]
  · unfold Vm.exec
    rw [hop]
    dsimp only
    rw [err_bind]
    simp only [err_pure, and_false, exists_false, or_false]
    unfold effect
    rw [hop]
    dsimp only
    rw [err_bind]
    have := err_value (ev := ev) (u := u) (s := s) (i := 0) (d := below.length + 1) (by rw [hfr]; rfl)
      (fun v => (pure v : Ev Str))
    rw [err_bind] at this
    simp only [err_pure, and_false, exists_false, or_false, bind_pure] at this
    rw [← this]
    refine or_congr_right (exists_congr fun a => and_congr_right fun _ => ?_)
    rw [err_bind]
    refine or_iff_left ?_
    rintro ⟨v, -, h⟩
    split at h <;> exact err_pure _ h
  · unfold Vm.exec
    rw [hop]
    dsimp only
    rw [err_value (by rw [hfr]; rfl)]
    refine or_iff_left ?_
    rintro ⟨v, -, h⟩
    split at h <;> exact err_pure _ h

theorem exec_err_setVariable (hfr : u.frames = (name, ip) :: below) (hvars : u.frames.length ≤ u.world.vars.length)
    (hop : s.opcode = .setVariable) : Err (u.exec ev p scripts name ip below code s) ↔ NoValue ev u s 1 := by
  unfold Vm.exec
  rw [hop]
  dsimp only
  rw [err_bind]
  simp only [err_pure, and_false, exists_false, or_false]
  unfold effect
  rw [hop]
  dsimp only
  have hb : below.length < u.world.vars.length := by rw [hfr] at hvars; simp at hvars; omega
  have hmod : ∀ f, ¬Err (modIdx u.world.vars (below.length + 1 - 1) f) := by
    intro f h
    rw [err_modIdx] at h
    simp at h
    omega
  cases h0 : s.switches[0]? with
  | none =>
    have hempty : s.switches = [] := by cases hs : s.switches with
      | nil => rfl
      | cons a l => rw [hs] at h0; cases h0
    refine ⟨fun _ => ?_, fun _ => ?_⟩
    · rintro v ⟨c, hc, -⟩
      rw [hempty] at hc; cases hc
    · rw [err_bind]
      exact .inl (by unfold ScriptStep.switch; rw [err_liftR, err_idx]; exact h0)
  | some n =>
    have : s.switch 0 = .ok n := by unfold ScriptStep.switch; rw [idx_of h0]; rfl
    rw [this, ev_ok_bind, err_value (by rw [hfr]; rfl)]
    refine or_iff_left ?_
    rintro ⟨v, -, h⟩
    rw [err_bind, err_liftR] at h
    rcases h with h | ⟨a, -, h⟩
    · exact hmod _ h
    · exact err_pure _ h

theorem exec_err_setField (hfr : u.frames = (name, ip) :: below) (hv : Valid u.world.db)
    (hop : s.opcode = .setField) : Err (u.exec ev p scripts name ip below code s) ↔ NoValue ev u s 1 ∨
      u.world.findMode = false ∧ ∃ n, s.switches[0]? = some n ∧ ¬Writable u.world.db n := by
  unfold Vm.exec
  rw [hop]
  dsimp only
  rw [err_bind]
  simp only [err_pure, and_false, exists_false, or_false]
  unfold effect
  rw [hop]
  dsimp only
  cases h0 : s.switches[0]? with
  | none =>
    have hempty : s.switches = [] := by cases hs : s.switches with
      | nil => rfl
      | cons a l => rw [hs] at h0; cases h0
    refine ⟨fun _ => .inl ?_, fun _ => ?_⟩
    · rintro v ⟨c, hc, -⟩
      rw [hempty] at hc; cases hc
    · rw [err_bind]
      exact .inl (by unfold ScriptStep.switch; rw [err_liftR, err_idx]; exact h0)
  | some n =>
    have : s.switch 0 = .ok n := by unfold ScriptStep.switch; rw [idx_of h0]; rfl
    rw [this, ev_ok_bind, err_value (by rw [hfr]; rfl)]
    have key : ∀ v, Err (if u.world.findMode = true then
          (pure { u.world with criteria := u.world.criteria ++ [(n, v)] } : Ev World)
        else do
          let occ ← liftR (idx (splitCC n) 0)
          let field ← liftR (idx (splitCC n) 1)
          let db ← liftR (u.world.db.writeCell occ field v)
          let db ← liftR (unwrap db)
          pure { u.world with db := db }) ↔ u.world.findMode = false ∧ ¬Writable u.world.db n := by
      intro v
      rw [err_ite]
      simp only [err_pure, and_false, false_or, Bool.not_eq_true]
      refine and_congr_right fun _ => ?_
      rw [err_bind, err_liftR, err_idx]
      cases a0 : (splitCC n)[0]? with
      | none =>
        simp only [true_or, true_iff]
        rintro ⟨occ, field, i, o, t, b0, -⟩
        rw [a0] at b0; cases b0
      | some occ =>
        simp only [liftR_ok, idx_ok, a0, Option.some.injEq, exists_eq_left', reduceCtorEq, false_or]
        rw [err_bind, err_liftR, err_idx]
        cases a1 : (splitCC n)[1]? with
        | none =>
          simp only [true_or, true_iff]
          rintro ⟨occ, field, i, o, t, b0, b1, -⟩
          rw [a1] at b1; cases b1
        | some field =>
          simp only [liftR_ok, idx_ok, a1, Option.some.injEq, exists_eq_left', reduceCtorEq, false_or]
          rw [← err_write hv (val := v) a0 a1, err_bind, err_bind]
          refine or_congr_right (exists_congr fun d => and_congr_right fun _ => ?_)
          rw [err_bind]
          simp [err_pure]
    simp only [key]
    constructor
    · rintro (h | ⟨v, -, h1, h2⟩)
      · exact .inl h
      · exact .inr ⟨h1, n, rfl, h2⟩
    · rintro (h | ⟨h1, n', h2, h3⟩)
      · exact .inl h
      · cases h2
        by_cases hno : NoValue ev u s 1
        · exact .inl hno
        · unfold NoValue at hno
          simp only [not_forall, not_not] at hno
          obtain ⟨v, hval⟩ := hno
          exact .inr ⟨v, hval, h1, h3⟩

theorem exec_err_table (hop : s.opcode = .newRecordRequest ∨ s.opcode = .showAllRecords) :
    Err (u.exec ev p scripts name ip below code s) ↔ fieldsShown u.world.db = [] := by
  rcases hop with hop | hop
  all_goals
    unfold Vm.exec
    rw [hop]
    dsimp only
    rw [err_bind]
    simp only [err_pure, and_false, exists_false, or_false]
    unfold effect
    rw [hop]
    dsimp only
    rw [err_bind, err_liftR]
    simp only [err_pure, and_false, exists_false, or_false, err_create, err_reset]

theorem exec_err_performFind (hop : s.opcode = .performFind) :
    Err (u.exec ev p scripts name ip below code s) ↔ fieldsShown u.world.db = [] ∨ ∃ c ∈ u.world.criteria,
      ∀ field, (splitCC c.1)[1]? = some field → ∀ f ∈ fieldsShown u.world.db, f.name ≠ field := by
  unfold Vm.exec
  rw [hop]
  dsimp only
  rw [err_bind]
  simp only [err_pure, and_false, exists_false, or_false]
  unfold effect
  rw [hop]
  dsimp only
  rw [err_bind, err_liftR]
  simp only [err_pure, and_false, exists_false, or_false, err_find]

theorem exec_err_endLoop (hop : s.opcode = .endLoop) :
    Err (u.exec ev p scripts name ip below code s) ↔ u.loops = [] := by
  unfold Vm.exec
  rw [hop]
  dsimp only
  rw [err_bind, err_liftR, err_unwrap]
  simp [err_pure]

theorem exec_err_exitLoopIf (hfr : u.frames = (name, ip) :: below) (hip : ip ≤ code.length) (hop : s.opcode = .exitLoopIf) :
    Err (u.exec ev p scripts name ip below code s) ↔ NoValue ev u s 0 ∨
      HasValue ev u s 0 t!"true" ∧ ∀ x ∈ code.drop ip, x.opcode ≠ .endLoop := by
  unfold Vm.exec
  rw [hop]
  dsimp only
  rw [err_value (by rw [hfr]; rfl)]
  refine or_congr_right ?_
  constructor
  · rintro ⟨v, hv, h⟩
    split at h
    · rename_i e
      rw [err_bind, err_liftR, err_afterLoop hip] at h
      rcases h with h | ⟨a, -, h⟩
      · exact ⟨e ▸ hv, h⟩
      · exact absurd h (err_pure _)
    · exact absurd h (err_pure _)
  · rintro ⟨h1, h2⟩
    refine ⟨_, h1, ?_⟩
    rw [if_pos rfl, err_bind, err_liftR, err_afterLoop hip]
    exact .inl h2

theorem exec_err_elseIf (hfr : u.frames = (name, ip) :: below) (hip : ip < code.length) (hop : s.opcode = .elseIf) :
    Err (u.exec ev p scripts name ip below code s) ↔ u.branchTaken = false ∧ NoValue ev u s 0 ∨
      u.branchTaken = true ∧ (∀ x ∈ code.drop ip, x.opcode ≠ .endIf) ∧
        ∃ x, (code.drop ip).getLast? = some x ∧ NoValue ev u x 0 := by
  unfold Vm.exec
  rw [hop]
  dsimp only
  have hd : below.length + 1 = u.frames.length := by rw [hfr]; rfl
  cases hb : u.branchTaken with
  | false =>
    simp only [Bool.false_and, Bool.false_eq_true, if_false, false_and, or_false, true_and]
    rw [err_value hd]
    refine or_iff_left ?_
    rintro ⟨v, -, h⟩
    split at h <;> exact err_pure _ h
  | true =>
    simp only [Bool.true_and, decide_eq_true_eq, if_true, reduceCtorEq, false_and, false_or, true_and]
    have hlast : (code.drop ip).getLast? = some (code.getLastD s) := by
      rw [List.getLast?_drop, if_neg (by omega)]
      cases code with
      | nil => simp at hip
      | cons a l =>
        rw [List.getLastD_eq_getLast?, List.getLast?_eq_some_getLast (List.cons_ne_nil a l)]
        rfl
    rw [err_ite, seek_end (by omega)]
    simp only [err_pure, and_false, false_or, isEndIf_false]
    refine and_congr_right fun _ => ?_
    rw [err_value hd, hlast]
    constructor
    · rintro (h | ⟨v, -, h⟩)
      · exact ⟨_, rfl, h⟩
      · split at h <;> exact absurd h (err_pure _)
    · rintro ⟨x, hx, h⟩
      cases hx
      exact .inl h

theorem exec_err_goToRecord (hfr : u.frames = (name, ip) :: below) (hip : ip ≤ code.length)
    (hop : s.opcode = .goToRecordRequestPage) :
    Err (u.exec ev p scripts name ip below code s) ↔
      (∃ i ∈ calculations s, NoValue ev u s i) ∨
      u.world.findMode = false ∧ (u.world.db.occs[u.world.db.handle]? = none ∨
        ∃ o v, u.world.db.occs[u.world.db.handle]? = some o ∧ HasValue ev u s 0 v ∧
          (o.foundSet = [] ∧ p = .debug ∧ countsFromEnd v ∨
           1 < s.switches.length ∧ positionAfter o v = o.recordPtr ∧ ∀ x ∈ code.drop ip, x.opcode ≠ .endLoop)) := by
  unfold Vm.exec
  rw [hop]
  dsimp only
  have hd : below.length + 1 = u.frames.length := by rw [hfr]; rfl
  have uniq : ∀ v v', HasValue ev u s 0 v → HasValue ev u s 0 v' → v = v' := by
    rintro v v' ⟨c, hc, h⟩ ⟨c', hc', h'⟩
    rw [hc] at hc'; cases hc'
    rw [h] at h'; cases h'; rfl
  by_cases hl : 1 < s.switches.length
  · have hcalc : calculations s = [0, 1] := by unfold calculations; rw [hop]; simp [hl]
    rw [if_pos hl, err_value hd, hcalc]
    have key : ∀ v, Err (do
        let _ ← u.world.eval ev (below.length + 1) (← s.switch 1)
        if u.world.findMode then pure { u with frames := (name, ip + 1) :: below }
        else do
          let before ← liftR u.world.db.currentOcc
          let db ← liftR (moveRecord p u.world.db v)
          let after ← liftR db.currentOcc
          let vm := { u with world := { u.world with db := db } }
          if after.recordPtr = before.recordPtr then do
            let i ← liftR (afterLoop code ip)
            pure { vm with frames := (name, i) :: below }
          else pure { vm with frames := (name, ip + 1) :: below }) ↔
        NoValue ev u s 1 ∨ (∃ x, HasValue ev u s 1 x) ∧ u.world.findMode = false ∧
          (u.world.db.occs[u.world.db.handle]? = none ∨ ∃ o, u.world.db.occs[u.world.db.handle]? = some o ∧
            (o.foundSet = [] ∧ p = .debug ∧ countsFromEnd v ∨
              positionAfter o v = o.recordPtr ∧ ∀ x ∈ code.drop ip, x.opcode ≠ .endLoop)) := by
      intro v
      rw [err_value hd]
      refine or_congr_right ?_
      rw [exists_and_right]
      refine and_congr_right fun _ => ?_
      rw [err_ite]
      simp only [err_pure, and_false, false_or, Bool.not_eq_true]
      refine and_congr_right fun _ => ?_
      rw [err_bind, err_liftR]
      unfold Database.currentOcc
      rw [err_idx]
      refine or_congr_right ?_
      simp only [liftR_ok, idx_ok]
      refine exists_congr fun o => and_congr_right fun ho => ?_
      obtain ⟨m1, m2⟩ := move_spec (p := p) ho v
      rw [err_bind, err_liftR, m1]
      constructor
      · rintro (h | ⟨d, hdb, h⟩)
        · exact .inl h
        · rw [liftR_ok] at hdb
          obtain ⟨o', ho', hptr⟩ := m2 d hdb
          unfold Database.currentOcc at ho'
          rw [ho'] at h
          change Err (if o'.recordPtr = o.recordPtr then _ else _) at h
          rw [hptr] at h
          split at h
          · rename_i e
            rw [err_bind, err_liftR, err_afterLoop hip] at h
            rcases h with h | ⟨a, -, h⟩
            · exact .inr ⟨e, h⟩
            · exact absurd h (err_pure _)
          · exact absurd h (err_pure _)
      · rintro (h | ⟨h1, h2⟩)
        · exact .inl h
        · by_cases hm : Err (moveRecord p u.world.db v)
          · exact .inl (m1.mp hm)
          · obtain ⟨d, hdb⟩ := not_err.mp hm
            refine .inr ⟨d, liftR_ok.mpr hdb, ?_⟩
            obtain ⟨o', ho', hptr⟩ := m2 d hdb
            unfold Database.currentOcc at ho'
            rw [ho']
            change Err (if o'.recordPtr = o.recordPtr then _ else _)
            rw [hptr, if_pos h1, err_bind, err_liftR, err_afterLoop hip]
            exact .inl h2
    have hno : ∀ i, NoValue ev u s i ∨ ∃ v, HasValue ev u s i v := by
      intro i
      by_cases h : NoValue ev u s i
      · exact .inl h
      · unfold NoValue at h
        simp only [not_forall, not_not] at h
        exact .inr h
    constructor
    · rintro (h | ⟨v, hv, h⟩)
      · exact .inl ⟨0, by simp, h⟩
      · rcases (key v).mp h with h | ⟨-, hf, h | ⟨o, ho, h⟩⟩
        · exact .inl ⟨1, by simp, h⟩
        · exact .inr ⟨hf, .inl h⟩
        · refine .inr ⟨hf, .inr ⟨o, v, ho, hv, ?_⟩⟩
          rcases h with h | h
          · exact .inl h
          · exact .inr ⟨hl, h⟩
    · intro h
      rcases hno 0 with h0 | ⟨v, hv⟩
      · exact .inl h0
      refine .inr ⟨v, hv, (key v).mpr ?_⟩
      rcases hno 1 with h1 | h1
      · exact .inl h1
      rcases h with ⟨i, hi, h⟩ | ⟨hf, h⟩
      · simp only [List.mem_cons, List.not_mem_nil, or_false] at hi
        rcases hi with rfl | rfl
        · exact absurd hv (h v)
        · exact .inl h
      · refine .inr ⟨h1, hf, ?_⟩
        rcases h with h | ⟨o, v', ho, hv', h⟩
        · exact .inl h
        · rw [uniq v v' hv hv']
          refine .inr ⟨o, ho, ?_⟩
          rcases h with h | h
          · exact .inl h
          · exact .inr h.2
  · have hcalc : calculations s = [0] := by unfold calculations; rw [hop]; simp [hl]
    rw [if_neg hl, err_bind, hcalc]
    simp only [err_pure, and_false, exists_false, or_false]
    unfold effect
    rw [hop]
    dsimp only
    rw [err_value hd]
    have key : ∀ v, Err (if u.world.findMode then (pure u.world : Ev World)
        else do
          let _ ← liftR u.world.db.currentOcc
          let db ← liftR (moveRecord p u.world.db v)
          pure { u.world with db := db }) ↔ u.world.findMode = false ∧
          (u.world.db.occs[u.world.db.handle]? = none ∨ ∃ o, u.world.db.occs[u.world.db.handle]? = some o ∧
            (o.foundSet = [] ∧ p = .debug ∧ countsFromEnd v)) := by
      intro v
      rw [err_ite]
      simp only [err_pure, and_false, false_or, Bool.not_eq_true]
      refine and_congr_right fun _ => ?_
      rw [err_bind, err_liftR]
      unfold Database.currentOcc
      rw [err_idx]
      refine or_congr_right ?_
      simp only [liftR_ok, idx_ok]
      refine exists_congr fun o => and_congr_right fun ho => ?_
      rw [err_bind, err_liftR, (move_spec (p := p) ho v).1]
      simp [err_pure]
    simp only [key, hl, false_and, or_false, List.mem_singleton, exists_eq_left]
    constructor
    · rintro (h | ⟨v, hv, hf, h | ⟨o, ho, h⟩⟩)
      · exact .inl h
      · exact .inr ⟨hf, .inl h⟩
      · exact .inr ⟨hf, .inr ⟨o, v, ho, hv, h⟩⟩
    · rintro (h | ⟨hf, h⟩)
      · exact .inl h
      · by_cases h0 : NoValue ev u s 0
        · exact .inl h0
        · unfold NoValue at h0
          simp only [not_forall, not_not] at h0
          obtain ⟨v, hv⟩ := h0
          refine .inr ⟨v, hv, hf, ?_⟩
          rcases h with h | ⟨o, v', ho, hv', h⟩
          · exact .inl h
          · rw [uniq v v' hv hv']
            exact .inr ⟨o, ho, h⟩

/-- The opcodes that can give an error. -/
def canStop : List Instruction :=
  [.performScript, .goToLayout, .goToRecordRequestPage, .performFind, .showAllRecords, .newRecordRequest, .setField, .setVariable,
   .showCustomDialog, .assert, .exitLoopIf, .endLoop, .if, .elseIf]

theorem exec_err_other (hop : s.opcode ∉ canStop) : ¬Err (u.exec ev p scripts name ip below code s) := by
  unfold Vm.exec
  unfold canStop at hop
  split
  all_goals first
    | (exfalso; rename_i e; rw [e] at hop; simp at hop; done)
    | exact err_pure _
    | skip
  · split
    · split <;> exact err_pure _
    · exact err_pure _
  · rw [err_bind]
    simp only [err_pure, and_false, exists_false, or_false]
    unfold effect
    split
    all_goals first
      | (exfalso; rename_i e; rw [e] at hop; simp at hop; done)
      | exact err_pure _

/-- A step gives an error exactly for one of the reasons. -/
theorem exec_err (hfr : u.frames = (name, ip) :: below) (hv : Valid u.world.db) (hvars : u.frames.length ≤ u.world.vars.length)
    (hs : (u.script scripts name below).instructions[ip]? = some s) :
    Err (u.exec ev p scripts name ip below (u.script scripts name below).instructions s) ↔ StopReason ev p scripts u s := by
  have hip := (List.getElem?_eq_some_iff.mp hs).1
  have hleft : stepsLeft scripts u = (u.script scripts name below).instructions.drop ip := by
    unfold stepsLeft; rw [hfr]
  have hnone : ∀ op, NoneLeft scripts u op ↔ ∀ x ∈ (u.script scripts name below).instructions.drop ip, x.opcode ≠ op := by
    intro op; unfold NoneLeft; rw [hleft]
  constructor
  · intro h
    by_cases hc : s.opcode ∈ canStop
    · unfold canStop at hc
      simp only [List.mem_cons, List.not_mem_nil, or_false] at hc
      rcases hc with hop | hop | hop | hop | hop | hop | hop | hop | hop | hop | hop | hop | hop | hop
      · rcases (exec_err_performScript hfr hop).mp h with h | ⟨v, h1, h2⟩
        · exact .noValue 0 (by unfold calculations; rw [hop]; simp) h
        · exact .notText v (.inl hop) h1 h2
      · rcases (exec_err_goToLayout hfr hop).mp h with h | ⟨v, h1, h2⟩
        · exact .noValue 0 (by unfold calculations; rw [hop]; simp) h
        · exact .notText v (.inr hop) h1 h2
      · rcases (exec_err_goToRecord hfr (by omega) hop).mp h with ⟨i, hi, h⟩ | ⟨hf, h | ⟨o, v, ho, hv, ⟨h1, h2, h3⟩ | ⟨h1, h2, h3⟩⟩⟩
        · exact .noValue i hi h
        · exact .nothingShown hop hf h
        · exact .nothingFound o v h2 hop hf ho h1 hv h3
        · exact .noLoopToLeave o v hop h1 hf ho hv h2 ((hnone _).mpr h3)
      · rcases (exec_err_performFind hop).mp h with h | ⟨c, hc, h⟩
        · exact .noFields (.inr (.inl hop)) h
        · exact .badCriterion c hop hc h
      · exact .noFields (.inr (.inr hop)) ((exec_err_table (.inr hop)).mp h)
      · exact .noFields (.inl hop) ((exec_err_table (.inl hop)).mp h)
      · rcases (exec_err_setField hfr hv hop).mp h with h | ⟨hf, n, h1, h2⟩
        · exact .noValue 1 (by unfold calculations; rw [hop]; simp) h
        · exact .notWritable n hop hf h1 h2
      · exact .noValue 1 (by unfold calculations; rw [hop]; simp) ((exec_err_setVariable hfr hvars hop).mp h)
      · exact .noValue 0 (by unfold calculations; rw [hop]; simp) ((exec_err_value hfr (.inl hop)).mp h)
      · exact .noValue 0 (by unfold calculations; rw [hop]; simp) ((exec_err_value hfr (.inr (.inl hop))).mp h)
      · rcases (exec_err_exitLoopIf hfr (by omega) hop).mp h with h | ⟨h1, h2⟩
        · exact .noValue 0 (by unfold calculations; rw [hop]; simp) h
        · exact .noLoopEnd hop h1 ((hnone _).mpr h2)
      · exact .noLoop hop ((exec_err_endLoop hop).mp h)
      · exact .noValue 0 (by unfold calculations; rw [hop]; simp) ((exec_err_value hfr (.inr (.inr hop))).mp h)
      · rcases (exec_err_elseIf hfr hip hop).mp h with ⟨h1, h2⟩ | ⟨h1, h2, x, h3, h4⟩
        · exact .noCondition hop h1 h2
        · exact .noEndIf x hop h1 ((hnone _).mpr h2) (by rw [hleft]; exact h3) h4
    · exact absurd h (exec_err_other hc)
  · intro h
    cases h with
    | noValue i hi h =>
      unfold calculations at hi
      split at hi
      case h_1 hop => simp at hi; subst hi; exact (exec_err_performScript hfr hop).mpr (.inl h)
      case h_2 hop => simp at hi; subst hi; exact (exec_err_goToLayout hfr hop).mpr (.inl h)
      case h_3 hop => simp at hi; subst hi; exact (exec_err_value hfr (.inl hop)).mpr h
      case h_4 hop => simp at hi; subst hi; exact (exec_err_value hfr (.inr (.inl hop))).mpr h
      case h_5 hop => simp at hi; subst hi; exact (exec_err_value hfr (.inr (.inr hop))).mpr h
      case h_6 hop => simp at hi; subst hi; exact (exec_err_exitLoopIf hfr (by omega) hop).mpr (.inl h)
      case h_7 hop => simp at hi; subst hi; exact (exec_err_setVariable hfr hvars hop).mpr h
      case h_8 hop => simp at hi; subst hi; exact (exec_err_setField hfr hv hop).mpr (.inl h)
      case h_9 hop =>
        refine (exec_err_goToRecord hfr (by omega) hop).mpr (.inl ⟨i, ?_, h⟩)
        unfold calculations; rw [hop]; exact hi
      case h_10 => simp at hi
    | noCondition hop h1 h2 => exact (exec_err_elseIf hfr hip hop).mpr (.inl ⟨h1, h2⟩)
    | noEndIf x hop h1 h2 h3 h4 =>
      rw [hleft] at h3
      exact (exec_err_elseIf hfr hip hop).mpr (.inr ⟨h1, (hnone _).mp h2, x, h3, h4⟩)
    | notText v hop h1 h2 =>
      rcases hop with hop | hop
      · exact (exec_err_performScript hfr hop).mpr (.inr ⟨v, h1, h2⟩)
      · exact (exec_err_goToLayout hfr hop).mpr (.inr ⟨v, h1, h2⟩)
    | noLoopEnd hop h1 h2 => exact (exec_err_exitLoopIf hfr (by omega) hop).mpr (.inr ⟨h1, (hnone _).mp h2⟩)
    | noLoop hop h => exact (exec_err_endLoop hop).mpr h
    | nothingShown hop hf h => exact (exec_err_goToRecord hfr (by omega) hop).mpr (.inr ⟨hf, .inl h⟩)
    | nothingFound o v hp hop hf ho h1 h2 h3 =>
      exact (exec_err_goToRecord hfr (by omega) hop).mpr (.inr ⟨hf, .inr ⟨o, v, ho, h2, .inl ⟨h1, hp, h3⟩⟩⟩)
    | noLoopToLeave o v hop hl hf ho h1 h2 h3 =>
      exact (exec_err_goToRecord hfr (by omega) hop).mpr (.inr ⟨hf, .inr ⟨o, v, ho, h1, .inr ⟨hl, h2, (hnone _).mp h3⟩⟩⟩)
    | noFields hop h =>
      rcases hop with hop | hop | hop
      · exact (exec_err_table (.inl hop)).mpr h
      · exact (exec_err_performFind hop).mpr (.inl h)
      · exact (exec_err_table (.inr hop)).mpr h
    | badCriterion c hop hc h => exact (exec_err_performFind hop).mpr (.inr ⟨c, hc, h⟩)
    | notWritable n hop hf h1 h2 => exact (exec_err_setField hfr hv hop).mpr (.inr ⟨hf, n, h1, h2⟩)

end

end BurnFm
