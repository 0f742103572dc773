import Verif.Spec.Crash
import Verif.Props.VmData

/-! When steps of the interpreter give an error. -/

namespace BurnFm
open Spec

/-- The result is an error. -/
def Err {ε α : Type} (x : Except ε α) : Prop := ∃ e, x = .error e

theorem err_ok {ε α : Type} (a : α) : ¬Err (.ok a : Except ε α) := by rintro ⟨e, h⟩; cases h

theorem err_pure (a : α) : ¬Err (pure a : Ev α) := err_ok a
theorem err_pureR (a : α) : ¬Err (pure a : Res α) := err_ok a

theorem err_error {ε α : Type} (e : ε) : Err (.error e : Except ε α) := ⟨e, rfl⟩

theorem err_bind {ε α β : Type} {x : Except ε α} {f : α → Except ε β} :
    Err (x >>= f) ↔ Err x ∨ ∃ a, x = .ok a ∧ Err (f a) := by
  cases x with
  | error e => exact ⟨fun _ => .inl ⟨e, rfl⟩, fun _ => ⟨e, rfl⟩⟩
  | ok a =>
    constructor
    · intro h; exact .inr ⟨a, rfl, h⟩
    · rintro (h | ⟨b, hb, h⟩)
      · exact absurd h (err_ok a)
      · cases hb; exact h

theorem err_liftR {α : Type} {x : Res α} : Err (liftR x) ↔ Err x := by
  cases x with
  | error e => exact ⟨fun _ => ⟨e, rfl⟩, fun _ => ⟨.panic e, rfl⟩⟩
  | ok a => exact ⟨fun h => by obtain ⟨e, h⟩ := h; (cases h), fun h => absurd h (err_ok a)⟩

theorem err_idx {α : Type} {xs : List α} {i : Nat} : Err (idx xs i) ↔ xs[i]? = none := by
  unfold idx
  cases xs[i]? with
  | none => exact ⟨fun _ => rfl, fun _ => ⟨_, rfl⟩⟩
  | some a => exact ⟨fun h => absurd h (err_ok a), nofun⟩

theorem err_unwrap {α : Type} {o : Option α} : Err (unwrap o) ↔ o = none := by
  cases o with
  | none => exact ⟨fun _ => rfl, fun _ => ⟨_, rfl⟩⟩
  | some a => exact ⟨fun h => absurd h (err_ok a), nofun⟩

theorem err_ite {ε α : Type} {c : Prop} [Decidable c] {x y : Except ε α} :
    Err (if c then x else y) ↔ (c ∧ Err x) ∨ (¬c ∧ Err y) := by
  split <;> simp_all

theorem not_err {ε α : Type} {x : Except ε α} : ¬Err x ↔ ∃ a, x = .ok a := by
  cases x with
  | error e => exact ⟨fun h => absurd ⟨e, rfl⟩ h, nofun⟩
  | ok a => exact ⟨fun _ => ⟨a, rfl⟩, fun _ => err_ok a⟩

theorem err_setIdx {α : Type} {xs : List α} {i : Nat} {v : α} : Err (setIdx xs i v) ↔ xs[i]? = none := by
  unfold setIdx
  rw [err_ite]
  simp [err_ok, err_error]

theorem err_modIdx {α : Type} {xs : List α} {i : Nat} {f : α → α} : Err (modIdx xs i f) ↔ xs[i]? = none := by
  unfold modIdx
  rw [err_bind, err_idx]
  constructor
  · rintro (h | ⟨a, ha, h⟩)
    · exact h
    · exact err_setIdx.mp h
  · exact .inl

theorem err_modCurrent {db : Database} {f : DOcc → DOcc} : Err (db.modCurrentOcc f) ↔ db.occs[db.handle]? = none := by
  unfold Database.modCurrentOcc
  rw [err_bind, err_modIdx]
  simp [err_pureR]

theorem err_usub {p : Profile} {a b : Nat} : Err (usub p a b) ↔ a < b ∧ p = .debug := by
  unfold usub
  rw [err_ite]
  cases p <;> simp [err_ok, err_error]

theorem err_stripQuotes {v : Str} : Err (stripQuotes v) ↔ ∀ t, v ≠ t!"\"" ++ t ++ t!"\"" := by
  unfold stripQuotes
  split
  · rename_i r
    rw [err_ite]
    simp only [err_ok, err_error, and_false, and_true, false_or]
    constructor
    · intro h t e
      simp only [List.cons_append, List.nil_append, List.cons.injEq, true_and] at e
      exact h (by rw [e]; simp)
    · intro h e
      obtain ⟨a, rfl⟩ := List.getLast?_eq_some_iff.mp e
      exact h a rfl
  · rename_i h
    exact ⟨fun _ t e => h _ e, fun _ => err_error _⟩

/-- A parameter that is evaluated. -/
theorem err_value {ev : Calculator} {u : Vm} {s : ScriptStep} {i d : Nat} (hd : d = u.frames.length) {β : Type}
    (k : Str → Ev β) :
    Err (s.switch i >>= fun c => u.world.eval ev d c >>= k) ↔
      NoValue ev u s i ∨ ∃ v, HasValue ev u s i v ∧ Err (k v) := by
  subst hd
  unfold NoValue HasValue ScriptStep.switch
  rw [err_bind, err_liftR, err_idx]
  simp only [liftR_ok, idx_ok, err_bind]
  cases hc : s.switches[i]? with
  | none => simp
  | some c =>
    simp only [Option.some.injEq, exists_eq_left', reduceCtorEq, false_or]
    cases he : u.world.eval ev u.frames.length c with
    | error e => simp [Err]
    | ok a => simp [err_ok]

theorem seek_end {stop : Instruction → Bool} {code : List ScriptStep} {i : Nat} (hi : i ≤ code.length) :
    ¬seek stop code i < code.length ↔ ∀ x ∈ code.drop i, stop x.opcode = false := by
  unfold seek
  have key : ∀ l : List ScriptStep, (l.takeWhile (fun s => !stop s.opcode)).length = l.length ↔
      ∀ x ∈ l, stop x.opcode = false := by
    intro l
    induction l with
    | nil => simp
    | cons a l ih =>
      rw [List.takeWhile_cons]
      cases h : stop a.opcode with
      | true => simp [h]
      | false => simp [h, ih]
  rw [← key (code.drop i)]
  have hle : ((code.drop i).takeWhile (fun s => !stop s.opcode)).length ≤ (code.drop i).length :=
    List.Sublist.length_le (List.takeWhile_sublist _)
  simp only [List.length_drop] at hle ⊢
  omega

theorem isEndLoop_false {op : Instruction} : isEndLoop op = false ↔ op ≠ .endLoop := by cases op <;> simp [isEndLoop]
theorem isEndIf_false {op : Instruction} : isEndIf op = false ↔ op ≠ .endIf := by cases op <;> simp [isEndIf]

theorem err_afterLoop {code : List ScriptStep} {i : Nat} (hi : i ≤ code.length) :
    Err (afterLoop code i) ↔ ∀ x ∈ code.drop i, x.opcode ≠ .endLoop := by
  unfold afterLoop
  rw [err_ite, seek_end hi]
  simp only [err_ok, err_error, and_false, and_true, false_or, isEndLoop_false]

theorem fieldsShown_eq {db : Database} {t : DTable} : db.currentTable = .ok t → fieldsShown db = t.fields := by
  intro h
  unfold Database.currentTable Database.currentOcc at h
  simp only [bind_ok, idx_ok] at h
  obtain ⟨o, ho, ht⟩ := h
  unfold fieldsShown
  rw [ho]; dsimp only; rw [ht]

theorem err_currentTable {db : Database} (h : Err db.currentTable) : fieldsShown db = [] := by
  unfold Database.currentTable Database.currentOcc at h
  simp only [err_bind, err_idx, idx_ok] at h
  unfold fieldsShown
  rcases h with h | ⟨o, ho, h⟩
  · rw [h]
  · rw [ho]; dsimp only; rw [h]

theorem err_reset {db : Database} : Err db.resetFoundSet ↔ fieldsShown db = [] := by
  unfold Database.resetFoundSet
  rw [err_bind]
  constructor
  · rintro (h | ⟨t, ht, h⟩)
    · exact err_currentTable h
    · rw [fieldsShown_eq ht]
      rw [err_bind, err_idx] at h
      rcases h with h | ⟨f, hf, h⟩
      · cases hh : t.fields with
        | nil => rfl
        | cons a l => rw [hh] at h; cases h
      · rw [err_modCurrent] at h
        unfold Database.currentTable Database.currentOcc at ht
        simp only [bind_ok, idx_ok, h] at ht
        obtain ⟨o, ho, -⟩ := ht
        cases ho
  · intro h
    by_cases hc : Err db.currentTable
    · exact .inl hc
    · obtain ⟨t, ht⟩ := not_err.mp hc
      rw [fieldsShown_eq ht] at h
      exact .inr ⟨t, ht, err_bind.mpr (.inl (err_idx.mpr (by rw [h]; rfl)))⟩

theorem err_create {p : Profile} {db : Database} : Err (db.createRecord p) ↔ fieldsShown db = [] := by
  unfold Database.createRecord Database.currentOcc fieldsShown
  rw [err_bind, err_idx]
  cases ho : db.occs[db.handle]? with
  | none => simp
  | some o =>
    simp only [idx_ok, ho, Option.some.injEq, exists_eq_left', reduceCtorEq, false_or]
    rw [err_bind, err_idx]
    cases ht : db.tables[o.tablePtr]? with
    | none => simp
    | some t =>
      simp only [idx_ok, ht, Option.some.injEq, exists_eq_left', reduceCtorEq, false_or]
      rw [err_bind, err_setIdx, ht]
      have hlt := (List.getElem?_eq_some_iff.mp ht).1
      simp only [setIdx_ok, reduceCtorEq, false_or, DTable.recordsN, DTable.addBlankRecord]
      cases hf : t.fields with
      | nil => simp [err_bind, err_error, hlt, idx]
      | cons f fs =>
        simp only [err_bind, err_idx, idx_ok, List.map_cons, List.getElem?_cons_zero, reduceCtorEq, false_or, err_ok,
          Option.some.injEq, exists_eq_left', err_usub, and_false, exists_false, or_false, List.length_append,
          List.length_cons, List.length_nil, pure_ok, Except.ok.injEq, iff_false]
        rintro ⟨a, -, k, hk, h, -⟩
        rw [idx_zero, ok_bind] at hk
        injection hk with hk
        simp at hk
        omega

theorem err_fold {α β : Type} (f : β → α → Res β) (bad : α → Prop) (h : ∀ acc c, Err (f acc c) ↔ bad c) :
    ∀ (cs : List α) (acc : β), Err (cs.foldlM f acc) ↔ ∃ c ∈ cs, bad c := by
  intro cs
  induction cs with
  | nil => intro acc; simp [err_pureR]
  | cons c cs ih =>
    intro acc
    rw [List.foldlM_cons, err_bind, h]
    simp only [ih, List.exists_mem_cons_iff]
    constructor
    · rintro (hb | ⟨a, -, hb⟩)
      · exact .inl hb
      · exact .inr hb
    · rintro (hb | hb)
      · exact .inl hb
      · by_cases hc : bad c
        · exact .inl hc
        · obtain ⟨a, ha⟩ := not_err.mp (mt (h acc c).mp hc)
          exact .inr ⟨a, ha, hb⟩

theorem filter_none {fields : List DField} {field : Str} :
    (fields.filter (fun f => f.name == field))[0]? = none ↔ ∀ f ∈ fields, f.name ≠ field := by
  simp

theorem err_find {db : Database} {criteria : List (Str × Str)} :
    Err (db.performFind criteria) ↔ fieldsShown db = [] ∨ ∃ c ∈ criteria,
      ∀ field, (splitCC c.1)[1]? = some field → ∀ f ∈ fieldsShown db, f.name ≠ field := by
  have hupd : ∀ rs, Err (db.updateFoundSet rs) ↔ fieldsShown db = [] := by
    intro rs
    unfold Database.updateFoundSet
    split
    · exact err_reset
    · rw [err_bind, err_reset]
      constructor
      · rintro (h | ⟨d, hd, h⟩)
        · exact h
        · exfalso
          unfold Database.resetFoundSet at hd
          simp only [bind_ok] at hd
          obtain ⟨t, -, f, -, hd⟩ := hd
          unfold Database.modCurrentOcc at hd
          simp only [bind_ok, pure_ok, Except.ok.injEq] at hd
          obtain ⟨os, hos, rfl⟩ := hd
          rw [err_modCurrent] at h
          obtain ⟨a, ha, rfl⟩ := modIdx_set hos
          have := (List.getElem?_eq_some_iff.mp ha).1
          simp at h
          omega
      · exact .inl
  by_cases h0 : fieldsShown db = []
  · refine ⟨fun _ => .inl h0, fun _ => ?_⟩
    unfold Database.performFind
    rw [err_bind]
    by_cases he : Err (db.findRecords criteria)
    · exact .inl he
    · obtain ⟨a, ha⟩ := not_err.mp he
      exact .inr ⟨a, ha, (hupd a).mpr h0⟩
  · have hct : ¬Err db.currentTable := fun h => h0 (err_currentTable h)
    obtain ⟨t, ht⟩ := not_err.mp hct
    have hfs := fieldsShown_eq ht
    unfold Database.performFind
    rw [err_bind]
    simp only [hupd, h0, and_false, exists_false, or_false, false_or]
    unfold Database.findRecords
    refine err_fold _ _ ?_ criteria []
    intro acc c
    rw [err_bind, err_idx]
    cases hc : (splitCC c.1)[1]? with
    | none => simp
    | some field =>
      simp only [idx_ok, hc, Option.some.injEq, exists_eq_left', reduceCtorEq, false_or, forall_eq']
      rw [err_bind]
      simp only [err_pureR, and_false, exists_false, or_false]
      unfold Database.fieldVals firstField
      rw [ht, ok_bind, err_bind, err_idx, filter_none, hfs]
      simp [err_pureR]

theorem err_write {db : Database} (hv : Valid db) {name occ field val : Str} (h0 : (splitCC name)[0]? = some occ)
    (h1 : (splitCC name)[1]? = some field) :
    Err (do let d ← liftR (db.writeCell occ field val); liftR (unwrap d)) ↔ ¬Writable db name := by
  constructor
  · rintro h ⟨occ', field', i, o, t, a0, a1, hi, ho, hne, ht, hf⟩
    rw [h0] at a0; rw [h1] at a1; cases a0; cases a1
    obtain ⟨d, hd⟩ := Props.write_succeeds db hv occ field val i o t hi ho hne ht hf
    rw [hd] at h
    exact absurd h (err_ok d)
  · intro h
    by_contra hn
    rw [err_bind, err_liftR] at hn
    simp only [not_or, not_exists, not_and] at hn
    obtain ⟨d, hd⟩ := not_err.mp hn.1
    have h2 := hn.2 d (liftR_ok.mpr hd)
    rw [err_liftR, err_unwrap] at h2
    cases d with
    | none => exact h2 rfl
    | some d =>
      obtain ⟨i, o, id, t, j, f, hi, ho, hc, ht, hj, hf, hlt, rfl⟩ := writeCell_ok hd
      refine h ⟨occ, field, i, o, t, h0, h1, hi, ho, ?_, ht, ?_⟩
      · intro e
        unfold DOcc.currentRecord at hc
        rw [e] at hc; cases hc
      · obtain ⟨f', hf', hn'⟩ := Props.firstFieldIdx_ok hj
        exact ⟨f', List.mem_of_getElem? hf', hn'⟩

/-- Updating the current occurrence. -/
theorem modCurrent_at {db : Database} {o : DOcc} (ho : db.occs[db.handle]? = some o) (f : DOcc → DOcc) :
    ∃ db', db.modCurrentOcc f = .ok db' ∧ db'.currentOcc = .ok (f o) := by
  have hlt := (List.getElem?_eq_some_iff.mp ho).1
  refine ⟨{ db with occs := db.occs.set db.handle (f o) }, ?_, ?_⟩
  · unfold Database.modCurrentOcc modIdx
    rw [idx_of ho, ok_bind, setIdx_ok.mpr ⟨hlt, rfl⟩]
    rfl
  · unfold Database.currentOcc
    apply idx_of
    simp [hlt]

theorem modCurrent_ptr {db db' : Database} {o o' : DOcc} (ho : db.occs[db.handle]? = some o) {f : DOcc → DOcc}
    (h : db.modCurrentOcc f = .ok db') (h' : db'.currentOcc = .ok o') : o' = f o := by
  obtain ⟨d, h1, h2⟩ := modCurrent_at ho f
  rw [h] at h1; cases h1
  rw [h'] at h2; cases h2; rfl

/-- Where `go_to_record` goes, and when it panics. -/
theorem move_spec {p : Profile} {db : Database} {o : DOcc} (ho : db.occs[db.handle]? = some o) (v : Str) :
    (Err (moveRecord p db v) ↔ o.foundSet = [] ∧ p = .debug ∧ countsFromEnd v) ∧
    ∀ db', moveRecord p db v = .ok db' → ∃ o', db'.currentOcc = .ok o' ∧ o'.recordPtr = positionAfter o v := by
  have hcur : db.currentOcc = .ok o := idx_of ho
  have hlen : o.foundSet.length < 1 ↔ o.foundSet = [] := by cases o.foundSet <;> simp
  have husub : ∀ l, usub p o.foundSet.length 1 = .ok l →
      l = if o.foundSet = [] then 2 ^ 64 - 1 else o.foundSet.length - 1 := by
    intro l hl
    unfold usub at hl
    cases hf : o.foundSet with
    | nil =>
      rw [hf] at hl
      cases p <;> simp at hl ⊢
      omega
    | cons a r =>
      rw [hf] at hl
      simp at hl ⊢
      omega
  unfold moveRecord positionAfter countsFromEnd
  cases hn : parseUnsigned (2 ^ 64) v with
  | some n =>
    dsimp only
    unfold Database.gotoRecord
    rw [hcur, ok_bind]
    by_cases hge : n ≥ o.foundSet.length
    · rw [if_pos hge, if_neg (by omega)]
      constructor
      · rw [err_bind, err_usub, hlen]
        simp [err_modCurrent, ho, hn]
      · intro db' h
        simp only [bind_ok] at h
        obtain ⟨l, hl, h⟩ := h
        obtain ⟨d, h1, h2⟩ := modCurrent_at ho (fun o => { o with recordPtr := l })
        rw [h] at h1; cases h1
        exact ⟨_, h2, husub l hl⟩
    · rw [if_neg hge, if_pos (by omega)]
      constructor
      · rw [err_modCurrent, ho]
        have : o.foundSet ≠ [] := by intro e; rw [e] at hge; simp at hge
        simp [this]
      · intro db' h
        obtain ⟨d, h1, h2⟩ := modCurrent_at ho (fun o => { o with recordPtr := n })
        rw [h] at h1; cases h1
        exact ⟨_, h2, rfl⟩
  | none =>
    dsimp only
    simp only [reduceCtorEq, exists_false, false_or]
    by_cases h1 : v = t!"\"previous\""
    · subst h1
      rw [if_pos rfl, if_pos rfl]
      unfold Database.gotoPrevious
      constructor
      · rw [err_modCurrent, ho]; simp
      · intro db' h
        obtain ⟨d, h1, h2⟩ := modCurrent_at ho (fun o => if o.recordPtr > 0 then { o with recordPtr := o.recordPtr - 1 } else o)
        rw [h] at h1; cases h1
        refine ⟨_, h2, ?_⟩
        split
        · rfl
        · omega
    · rw [if_neg h1, if_neg h1]
      by_cases h2 : v = t!"\"next\""
      · subst h2
        rw [if_pos rfl, if_pos rfl]
        unfold Database.gotoNext
        rw [hcur, ok_bind]
        constructor
        · rw [err_bind, err_usub, hlen]
          simp [err_modCurrent, ho]
        · intro db' h
          simp only [bind_ok] at h
          obtain ⟨l, hl, h⟩ := h
          obtain ⟨d, h1, h2⟩ := modCurrent_at ho (fun o => if o.recordPtr < l then { o with recordPtr := o.recordPtr + 1 } else o)
          rw [h] at h1; cases h1
          refine ⟨_, h2, ?_⟩
          rw [← husub l hl]
          split <;> rfl
      · rw [if_neg h2, if_neg h2]
        by_cases h3 : v = t!"\"first\""
        · subst h3
          rw [if_pos rfl, if_pos rfl]
          unfold Database.gotoFirst
          constructor
          · rw [err_modCurrent, ho]; simp
          · intro db' h
            obtain ⟨d, h1, h2⟩ := modCurrent_at ho (fun o => { o with recordPtr := 0 })
            rw [h] at h1; cases h1
            exact ⟨_, h2, rfl⟩
        · rw [if_neg h3, if_neg h3]
          by_cases h4 : v = t!"\"last\""
          · subst h4
            rw [if_pos rfl, if_pos rfl]
            unfold Database.gotoLast
            rw [hcur, ok_bind]
            constructor
            · rw [err_bind, err_usub, hlen]
              simp [err_modCurrent, ho]
            · intro db' h
              simp only [bind_ok] at h
              obtain ⟨l, hl, h⟩ := h
              obtain ⟨d, h1, h2⟩ := modCurrent_at ho (fun o => { o with recordPtr := l })
              rw [h] at h1; cases h1
              exact ⟨_, h2, husub l hl⟩
          · rw [if_neg h4, if_neg h4]
            constructor
            · simp [err_ok, h2, h4]
            · intro db' h
              injection h with h
              subst h
              exact ⟨o, hcur, rfl⟩

end BurnFm
