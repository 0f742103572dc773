import Verif.Spec.StepDoes
import Verif.Proofs.CrashStep

/-! What one step of the interpreter does, by opcode. -/

namespace BurnFm
open Spec

theorem value_ok {ev : Calculator} {u : Vm} {s : ScriptStep} {i d : Nat} (hd : d = u.frames.length) {β : Type}
    (k : Str → Ev β) (b : β) :
    (s.switch i >>= fun c => u.world.eval ev d c >>= k) = .ok b ↔ ∃ v, HasValue ev u s i v ∧ k v = .ok b := by
  subst hd
  unfold HasValue ScriptStep.switch
  simp only [ev_bind_ok, liftR_ok, idx_ok]
  constructor
  · rintro ⟨c, hc, v, hv, hk⟩; exact ⟨v, ⟨c, hc, hv⟩, hk⟩
  · rintro ⟨v, ⟨c, hc, hv⟩, hk⟩; exact ⟨c, hc, v, hv, hk⟩

theorem stripQuotes_ok {v t : Str} : stripQuotes v = .ok t ↔ v = t!"\"" ++ t ++ t!"\"" := by
  constructor
  · intro h
    unfold stripQuotes at h
    split at h
    · rename_i r
      split at h
      · rename_i hl
        cases h
        obtain ⟨l, rfl⟩ := List.getLast?_eq_some_iff.mp hl
        simp
      · cases h
    · cases h
  · rintro rfl
    unfold stripQuotes
    simp

theorem takeWhile_first {stop : Instruction → Bool} (l : List ScriptStep) (n : Nat) :
    ((∃ x, l[n]? = some x ∧ stop x.opcode = true) ∧ ∀ k x, k < n → l[k]? = some x → stop x.opcode = false) ↔
      (l.takeWhile (fun s => !stop s.opcode)).length = n ∧ n < l.length := by
  induction l generalizing n with
  | nil => simp
  | cons a l ih =>
    rw [List.takeWhile_cons]
    cases h : stop a.opcode with
    | true =>
      simp only [Bool.not_true, Bool.false_eq_true, if_false, List.length_nil]
      constructor
      · rintro ⟨-, h2⟩
        cases n with
        | zero => simp
        | succ n =>
          have := h2 0 a (by omega) rfl
          rw [h] at this; cases this
      · rintro ⟨rfl, -⟩
        exact ⟨⟨a, rfl, h⟩, fun k x hk => by omega⟩
    | false =>
      simp only [Bool.not_false, if_true, List.length_cons]
      cases n with
      | zero =>
        constructor
        · rintro ⟨⟨x, hx, hs⟩, -⟩
          simp at hx; subst hx
          rw [h] at hs; cases hs
        · rintro ⟨h0, -⟩; omega
      | succ n =>
        have := ih n
        simp only [List.getElem?_cons_succ, Nat.add_right_cancel_iff, Nat.add_lt_add_iff_right]
        rw [← this]
        refine and_congr_right fun _ => ?_
        constructor
        · intro h2 k x hk hx
          exact h2 (k + 1) x (by omega) hx
        · intro h2 k x hk hx
          cases k with
          | zero => simp at hx; subst hx; exact h
          | succ k => exact h2 k x (by omega) hx

theorem firstAt_iff {ops : List Instruction} {stop : Instruction → Bool} (hs : ∀ op, stop op = true ↔ op ∈ ops)
    {code : List ScriptStep} {i j : Nat} : FirstAt ops code i j ↔ seek stop code i = j ∧ j < code.length := by
  have hs' : ∀ op, stop op = false ↔ op ∉ ops := by intro op; rw [← hs]; simp
  unfold FirstAt seek
  simp only [← hs, Bool.not_eq_true]
  constructor
  · rintro ⟨hle, ⟨x, hx, hop⟩, hno⟩
    have := (takeWhile_first (stop := stop) (code.drop i) (j - i)).mp
      ⟨⟨x, by rw [List.getElem?_drop]; rw [show i + (j - i) = j by omega]; exact hx, hop⟩,
        fun k y hk hy => hno (i + k) y (by omega) (by omega) (by rwa [List.getElem?_drop] at hy)⟩
    have hlt := (List.getElem?_eq_some_iff.mp hx).1
    exact ⟨by omega, hlt⟩
  · rintro ⟨rfl, hlt⟩
    obtain ⟨⟨x, hx, hop⟩, hno⟩ := (takeWhile_first (stop := stop) (code.drop i) _).mpr
      ⟨rfl, by rw [List.length_drop]; omega⟩
    refine ⟨by omega, ⟨x, by rwa [List.getElem?_drop] at hx, hop⟩, ?_⟩
    intro k y hk hkj hy
    exact hno (k - i) y (by omega) (by rw [List.getElem?_drop, show i + (k - i) = k by omega]; exact hy)

theorem noneAt_iff {ops : List Instruction} {stop : Instruction → Bool} (hs : ∀ op, stop op = true ↔ op ∈ ops)
    {code : List ScriptStep} {i : Nat} (hi : i ≤ code.length) : NoneAt ops code i ↔ seek stop code i = code.length := by
  have hle : seek stop code i ≤ code.length := by
    unfold seek
    have : ((code.drop i).takeWhile (fun s => !stop s.opcode)).length ≤ (code.drop i).length :=
      List.Sublist.length_le (List.takeWhile_sublist _)
    rw [List.length_drop] at this
    omega
  rw [show seek stop code i = code.length ↔ ¬seek stop code i < code.length by omega, seek_end hi]
  unfold NoneAt
  constructor
  · intro h x hx
    obtain ⟨k, hk⟩ := List.getElem?_of_mem hx
    rw [List.getElem?_drop] at hk
    have := h (i + k) x (by omega) hk
    rw [← hs] at this
    simpa using this
  · intro h k x hk hx
    rw [← hs]
    have := h x (List.mem_of_getElem? (i := k - i) (by rw [List.getElem?_drop, show i + (k - i) = k by omega]; exact hx))
    simp [this]

theorem isBranch_iff (op : Instruction) : isBranch op = true ↔ op ∈ [Instruction.endIf, .else, .elseIf] := by
  cases op <;> simp [isBranch]
theorem isEndIf_iff (op : Instruction) : isEndIf op = true ↔ op ∈ [Instruction.endIf] := by cases op <;> simp [isEndIf]
theorem isEndLoop_iff (op : Instruction) : isEndLoop op = true ↔ op ∈ [Instruction.endLoop] := by
  cases op <;> simp [isEndLoop]

/-- Either there is a first such step, or none. -/
theorem seek_le {stop : Instruction → Bool} {code : List ScriptStep} {i : Nat} (hi : i ≤ code.length) :
    seek stop code i ≤ code.length := by
  unfold seek
  have : ((code.drop i).takeWhile (fun s => !stop s.opcode)).length ≤ (code.drop i).length :=
    List.Sublist.length_le (List.takeWhile_sublist _)
  rw [List.length_drop] at this
  omega

theorem move_exact {p : Profile} {db db' : Database} {o : DOcc} (ho : db.occs[db.handle]? = some o) {v : Str}
    (h : moveRecord p db v = .ok db') : db' = showing db { o with recordPtr := positionAfter o v } := by
  have hcur : db.currentOcc = .ok o := idx_of ho
  have husub : ∀ l, usub p o.foundSet.length 1 = .ok l →
      l = if o.foundSet = [] then 2 ^ 64 - 1 else o.foundSet.length - 1 := by
    intro l hl
    unfold usub at hl
    cases hf : o.foundSet with
    | nil =>
      rw [hf] at hl
      cases p <;> simp at hl ⊢
      omega
    | cons a r =>
      rw [hf] at hl
      simp at hl ⊢
      omega
  have key : ∀ (f : DOcc → DOcc) n, db.modCurrentOcc f = .ok db' → f o = { o with recordPtr := n } →
      db' = showing db { o with recordPtr := n } := by
    intro f n hm hf
    obtain ⟨o', ho', rfl⟩ := modCurrentOcc_ok.mp hm
    rw [ho] at ho'; cases ho'
    rw [hf]; rfl
  unfold moveRecord at h
  unfold positionAfter
  cases hn : parseUnsigned (2 ^ 64) v with
  | some n =>
    rw [hn] at h
    dsimp only at h ⊢
    unfold Database.gotoRecord at h
    rw [hcur, ok_bind] at h
    by_cases hge : n ≥ o.foundSet.length
    · rw [if_pos hge] at h
      rw [if_neg (by omega)]
      obtain ⟨l, hl, h⟩ := bind_ok.mp h
      refine key _ _ h ?_
      rw [husub l hl]
    · rw [if_neg hge] at h
      rw [if_pos (by omega)]
      exact key _ _ h rfl
  | none =>
    rw [hn] at h
    dsimp only at h ⊢
    by_cases h1 : v = t!"\"previous\""
    · rw [if_pos h1] at h ⊢
      refine key _ _ h ?_
      split
      · rfl
      · rw [show o.recordPtr - 1 = o.recordPtr by omega]
    rw [if_neg h1] at h ⊢
    by_cases h2 : v = t!"\"next\""
    · rw [if_pos h2] at h ⊢
      unfold Database.gotoNext at h
      rw [hcur, ok_bind] at h
      obtain ⟨l, hl, h⟩ := bind_ok.mp h
      refine key _ _ h ?_
      rw [← husub l hl]
      split <;> rfl
    rw [if_neg h2] at h ⊢
    by_cases h3 : v = t!"\"first\""
    · rw [if_pos h3] at h ⊢
      exact key _ _ h rfl
    rw [if_neg h3] at h ⊢
    by_cases h4 : v = t!"\"last\""
    · rw [if_pos h4] at h ⊢
      unfold Database.gotoLast at h
      rw [hcur, ok_bind] at h
      obtain ⟨l, hl, h⟩ := bind_ok.mp h
      refine key _ _ h ?_
      rw [husub l hl]
    rw [if_neg h4] at h ⊢
    cases h
    unfold showing
    obtain ⟨hl, he⟩ := List.getElem?_eq_some_iff.mp ho
    have hset : db.occs.set db.handle o = db.occs := by rw [← he]; exact List.set_getElem_self _
    show db = { db with occs := db.occs.set db.handle o }
    rw [hset]

theorem move_iff {p : Profile} {db db' : Database} {o : DOcc} (ho : db.occs[db.handle]? = some o) {v : Str} :
    moveRecord p db v = .ok db' ↔ ¬(p = .debug ∧ o.foundSet = [] ∧ countsFromEnd v) ∧
      db' = showing db { o with recordPtr := positionAfter o v } := by
  have herr := (move_spec (p := p) ho v).1
  constructor
  · intro h
    refine ⟨?_, move_exact ho h⟩
    rintro ⟨h1, h2, h3⟩
    obtain ⟨e, he⟩ := herr.mpr ⟨h2, h1, h3⟩
    rw [h] at he; cases he
  · rintro ⟨h1, rfl⟩
    obtain ⟨d, hd⟩ := not_err.mp (fun h => h1 (by obtain ⟨a, b, c⟩ := herr.mp h; exact ⟨b, a, c⟩))
    rw [hd, move_exact ho hd]

theorem showing_current {db : Database} {o o' : DOcc} (ho : db.occs[db.handle]? = some o) :
    (showing db o').currentOcc = .ok o' := by
  have := (List.getElem?_eq_some_iff.mp ho).1
  unfold Database.currentOcc showing
  apply idx_of
  simp [this]

theorem fieldIdx_iff {fields : List DField} {name : Str} {j : Nat} {f : DField} :
    firstFieldIdx fields name = .ok j ∧ fields[j]? = some f ↔ FieldAt fields name j f := by
  have hex : ∀ (l : List DField) (n j : Nat), ((l.zipIdx n).filter (fun e => e.1.name == name))[0]?.map (·.2) = some (n + j) ↔
      ∃ f, FieldAt l name j f := by
    intro l
    induction l with
    | nil =>
      intro n j
      simp [FieldAt]
    | cons a l ih =>
      intro n j
      rw [List.zipIdx_cons, List.filter_cons]
      by_cases ha : a.name = name
      · simp only [ha, beq_self_eq_true, if_true, List.getElem?_cons_zero, Option.map_some, Option.some.injEq]
        constructor
        · intro h
          obtain rfl : j = 0 := by omega
          exact ⟨a, rfl, ha, fun k g hk => by omega⟩
        · rintro ⟨f, -, -, h⟩
          cases j with
          | zero => rfl
          | succ j => exact absurd ha (h 0 a (by omega) rfl)
      · have hb : (a.name == name) = false := by simp [ha]
        simp only [hb, Bool.false_eq_true, if_false]
        cases j with
        | zero =>
          constructor
          · intro h
            exfalso
            cases hl : ((l.zipIdx (n + 1)).filter (fun e => e.1.name == name))[0]? with
            | none => rw [hl] at h; cases h
            | some e =>
              rw [hl] at h
              have hm := List.mem_of_getElem? hl
              rw [List.mem_filter] at hm
              have := List.le_snd_of_mem_zipIdx hm.1
              simp at h
              omega
          · rintro ⟨f, h1, h2, -⟩
            simp at h1; subst h1
            exact absurd h2 ha
        | succ j =>
          rw [show n + (j + 1) = n + 1 + j by omega, ih (n + 1) j]
          refine exists_congr fun f => ?_
          unfold FieldAt
          simp only [List.getElem?_cons_succ]
          refine and_congr_right fun _ => and_congr_right fun _ => ?_
          constructor
          · intro h k g hk hg
            cases k with
            | zero => simp at hg; subst hg; exact ha
            | succ k => exact h k g (by omega) hg
          · intro h k g hk hg
            exact h (k + 1) g (by omega) hg
  have h1 : firstFieldIdx fields name = .ok j ↔ ∃ f, FieldAt fields name j f := by
    rw [← hex fields 0 j]
    unfold firstFieldIdx
    rw [bind_ok]
    simp only [idx_ok, Nat.zero_add]
    constructor
    · rintro ⟨e, he, h⟩
      cases h
      rw [he]; rfl
    · intro h
      cases hl : (fields.zipIdx.filter (fun e => e.1.name == name))[0]? with
      | none => rw [hl] at h; cases h
      | some e =>
        rw [hl] at h
        simp at h
        exact ⟨e, rfl, by rw [h]; rfl⟩
  rw [h1]
  constructor
  · rintro ⟨⟨g, hg⟩, hf⟩
    have := hg.1
    rw [hf] at this; cases this
    exact hg
  · intro h
    exact ⟨⟨f, h⟩, h.1⟩

theorem write_iff {db db' : Database} {name val : Str} :
    (∃ occ field, (splitCC name)[0]? = some occ ∧ (splitCC name)[1]? = some field ∧
      db.writeCell occ field val = .ok (some db')) ↔ CellSet db name val db' := by
  unfold CellSet
  constructor
  · rintro ⟨occ, field, h0, h1, h⟩
    obtain ⟨i, o, id, t, j, f, hi, ho, hc, ht, hj, hf, hlt, rfl⟩ := writeCell_ok h
    exact ⟨occ, field, i, o, id, t, j, f, h0, h1, hi, ho, hc, ht, fieldIdx_iff.mp ⟨hj, hf⟩, hlt, rfl⟩
  · rintro ⟨occ, field, i, o, id, t, j, f, h0, h1, hi, ho, hc, ht, hjf, hlt, rfl⟩
    refine ⟨occ, field, h0, h1, ?_⟩
    obtain ⟨hj, hf⟩ := fieldIdx_iff.mpr hjf
    unfold Database.writeCell Database.occurrenceByName
    rw [hi]
    have hc' : o.currentRecord = some id := hc
    simp only [unwrap, ok_bind, idx_of ho, hc', idx_of ht, hj, idx_of hf]
    rw [setIdx_ok.mpr ⟨hlt, rfl⟩, ok_bind, setIdx_ok.mpr ⟨(List.getElem?_eq_some_iff.mp hf).1, rfl⟩, ok_bind,
      setIdx_ok.mpr ⟨(List.getElem?_eq_some_iff.mp ht).1, rfl⟩]
    rfl

theorem shown_fields {db : Database} {o : DOcc} {t : DTable} (ho : OnScreen db o) (ht : db.tables[o.tablePtr]? = some t) :
    fieldsShown db = t.fields := fieldsShown_eq (currentTable_ok.mpr ⟨o, ho, ht⟩)

theorem reset_iff {db db' : Database} : db.resetFoundSet = .ok db' ↔
    ∃ o t f, OnScreen db o ∧ db.tables[o.tablePtr]? = some t ∧ t.fields[0]? = some f ∧
      db' = showing db { o with foundSet := List.range f.records.length } := by
  constructor
  · intro h
    exact reset_ok h
  · rintro ⟨o, t, f, ho, ht, hf, rfl⟩
    unfold Database.resetFoundSet
    rw [currentTable_ok.mpr ⟨o, ho, ht⟩, ok_bind, idx_of hf, ok_bind]
    exact modCurrentOcc_ok.mpr ⟨o, ho, rfl⟩

theorem create_iff {p : Profile} {db db' : Database} : db.createRecord p = .ok db' ↔ RecordAdded db db' := by
  have hto : db.createRecord p = .ok db' → RecordAdded db db' := by
    intro h
    obtain ⟨o, t, f, fs, ho, ht, hfs, rfl⟩ := create_ok h
    exact ⟨o, t, f, ho, ht, by rw [hfs]; rfl, rfl⟩
  refine ⟨hto, ?_⟩
  rintro ⟨o, t, f, ho, ht, hf, rfl⟩
  have hne : ¬Err (db.createRecord p) := by
    rw [err_create, shown_fields ho ht]
    intro e; rw [e] at hf; cases hf
  obtain ⟨d, hd⟩ := not_err.mp hne
  rw [hd]
  obtain ⟨o', t', f', fs, ho', ht', hfs, rfl⟩ := create_ok hd
  unfold OnScreen at ho
  rw [ho] at ho'; cases ho'
  rw [ht] at ht'; cases ht'
  rw [hfs] at hf; cases hf
  rfl

theorem sorted_unique {a b : List Nat} (ha : a.Pairwise (· < ·)) (hb : b.Pairwise (· < ·)) (h : ∀ n, n ∈ a ↔ n ∈ b) : a = b := by
  induction a generalizing b with
  | nil =>
    cases b with
    | nil => rfl
    | cons y b => exact absurd ((h y).mpr (by simp)) (by simp)
  | cons x a ih =>
    cases b with
    | nil => exact absurd ((h x).mp (by simp)) (by simp)
    | cons y b =>
      rw [List.pairwise_cons] at ha hb
      have hxy : x = y := by
        have h1 := (h x).mp (by simp)
        have h2 := (h y).mpr (by simp)
        rw [List.mem_cons] at h1 h2
        rcases h1 with h1 | h1
        · exact h1
        · rcases h2 with h2 | h2
          · exact h2.symm
          · have := hb.1 x h1
            have := ha.1 y h2
            omega
      subst hxy
      rw [ih ha.2 hb.2 ?_]
      intro n
      have := h n
      simp only [List.mem_cons] at this
      constructor
      · intro hn
        have hlt := ha.1 n hn
        rcases this.mp (.inr hn) with h | h
        · omega
        · exact h
      · intro hn
        have hlt := hb.1 n hn
        rcases this.mpr (.inr hn) with h | h
        · omega
        · exact h

theorem find_iff {db db' : Database} {criteria : List (Str × Str)} : db.performFind criteria = .ok db' ↔
    ∃ o t f ids, OnScreen db o ∧ db.tables[o.tablePtr]? = some t ∧ t.fields[0]? = some f ∧ GoodCriteria t criteria ∧
      Matching t criteria ids ∧
      db' = showing db (if ids = [] then { o with foundSet := List.range f.records.length }
        else { o with foundSet := ids, recordPtr := 0 }) := by
  have hto : ∀ db', db.performFind criteria = .ok db' → ∃ o t f ids, OnScreen db o ∧ db.tables[o.tablePtr]? = some t ∧
      t.fields[0]? = some f ∧ GoodCriteria t criteria ∧ Matching t criteria ids ∧
      db' = showing db (if ids = [] then { o with foundSet := List.range f.records.length }
        else { o with foundSet := ids, recordPtr := 0 }) := by
    intro db' h
    have hok : ¬Err (db.performFind criteria) := by rw [h]; exact err_ok _
    rw [err_find] at hok
    simp only [not_or, not_exists, not_and, not_forall, not_not] at hok
    obtain ⟨hne, hcr⟩ := hok
    unfold Database.performFind at h
    obtain ⟨rs, hrs, h⟩ := bind_ok.mp h
    obtain ⟨hs, hm⟩ := findRecords_spec hrs
    have htab : ∃ o t, OnScreen db o ∧ db.tables[o.tablePtr]? = some t := by
      unfold fieldsShown at hne
      split at hne
      · exact absurd rfl hne
      · rename_i o ho
        split at hne
        · exact absurd rfl hne
        · rename_i t ht
          exact ⟨o, t, ho, ht⟩
    obtain ⟨o, t, ho, ht⟩ := htab
    rw [shown_fields ho ht] at hne hcr
    have hf : ∃ f, t.fields[0]? = some f := by cases hx : t.fields with
      | nil => exact absurd hx hne
      | cons f fs => exact ⟨f, rfl⟩
    obtain ⟨f, hf⟩ := hf
    refine ⟨o, t, f, rs, ho, ht, hf, ?_, ⟨hs, ?_⟩, ?_⟩
    · intro c hc
      obtain ⟨field, h1, f, h2, h3⟩ := hcr c hc
      exact ⟨field, h1, f, h2, h3⟩
    · intro n
      rw [hm]
      refine exists_congr fun c => and_congr_right fun _ => ?_
      unfold CritMatch hasValue
      constructor
      · rintro ⟨field, values, h1, h2, h3⟩
        obtain ⟨o', t', g, ho', ht', _, hg, rfl⟩ := fieldVals_ok h2
        unfold OnScreen at ho
        rw [ho] at ho'; cases ho'
        rw [ht] at ht'; cases ht'
        exact ⟨field, idx_ok.mp h1, g, hg, h3⟩
      · rintro ⟨field, h1, g, hg, hr⟩
        refine ⟨field, g.records, idx_of h1, ?_, hr⟩
        unfold Database.fieldVals
        rw [currentTable_ok.mpr ⟨o, ho, ht⟩, ok_bind, firstField_ok.mpr hg]
        rfl
    · unfold Database.updateFoundSet at h
      by_cases he : rs = []
      · rw [if_pos (by simp [he])] at h
        obtain ⟨o', t', g, ho', ht', hg, rfl⟩ := reset_ok h
        unfold OnScreen at ho
        rw [ho] at ho'; cases ho'
        rw [ht] at ht'; cases ht'
        rw [hf] at hg; cases hg
        rw [if_pos he]; rfl
      · rw [if_neg (by simp [he])] at h
        obtain ⟨d, hd, h⟩ := bind_ok.mp h
        obtain ⟨o', t', g, ho', ht', hg, rfl⟩ := reset_ok hd
        unfold OnScreen at ho
        rw [ho] at ho'; cases ho'
        obtain ⟨o2, ho2, rfl⟩ := modCurrentOcc_ok.mp h
        have hlt := (List.getElem?_eq_some_iff.mp ho).1
        rw [if_neg he]
        simp only [List.getElem?_set_self hlt, Option.some.injEq] at ho2
        subst ho2
        unfold showing
        simp
  refine ⟨hto db', ?_⟩
  rintro ⟨o, t, f, ids, ho, ht, hf, hg, hm, rfl⟩
  have hne : ¬Err (db.performFind criteria) := by
    rw [err_find, shown_fields ho ht]
    rintro (h | ⟨c, hc, h⟩)
    · rw [h] at hf; cases hf
    · obtain ⟨field, h1, g, h2, h3⟩ := hg c hc
      exact h field h1 g h2 h3
  obtain ⟨d, hd⟩ := not_err.mp hne
  rw [hd]
  obtain ⟨o', t', f', ids', ho', ht', hf', -, hm', rfl⟩ := hto d hd
  unfold OnScreen at ho ho'
  rw [ho] at ho'; cases ho'
  rw [ht] at ht'; cases ht'
  rw [hf] at hf'; cases hf'
  have : ids = ids' := sorted_unique hm.1 hm'.1 (fun n => by rw [hm.2, hm'.2])
  rw [this]

section
variable {ev : Calculator} {p : Profile} {scripts : HMap FScript} {u v : Vm} {name : Str} {ip : Nat} {below : List (Str × Nat)}
  {s : ScriptStep}

theorem effect_iff (hfr : u.frames = (name, ip) :: below) (hop : s.opcode ≠ .goToRecordRequestPage) (w : World) :
    effect ev p (below.length + 1) s u.world = .ok w ↔ DataDoes ev u s w := by
  have hd : below.length + 1 = u.frames.length := by rw [hfr]; rfl
  unfold effect DataDoes
  split
  · -- goToLayout
    rename_i h
    rw [h]
    dsimp only
    rw [value_ok hd]
    constructor
    · rintro ⟨x, hx, h⟩
      obtain ⟨t, ht, h⟩ := ev_bind_ok.mp h
      rw [liftR_ok, stripQuotes_ok] at ht
      refine ⟨t, ht ▸ hx, ?_⟩
      cases hl : u.world.layouts.lookup t with
      | none => rw [hl] at h; cases h; exact .inr ⟨rfl, rfl⟩
      | some n => rw [hl] at h; cases h; exact .inl ⟨n, rfl, rfl⟩
    · rintro ⟨t, hx, h⟩
      refine ⟨_, hx, ev_bind_ok.mpr ⟨t, liftR_ok.mpr (stripQuotes_ok.mpr rfl), ?_⟩⟩
      rcases h with ⟨n, hl, rfl⟩ | ⟨hl, rfl⟩ <;> rw [hl] <;> rfl
  · rename_i h; exact absurd h hop
  · rename_i h
    rw [h]
    simp only [ev_pure, Except.ok.injEq]
    exact eq_comm
  · -- performFind
    rename_i h
    rw [h]
    dsimp only
    simp only [ev_bind_ok, liftR_ok, find_iff, ev_pure, Except.ok.injEq]
    constructor
    · rintro ⟨db, ⟨o, t, f, ids, h1, h2, h3, h4, h5, rfl⟩, rfl⟩
      exact ⟨o, t, f, ids, h1, h2, h3, h4, h5, rfl⟩
    · rintro ⟨o, t, f, ids, h1, h2, h3, h4, h5, rfl⟩
      exact ⟨_, ⟨o, t, f, ids, h1, h2, h3, h4, h5, rfl⟩, rfl⟩
  · rename_i h
    rw [h]
    dsimp only
    simp only [ev_bind_ok, liftR_ok, reset_iff, ev_pure, Except.ok.injEq]
    constructor
    · rintro ⟨db, ⟨o, t, f, h1, h2, h3, rfl⟩, rfl⟩
      exact ⟨o, t, f, h1, h2, h3, rfl⟩
    · rintro ⟨o, t, f, h1, h2, h3, rfl⟩
      exact ⟨_, ⟨o, t, f, h1, h2, h3, rfl⟩, rfl⟩
  · -- setVariable
    rename_i h
    rw [h]
    dsimp only
    rw [ev_bind_ok]
    have hsub : below.length + 1 - 1 = u.frames.length - 1 := by rw [hd]
    constructor
    · rintro ⟨n, hn, h⟩
      rw [value_ok hd] at h
      obtain ⟨val, hval, h⟩ := h
      simp only [ev_bind_ok, liftR_ok, modIdx_ok, ev_pure, Except.ok.injEq] at h
      obtain ⟨vars, ⟨m, hm, rfl⟩, rfl⟩ := h
      unfold ScriptStep.switch at hn
      rw [liftR_ok, idx_ok] at hn
      rw [hsub] at hm
      exact ⟨n, val, m, hn, hval, hm, by rw [hsub]⟩
    · rintro ⟨n, val, m, hn, hval, hm, rfl⟩
      refine ⟨n, by unfold ScriptStep.switch; rw [liftR_ok, idx_ok]; exact hn, ?_⟩
      rw [value_ok hd]
      refine ⟨val, hval, ?_⟩
      simp only [ev_bind_ok, liftR_ok, modIdx_ok, ev_pure, Except.ok.injEq]
      exact ⟨_, ⟨m, by rw [hsub]; exact hm, rfl⟩, by rw [hsub]⟩
  · -- setField
    rename_i h
    rw [h]
    dsimp only
    rw [ev_bind_ok]
    have key : ∀ n val, (if u.world.findMode = true then
          (pure { u.world with criteria := u.world.criteria ++ [(n, val)] } : Ev World)
        else do
          let occ ← liftR (idx (splitCC n) 0)
          let field ← liftR (idx (splitCC n) 1)
          let db ← liftR (u.world.db.writeCell occ field val)
          let db ← liftR (unwrap db)
          pure { u.world with db := db }) = .ok w ↔
        (u.world.findMode = true ∧ w = { u.world with criteria := u.world.criteria ++ [(n, val)] } ∨
          u.world.findMode = false ∧ ∃ db, CellSet u.world.db n val db ∧ w = { u.world with db := db }) := by
      intro n val
      cases hf : u.world.findMode with
      | true =>
        simp only [if_true, ev_pure, Except.ok.injEq, true_and, reduceCtorEq, false_and, or_false]
        exact eq_comm
      | false =>
        simp only [Bool.false_eq_true, if_false, false_and, false_or, true_and, ev_bind_ok, liftR_ok, idx_ok, ev_pure,
          Except.ok.injEq, ← write_iff]
        constructor
        · rintro ⟨occ, h0, field, h1, d, hd, db, hdb, rfl⟩
          rw [unwrap_ok] at hdb
          subst hdb
          exact ⟨db, ⟨occ, field, h0, h1, hd⟩, rfl⟩
        · rintro ⟨db, ⟨occ, field, h0, h1, hd⟩, rfl⟩
          exact ⟨occ, h0, field, h1, some db, hd, db, rfl, rfl⟩
    constructor
    · rintro ⟨n, hn, h⟩
      rw [value_ok hd] at h
      obtain ⟨val, hval, h⟩ := h
      unfold ScriptStep.switch at hn
      rw [liftR_ok, idx_ok] at hn
      exact ⟨n, val, hn, hval, (key n val).mp h⟩
    · rintro ⟨n, val, hn, hval, h⟩
      refine ⟨n, by unfold ScriptStep.switch; rw [liftR_ok, idx_ok]; exact hn, ?_⟩
      rw [value_ok hd]
      exact ⟨val, hval, (key n val).mpr h⟩
  · rename_i h
    rw [h]
    dsimp only
    simp only [ev_bind_ok, liftR_ok, create_iff, ev_pure, Except.ok.injEq]
    exact exists_congr fun db => and_congr_right fun _ => eq_comm
  · rename_i h
    rw [h]
    dsimp only
    rw [value_ok hd]
    simp only [ev_pure, Except.ok.injEq]
    exact exists_congr fun db => and_congr_right fun _ => eq_comm
  · -- assert
    rename_i h
    rw [h]
    dsimp only
    rw [ev_bind_ok]
    constructor
    · rintro ⟨c, hc, h⟩
      unfold ScriptStep.switch at hc
      rw [liftR_ok, idx_ok] at hc
      obtain ⟨val, hval, h⟩ := ev_bind_ok.mp h
      refine ⟨c, val, hc, ⟨c, hc, hd ▸ hval⟩, ?_⟩
      split at h
      · rename_i e; cases h; exact .inl ⟨e, rfl⟩
      · rename_i e; cases h; exact .inr ⟨e, rfl⟩
    · rintro ⟨c, val, hc, ⟨c', hc', hval⟩, h⟩
      rw [hc] at hc'; cases hc'
      refine ⟨c, by unfold ScriptStep.switch; rw [liftR_ok, idx_ok]; exact hc, ev_bind_ok.mpr ⟨val, hd ▸ hval, ?_⟩⟩
      rcases h with ⟨e, rfl⟩ | ⟨e, rfl⟩
      · rw [if_pos e]; rfl
      · rw [if_neg e]; rfl
  · split
    all_goals first
      | (exfalso; rename_i e; simp_all; done)
      | (simp only [ev_pure, Except.ok.injEq]; exact eq_comm)

theorem toNextBranch_iff (hfr : u.frames = (name, ip) :: below) {i : Nat}
    (hi : i ≤ (u.script scripts name below).instructions.length) :
    ToNextBranch scripts u i v ↔
      v = { u with frames := (name, seek isBranch (u.script scripts name below).instructions i) :: below } := by
  have hr : running scripts u = (u.script scripts name below).instructions := by unfold running; rw [hfr]
  have hg : ∀ j, goOn u j = { u with frames := (name, j) :: below } := by intro j; unfold goOn; rw [hfr]
  unfold ToNextBranch
  rw [hr]
  simp only [hg, firstAt_iff isBranch_iff, noneAt_iff isBranch_iff hi]
  have := seek_le (stop := isBranch) hi
  constructor
  · rintro (⟨j, ⟨h1, h2⟩, rfl⟩ | ⟨h1, rfl⟩)
    · rw [h1]
    · rw [h1]
  · rintro rfl
    by_cases hlt : seek isBranch (u.script scripts name below).instructions i < (u.script scripts name below).instructions.length
    · exact .inl ⟨_, ⟨rfl, hlt⟩, rfl⟩
    · have he : seek isBranch (u.script scripts name below).instructions i = (u.script scripts name below).instructions.length := by
        omega
      exact .inr ⟨he, by rw [he]⟩

theorem afterLoop_iff (hfr : u.frames = (name, ip) :: below) :
    AfterLoop scripts u v ↔ ∃ i, afterLoop (u.script scripts name below).instructions ip = .ok i ∧
      v = { u with frames := (name, i) :: below } := by
  have hr : running scripts u = (u.script scripts name below).instructions := by unfold running; rw [hfr]
  have hp : place u = ip := by unfold place; rw [hfr]
  have hg : ∀ j, goOn u j = { u with frames := (name, j) :: below } := by intro j; unfold goOn; rw [hfr]
  unfold AfterLoop afterLoop
  rw [hr, hp]
  simp only [hg, firstAt_iff isEndLoop_iff]
  constructor
  · rintro ⟨j, ⟨rfl, h2⟩, rfl⟩
    exact ⟨_, by rw [if_pos h2], rfl⟩
  · rintro ⟨i, h, rfl⟩
    split at h
    · rename_i h2
      cases h
      exact ⟨_, ⟨rfl, h2⟩, rfl⟩
    · cases h

/-- C149 for one step. -/
theorem exec_iff (hfr : u.frames = (name, ip) :: below)
    (hs : (u.script scripts name below).instructions[ip]? = some s) :
    u.exec ev p scripts name ip below (u.script scripts name below).instructions s = .ok v ↔ StepDoes ev p scripts u s v := by
  have hd : below.length + 1 = u.frames.length := by rw [hfr]; rfl
  have hr : running scripts u = (u.script scripts name below).instructions := by unfold running; rw [hfr]
  have hp : place u = ip := by unfold place; rw [hfr]
  have hg : ∀ j, goOn u j = { u with frames := (name, j) :: below } := by intro j; unfold goOn; rw [hfr]
  have hip := (List.getElem?_eq_some_iff.mp hs).1
  have hgo : ∀ l b t w j, goOn ⟨u.frames, l, b, t, w⟩ j = ⟨(name, j) :: below, l, b, t, w⟩ := by
    intro l b t w j; unfold goOn; dsimp only; rw [hfr]
  have hnext : ∀ l b t w, goNext ⟨u.frames, l, b, t, w⟩ = ⟨(name, ip + 1) :: below, l, b, t, w⟩ := by
    intro l b t w; unfold goNext; rw [hgo]; unfold place; dsimp only; rw [hfr]
  have hnextu : goNext u = { u with frames := (name, ip + 1) :: below } := by unfold goNext; rw [hg, hp]
  have hal : ∀ w v', AfterLoop scripts ⟨u.frames, u.loops, u.branchTaken, u.test, w⟩ v' ↔
      ∃ i, afterLoop (u.script scripts name below).instructions ip = .ok i ∧
        v' = ⟨(name, i) :: below, u.loops, u.branchTaken, u.test, w⟩ :=
    fun w v' => afterLoop_iff (u := ⟨u.frames, u.loops, u.branchTaken, u.test, w⟩) hfr
  unfold Vm.exec StepDoes
  split
  · -- performScript
    rename_i h
    rw [h]
    dsimp only
    rw [value_ok hd]
    have hany : ∀ t, scripts.any (fun e => e.2.name == t) = true ↔ ∃ e ∈ scripts, e.2.name = t := by intro t; simp
    constructor
    · rintro ⟨x, hx, h⟩
      obtain ⟨t, ht, h⟩ := ev_bind_ok.mp h
      rw [liftR_ok, stripQuotes_ok] at ht
      refine ⟨t, _, ht ▸ hx, rfl, ?_⟩
      rw [hnextu]
      split at h
      · rename_i ha
        cases h
        exact .inl ⟨(hany t).mp ha, rfl⟩
      · rename_i ha
        cases h
        refine .inr ⟨fun e he hn => ha ((hany t).mpr ⟨e, he, hn⟩), rfl⟩
    · rintro ⟨t, u', hx, rfl, h⟩
      refine ⟨_, hx, ev_bind_ok.mpr ⟨t, liftR_ok.mpr (stripQuotes_ok.mpr rfl), ?_⟩⟩
      rw [hnextu] at h
      rcases h with ⟨ha, rfl⟩ | ⟨ha, rfl⟩
      · rw [if_pos ((hany t).mpr ha)]; rfl
      · rw [if_neg]
        · rfl
        · intro hh
          obtain ⟨e, he, hn⟩ := (hany t).mp hh
          exact ha e he hn
  · -- goToRecord
    rename_i h
    rw [h]
    dsimp only
    unfold RecordGone
    by_cases hl : 1 < s.switches.length
    · rw [if_pos hl, value_ok hd]
      refine exists_congr fun val => and_congr_right fun _ => ?_
      rw [value_ok hd]
      simp only [hl, true_and, forall_const]
      rw [exists_and_right]
      refine and_congr_right fun _ => ?_
      cases hf : u.world.findMode with
      | true =>
        simp only [if_true, ev_pure, Except.ok.injEq, true_and, reduceCtorEq, false_and, or_false]
        rw [hnextu]
        exact eq_comm
      | false =>
        simp only [Bool.false_eq_true, if_false, false_and, false_or, true_and]
        unfold OnScreen
        rw [ev_bind_ok]
        simp only [liftR_ok, currentOcc_ok]
        refine exists_congr fun o => and_congr_right fun ho => ?_
        rw [ev_bind_ok]
        simp only [liftR_ok, move_iff ho]
        constructor
        · rintro ⟨db, ⟨h1, rfl⟩, h⟩
          refine ⟨h1, _, rfl, ?_⟩
          rw [showing_current ho] at h
          change (if positionAfter o val = o.recordPtr then _ else _) = _ at h
          split at h
          · rename_i he
            obtain ⟨i, hi, h⟩ := ev_bind_ok.mp h
            rw [liftR_ok] at hi
            cases h
            refine .inl ⟨he, (hal _ _).mpr ⟨i, hi, ?_⟩⟩
            rw [← hf]
          · rename_i he
            cases h
            refine .inr ⟨he, ?_⟩
            rw [hnext, ← hf]
        · rintro ⟨h1, u', rfl, h⟩
          refine ⟨_, ⟨h1, rfl⟩, ?_⟩
          rw [showing_current ho]
          change (if positionAfter o val = o.recordPtr then _ else _) = _
          rcases h with ⟨he, h⟩ | ⟨he, rfl⟩
          · obtain ⟨i, hi, rfl⟩ := (hal _ _).mp h
            rw [if_pos he]
            refine ev_bind_ok.mpr ⟨i, liftR_ok.mpr hi, ?_⟩
            rw [← hf]; rfl
          · rw [if_neg he, hnext, ← hf]; rfl
    · rw [if_neg hl]
      simp only [hl, false_and, not_false_eq_true, true_and, false_or, false_implies]
      unfold effect
      rw [h]
      dsimp only
      rw [ev_bind_ok]
      simp only [value_ok hd]
      constructor
      · rintro ⟨w, ⟨val, hval, h⟩, hv⟩
        cases hv
        refine ⟨val, hval, ?_⟩
        cases hf : u.world.findMode with
        | true =>
          rw [hf] at h
          cases h
          refine .inl ⟨rfl, ?_⟩
          rw [hnextu]
        | false =>
          rw [hf] at h
          simp only [Bool.false_eq_true, if_false] at h
          obtain ⟨o, ho, h⟩ := ev_bind_ok.mp h
          rw [liftR_ok, currentOcc_ok] at ho
          obtain ⟨db, hdb, h⟩ := ev_bind_ok.mp h
          rw [liftR_ok, move_iff ho] at hdb
          obtain ⟨h1, rfl⟩ := hdb
          cases h
          refine .inr ⟨rfl, o, ho, h1, _, rfl, ?_⟩
          rw [hnext, ← hf]
      · rintro ⟨val, hval, h⟩
        rcases h with ⟨hf, rfl⟩ | ⟨hf, o, ho, h1, u', rfl, rfl⟩
        · refine ⟨u.world, ⟨val, hval, by rw [hf]; rfl⟩, ?_⟩
          rw [hnextu]; rfl
        · refine ⟨{ u.world with db := showing u.world.db { o with recordPtr := positionAfter o val } }, ⟨val, hval, ?_⟩, ?_⟩
          · rw [hf]
            simp only [Bool.false_eq_true, if_false]
            refine ev_bind_ok.mpr ⟨o, liftR_ok.mpr (currentOcc_ok.mpr ho), ev_bind_ok.mpr ⟨_, liftR_ok.mpr ((move_iff ho).mpr ⟨h1, rfl⟩), ?_⟩⟩
            rw [← hf]; rfl
          · rw [hnext]; rfl
  · rename_i h
    rw [h]
    dsimp only
    rw [hnext, hp]
    simp only [ev_pure, Except.ok.injEq]
    exact eq_comm
  · -- if
    rename_i h
    rw [h]
    dsimp only
    rw [value_ok hd]
    refine exists_congr fun val => and_congr_right fun _ => ?_
    rw [hnext, hp, toNextBranch_iff hfr (by omega)]
    by_cases he : val = t!"true"
    · simp only [he, if_true, ev_pure, Except.ok.injEq, true_and, ne_eq, not_true_eq_false, false_and, or_false]
      exact eq_comm
    · rw [if_neg he]
      simp only [he, ev_pure, Except.ok.injEq, false_and, false_or, ne_eq, not_false_eq_true, true_and]
      exact eq_comm
  · -- elseIf
    rename_i h
    rw [h]
    dsimp only
    rw [hr, hp, toNextBranch_iff hfr (by omega), hnext]
    simp only [firstAt_iff isEndIf_iff, noneAt_iff isEndIf_iff (Nat.le_of_lt hip)]
    have hle := seek_le (stop := isEndIf) (Nat.le_of_lt hip)
    cases hb : u.branchTaken with
    | true =>
      simp only [Bool.true_and, decide_eq_true_eq, if_true, true_and, reduceCtorEq, false_and, or_false]
      by_cases hlt : seek isEndIf (u.script scripts name below).instructions ip < (u.script scripts name below).instructions.length
      · rw [if_pos hlt]
        simp only [ev_pure, Except.ok.injEq]
        rw [hgo]
        constructor
        · rintro rfl
          exact .inl ⟨_, ⟨rfl, hlt⟩, by rw [hgo]⟩
        · rintro (⟨j, ⟨rfl, -⟩, rfl⟩ | ⟨he, -⟩)
          · rw [hgo]
          · omega
      · rw [if_neg hlt]
        have he : seek isEndIf (u.script scripts name below).instructions ip = (u.script scripts name below).instructions.length := by
          omega
        have hlast : (u.script scripts name below).instructions.getLast? =
            some ((u.script scripts name below).instructions.getLastD s) := by
          cases hc : (u.script scripts name below).instructions with
          | nil => rw [hc] at hip; simp at hip
          | cons a l =>
            rw [List.getLastD_eq_getLast?, List.getLast?_eq_some_getLast (List.cons_ne_nil a l)]
            rfl
        have hseek : seek isBranch (u.script scripts name below).instructions ((u.script scripts name below).instructions.length + 1) =
            (u.script scripts name below).instructions.length + 1 := by
          unfold seek
          rw [List.drop_of_length_le (by omega)]
          rfl
        have hbr : ∀ fr, { u with branchTaken := true, frames := fr } = { u with frames := fr } := by intro fr; rw [← hb]
        rw [value_ok hd, hlast, hg]
        constructor
        · rintro ⟨val, hval, h⟩
          refine .inr ⟨he, ⟨_, val, rfl, hval⟩, ?_⟩
          split at h
          · cases h; rw [← hb]
          · cases h; rw [hseek, hb]
        · rintro (⟨j, ⟨rfl, h2⟩, -⟩ | ⟨-, ⟨x, val, hx, hval⟩, rfl⟩)
          · exact absurd h2 hlt
          · cases hx
            refine ⟨val, hval, ?_⟩
            split
            · rw [← hb]; rfl
            · rw [hseek, hb]; rfl
    | false =>
      simp only [Bool.false_and, Bool.false_eq_true, if_false, false_and, false_or, true_and]
      rw [value_ok hd]
      refine exists_congr fun val => and_congr_right fun _ => ?_
      by_cases he : val = t!"true"
      · simp only [he, if_true, ev_pure, Except.ok.injEq, true_and, ne_eq, not_true_eq_false, false_and, or_false]
        exact eq_comm
      · rw [if_neg he]
        simp only [he, ev_pure, Except.ok.injEq, false_and, false_or, ne_eq, not_false_eq_true, true_and]
        exact eq_comm
  · -- else
    rename_i h
    rw [h]
    dsimp only
    rw [hr, hp, hnext]
    simp only [firstAt_iff isEndIf_iff, noneAt_iff isEndIf_iff (Nat.le_of_lt hip)]
    have hle := seek_le (stop := isEndIf) (Nat.le_of_lt hip)
    cases hb : u.branchTaken with
    | true =>
      simp only [if_true, true_and, reduceCtorEq, false_and, or_false]
      by_cases hlt : seek isEndIf (u.script scripts name below).instructions ip < (u.script scripts name below).instructions.length
      · rw [if_pos hlt]
        simp only [ev_pure, Except.ok.injEq]
        constructor
        · rintro rfl
          exact .inl ⟨_, ⟨rfl, hlt⟩, by rw [hgo]⟩
        · rintro (⟨j, ⟨rfl, -⟩, rfl⟩ | ⟨he, -⟩)
          · rw [hgo]
          · omega
      · rw [if_neg hlt]
        have he : seek isEndIf (u.script scripts name below).instructions ip = (u.script scripts name below).instructions.length := by
          omega
        rw [hg]
        simp only [ev_pure, Except.ok.injEq]
        constructor
        · rintro rfl
          exact .inr ⟨he, by rw [hb]⟩
        · rintro (⟨j, ⟨rfl, h2⟩, -⟩ | ⟨-, rfl⟩)
          · exact absurd h2 hlt
          · rw [hb]
    | false =>
      simp only [Bool.false_eq_true, if_false, false_and, false_or, true_and, ev_pure, Except.ok.injEq]
      exact eq_comm
  · rename_i h
    rw [h]
    dsimp only
    rw [hnext]
    simp only [ev_pure, Except.ok.injEq]
    exact eq_comm
  · -- endLoop
    rename_i h
    rw [h]
    dsimp only
    simp only [ev_bind_ok, liftR_ok, unwrap_ok, hg, ev_pure, Except.ok.injEq]
    constructor
    · rintro ⟨i, hi, rfl⟩
      cases hloops : u.loops with
      | nil => rw [hloops] at hi; cases hi
      | cons a l =>
        rw [hloops] at hi
        cases hi
        exact ⟨_, l, rfl, rfl⟩
    · rintro ⟨i, l, hloops, rfl⟩
      exact ⟨i, by rw [hloops]; rfl, rfl⟩
  · -- exitLoopIf
    rename_i h
    rw [h]
    dsimp only
    rw [value_ok hd]
    refine exists_congr fun val => and_congr_right fun _ => ?_
    rw [hnext, afterLoop_iff hfr]
    by_cases he : val = t!"true"
    · simp only [he, if_true, true_and, ne_eq, not_true_eq_false, false_and, or_false, ev_bind_ok, liftR_ok, ev_pure,
        Except.ok.injEq]
      exact exists_congr fun i => and_congr_right fun _ => eq_comm
    · rw [if_neg he]
      simp only [he, ev_pure, Except.ok.injEq, false_and, false_or, ne_eq, not_false_eq_true, true_and]
      exact eq_comm
  · -- the steps that change data
    rename_i h1 h2 h3 h4 h5 h6 h7 h8 h9
    have hx : (∃ w, DataDoes ev u s w ∧ v = goNext { u with world := w }) ↔
        (do let w ← effect ev p (below.length + 1) s u.world
            pure { u with world := w, frames := (name, ip + 1) :: below }) = (.ok v : Ev Vm) := by
      simp only [ev_bind_ok, effect_iff hfr h2, ev_pure, Except.ok.injEq]
      refine exists_congr fun w => and_congr_right fun _ => ?_
      rw [hnext]
      exact eq_comm
    dsimp only
    rw [← hx]
    split
    all_goals first
      | rfl
      | (exfalso; rename_i e; simp_all; done)

end

end BurnFm
