import Verif.Proofs.SchemaFile
import Verif.Props.Terminates

/-! Property C21: table and field definitions in a file are recovered. -/

namespace BurnFm.Props

/-- C21 for any file, however many sectors it has and whatever else it contains: if the part of it that is about
tables is the description of `ts`, tables first, and it is decompiled, the result has exactly the tables `ts`.
Missing: descriptions in another order (`schema_order_refuted`), and that decompilation does not panic because of
the other contents of the file; see `schema_file_recovered`. -/
theorem schema_recovered_partial (p : Profile) (buf : Bytes) (chs : List Chunk) (ts : List Spec.TableDef) (fuel : Nat) (f : FmpFile)
    (hl : 4116 ≤ buf.length) (hr : FileReads p buf (Spec.nextSector buf 1) 2 chs)
    (hts : (eventsOf chs).filter Spec.describesSchema = Spec.tableEvents fmStringEncrypt ts ++ Spec.fieldEvents fmStringEncrypt ts)
    (hn : Spec.WellNumbered ts) (hd : decompile p buf fuel = .ok (some f)) :
    f.tables = ts.map fun t => (t.id, t.table) := by
  obtain ⟨fuel₀, h1⟩ := decompile_run hl hr
  have h2 := decompile_mono hd (by simp) (max fuel fuel₀) (by omega)
  rw [h1 _ (by omega)] at h2
  obtain ⟨st, h3, h4⟩ := bind_ok.mp h2
  have hx : ∀ e ∈ eventsOf chs, ∀ x, Spec.describesSchema e = true → e.path = [3, 16, 5, x] → 128 ≤ x := by
    intro e he x hd hp
    have : e ∈ (eventsOf chs).filter Spec.describesSchema := List.mem_filter.mpr ⟨he, hd⟩
    rw [hts, List.mem_append] at this
    unfold Spec.tableEvents Spec.fieldEvents Spec.entry at this
    simp only [List.mem_flatMap, List.mem_cons, List.mem_map] at this
    rcases this with ⟨t, _, rfl | ⟨a, _, rfl⟩⟩ | ⟨t, _, g, _, rfl | ⟨a, _, rfl⟩⟩ <;> simp at hp <;> omega
  have h5 := run_tables (shape_fileReads hr) hx h3
  rw [hts] at h5
  have h6 := (steps_schema hn).foldl
  cases ha : assembleScripts st with
  | error e => rw [ha] at h4; cases h4
  | ok g =>
    rw [ha] at h4
    cases h4
    rw [assembleScripts_tables ha, h5]
    exact h6

/-- Records written one after the other into the content sector of an otherwise empty file of three sectors. -/
def Holds (rs : List Spec.Record) (buf : Bytes) : Prop :=
  ∃ t, emitRecords ⟨8212, threeSectors 0 []⟩ rs = .ok t ∧ t.idx ≤ 12288 ∧ t.buf = buf

/-- Helper: what a file with the given records reads as. -/
theorem holds_reads (p : Profile) {rs : List Spec.Record} {buf : Bytes} {es : List Spec.Event} (h : Holds rs buf)
    (hr : ∀ r ∈ rs, Spec.Representable r) (hs : Says [] rs [] es) :
    4116 ≤ buf.length ∧ ∃ chs, FileReads p buf (Spec.nextSector buf 1) 2 chs ∧ (eventsOf chs).filter Spec.describesSchema = es ∧
      ∀ ch ∈ chs, classify ch.path = .other ∨ Spec.isEntry ch.path = true := by
  obtain ⟨t, h1, h2, rfl⟩ := h
  obtain ⟨l1, l2, l3, l4⟩ := threeSectors_spec 0 [] (by simp)
  obtain ⟨f1, f2, f3⟩ := emitRecords_frame h1
  have fa := emitRecords_after h1
  dsimp only at f1 f2 f3 fa
  obtain ⟨s1, s2, s3⟩ := hs
  obtain ⟨chs, d1, d2, d3⟩ := emitRecords_decodes p 8192 hr [] t.buf h1 rfl
  rw [s1] at d1
  obtain ⟨chs2, r1, r2⟩ := readsTo_zeros (p := p) (buf := t.buf) (loc := 8192) (bound := 12288) (by omega) 12288 t.idx []
    (by omega) (fun k hk => by
      rw [fa _ (by omega), show t.idx + 2 * k = 8212 + (t.idx + 2 * k - 8212) by omega, l4]
      exact List.getElem?_replicate_of_lt (by simp; omega))
  have lo : ∀ i : Nat, i < 8212 → t.buf[i]? = (threeSectors 0 [])[i]? := by
    intro i hi
    have : (t.buf.take 8212)[i]? = ((threeSectors 0 []).take 8212)[i]? := by rw [f1]
    rwa [List.getElem?_take_of_lt hi, List.getElem?_take_of_lt hi] at this
  have be : ∀ o : Nat, o + 3 < 8212 → Spec.be32 t.buf o = Spec.be32 (threeSectors 0 []) o := by
    intro o ho
    unfold Spec.be32
    simp only [List.getD_eq_getElem?_getD]
    rw [lo o (by omega), lo (o + 1) (by omega), lo (o + 2) (by omega), lo (o + 3) (by omega)]
  have n1 : Spec.nextSector t.buf 1 = 2 := (be 4104 (by omega)).trans l2
  have n2 : Spec.nextSector t.buf 2 = 0 := (be 8200 (by omega)).trans l3
  refine ⟨by omega, chs ++ chs2 ++ [], ?_, ?_, ?_⟩
  · rw [n1]
    refine .sector (by omega) (by omega) (by omega) (d1.readsTo h2 r1) ?_
    rw [n2]
    exact .done
  · have e2 : (eventsOf chs2).filter Spec.describesSchema = [] := by
      rw [List.filter_eq_nil_iff]
      intro e he
      unfold eventsOf at he
      obtain ⟨ch, hch, h3⟩ := List.mem_filterMap.mp he
      rw [(r2 ch hch).2] at h3
      cases h3
      simp [Spec.describesSchema]
    rw [List.append_nil]
    unfold eventsOf at d2 e2 ⊢
    rw [List.filterMap_append, List.filter_append, d2, s2, e2, List.append_nil]
  · intro ch hch
    simp only [List.append_nil, List.mem_append] at hch
    rcases hch with hch | hch
    · obtain ⟨⟨e, e1, e2⟩, _⟩ := d3 ch hch
      rw [← e2]; exact s3 e e1
    · rw [(r2 ch hch).1]; exact .inl rfl

/-- Helper: decompiling a file with the given records. -/
theorem holds_decompiles (p : Profile) {rs : List Spec.Record} {buf : Bytes} {es : List Spec.Event} {T : HMap FTable} (h : Holds rs buf)
    (hr : ∀ r ∈ rs, Spec.Representable r) (hs : Says [] rs [] es) (hT : Steps [] es T) :
    ∃ fuel₀ f, f.tables = T ∧ ∀ fuel, fuel₀ ≤ fuel → decompile p buf fuel = .ok (some f) := by
  obtain ⟨hl, chs, r1, r2, r3⟩ := holds_reads p h hr hs
  obtain ⟨fuel₀, h1⟩ := decompile_run hl r1
  rw [← r2] at hT
  obtain ⟨st, g1, g2, g3⟩ := run_success (p := p) (shape_fileReads r1) r3 (st := {}) hT
  refine ⟨fuel₀, st.file, g3, fun fuel hf => ?_⟩
  rw [h1 fuel hf, g1, ok_bind]
  have : st.segments = [] := g2
  unfold assembleScripts
  rw [this]
  rfl

/-- C21 for files with a schema and nothing else: a schema of which all records are representable and which fits in a
sector is recovered exactly. -/
theorem schema_file_recovered (p : Profile) (ts : List Spec.TableDef) (buf : Bytes) (hn : Spec.WellNumbered ts)
    (hr : ∀ r ∈ Spec.schemaRecords fmStringEncrypt ts, Spec.Representable r)
    (h : Holds (Spec.schemaRecords fmStringEncrypt ts) buf) :
    ∃ fuel₀ f, f.tables = ts.map (fun t => (t.id, t.table)) ∧ ∀ fuel, fuel₀ ≤ fuel → decompile p buf fuel = .ok (some f) :=
  holds_decompiles p h hr (says_schema _ ts) (steps_schema hn)

/-- Records that are small enough fit. -/
theorem holds_of_small {rs : List Spec.Record}
    (h : ((rs ++ [Spec.Record.pop]).map fun r => (encRecord r).length + gapRecord r).sum ≤ 4076) : ∃ buf, Holds (rs ++ [.pop]) buf := by
  have hl := (threeSectors_spec 0 [] (by simp)).1
  obtain ⟨t, h1, h2⟩ := emitRecords_fits (rs ++ [.pop]) ⟨8212, threeSectors 0 []⟩ (by dsimp only; omega)
  have h3 := emitRecords_end h1
  dsimp only at h2
  exact ⟨t.buf, t, h1, by omega, rfl⟩

/-- Two tables with fields. -/
def peopleAndPets : List Spec.TableDef :=
  [{ id := 1, attrs := [(16, t!"Person")],
     fields := [{ id := 1, attrs := [(16, t!"id"), (2, t!"Number"), (3, t!"keys"), (129, t!"admin"), (130, t!"me")] },
                { id := 2, attrs := [(16, t!"full_name")] }] },
   { id := 2, attrs := [(16, t!"Pet"), (3, t!"?")], fields := [{ id := 1, attrs := [(16, t!"owner")] }] }]

instance (r : Spec.Record) : Decidable (Spec.Representable r) := by
  cases r <;> unfold Spec.Representable <;> infer_instance

set_option maxRecDepth 20000 in
/-- The hypotheses of `schema_file_recovered` are met by a schema with two tables. -/
example : Spec.WellNumbered peopleAndPets ∧
    (∀ r ∈ Spec.schemaRecords fmStringEncrypt peopleAndPets, Spec.Representable r) ∧
    ∃ buf, Holds (Spec.schemaRecords fmStringEncrypt peopleAndPets) buf := by
  refine ⟨?_, ?_, ?_⟩
  · simp [Spec.WellNumbered, peopleAndPets]
  · decide
  · have : Spec.schemaRecords fmStringEncrypt peopleAndPets = (Spec.schemaRecords fmStringEncrypt peopleAndPets).dropLast ++ [.pop] := rfl
    rw [this]
    apply holds_of_small
    decide

/-- A table with one field, as records: first the field, then the table. -/
def fieldFirst : List Spec.Record :=
  [.push 129, .push 3, .push 5, .push 1, .kv 16 (fmStringEncrypt t!"id"), .pop, .pop, .pop, .pop,
   .push 3, .push 16, .push 5, .push 129, .kv 16 (fmStringEncrypt t!"Person"), .pop, .pop, .pop] ++ [.pop]

theorem fieldFirst_says : Says [] fieldFirst [] (Spec.entry fmStringEncrypt [129, 3, 5, 1] [(16, t!"id")] ++
    Spec.entry fmStringEncrypt [3, 16, 5, 129] [(16, t!"Person")]) := by
  unfold Says fieldFirst
  refine ⟨rfl, rfl, ?_⟩
  decide

/-- C21 is false of the code when a field comes before its table in the file: the field is lost. -/
theorem schema_order_refuted (p : Profile) : ∃ buf fuel₀ f, Holds fieldFirst buf ∧
    (∀ fuel, fuel₀ ≤ fuel → decompile p buf fuel = .ok (some f)) ∧ f.tables = [(1, { name := t!"Person", fields := [] })] := by
  obtain ⟨buf, hb⟩ : ∃ buf, Holds fieldFirst buf := holds_of_small (by decide)
  have hT : Steps [] (Spec.entry fmStringEncrypt [129, 3, 5, 1] [(16, t!"id")] ++
      Spec.entry fmStringEncrypt [3, 16, 5, 129] [(16, t!"Person")]) [(1, { name := t!"Person", fields := [] })] := by
    refine .cons trivial (.cons ⟨_, rfl, rfl⟩ (.cons (show 128 ≤ 129 by decide) (.cons ⟨(by decide : 128 ≤ 129), fun _ => rfl⟩ ?_)))
    exact .nil _
  obtain ⟨fuel₀, f, h1, h2⟩ := holds_decompiles p hb (by decide) fieldFirst_says hT
  exact ⟨buf, fuel₀, f, hb, h2, h1⟩

/-- Two tables, number 129 before number 1. -/
def table129First : List Spec.TableDef :=
  [{ id := 129, attrs := [(16, t!"A")], fields := [] }, { id := 1, attrs := [(16, t!"B")], fields := [] }]

set_option maxRecDepth 20000 in
/-- C21 is false of the code when a table with a number 128 higher comes first: the second table is never
recovered (the decompiler panics). -/
theorem schema_number_refuted (p : Profile) : ∃ buf, Holds (Spec.schemaRecords fmStringEncrypt table129First) buf ∧
    ∀ fuel f, decompile p buf fuel = .ok (some f) → f.tables.get 1 = none := by
  obtain ⟨buf, hb⟩ : ∃ buf, Holds (Spec.schemaRecords fmStringEncrypt table129First) buf :=
    holds_of_small (rs := (Spec.schemaRecords fmStringEncrypt table129First).dropLast) (by decide)
  refine ⟨buf, hb, fun fuel f hd => ?_⟩
  obtain ⟨hl, chs, r1, r2, r3⟩ := holds_reads p hb (by decide) (says_schema _ _)
  obtain ⟨fuel₀, h1⟩ := decompile_run hl r1
  have h2 := decompile_mono hd (by simp) (max fuel fuel₀) (by omega)
  rw [h1 _ (by omega)] at h2
  obtain ⟨st, h3, h4⟩ := bind_ok.mp h2
  have hx : ∀ e ∈ eventsOf chs, ∀ x, Spec.describesSchema e = true → e.path = [3, 16, 5, x] → 128 ≤ x := by
    intro e he x hd hp
    have : e ∈ (eventsOf chs).filter Spec.describesSchema := List.mem_filter.mpr ⟨he, hd⟩
    rw [r2, List.mem_append] at this
    unfold Spec.tableEvents Spec.fieldEvents Spec.entry at this
    simp only [List.mem_flatMap, List.mem_cons, List.mem_map] at this
    rcases this with ⟨t, _, rfl | ⟨a, _, rfl⟩⟩ | ⟨t, _, g, _, rfl | ⟨a, _, rfl⟩⟩ <;> simp at hp <;> omega
  have h5 := run_tables (shape_fileReads r1) hx h3
  rw [r2] at h5
  cases ha : assembleScripts st with
  | error e => rw [ha] at h4; cases h4
  | ok g =>
    rw [ha] at h4
    cases h4
    rw [assembleScripts_tables ha, h5]
    rfl

end BurnFm.Props
