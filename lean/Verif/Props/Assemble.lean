import Verif.Proofs.AssembleRecords
import Verif.Proofs.DecompileCalc

/-! Properties C15 and C16: whole assembled files. -/

namespace BurnFm.Props

/-- C15: an assembled file has 20479 bytes, a block count of 4, and the sector chain 2 → 3 → 4 → end. -/
theorem assemble_layout (p : Profile) (f : FmpFile) (buf : Bytes) (h : assemble p f = .ok buf) :
    buf.length = 20479 ∧ Spec.nextSector buf 1 = 4 ∧ Spec.nextSector buf 2 = 3 ∧ Spec.nextSector buf 3 = 4 ∧
      Spec.nextSector buf 4 = 0 := by
  obtain ⟨s, t, h1, h2, h3, h4, h5, h6, h7, h8, h9, h10, h11, h12, _⟩ := assemble_spec h
  exact ⟨h4, h9, h10, h11, h12⟩

/-- C15: the sectors after the first content sector are empty: whatever does not fit in one sector is never
moved to them. -/
theorem assemble_one_sector (p : Profile) (f : FmpFile) (buf : Bytes) (h : assemble p f = .ok buf) (i : Nat)
    (h1 : 12288 + 20 ≤ i) (h2 : i < 20479) : buf[i]? = some 0 := by
  obtain ⟨s, t, _, _, _, _, _, _, _, h8, _⟩ := assemble_spec h
  exact h8 i (by omega) h2 (by omega)

/-- C15: the name of the schema, followed by a slash, is in the header at offset 3082. A name of more than 1012
bytes does not fit and makes the assembler panic. -/
theorem assemble_name (p : Profile) (f : FmpFile) (buf : Bytes) (h : assemble p f = .ok buf) :
    (utf8 f.name).length ≤ 1012 ∧
    slice buf 3082 (3082 + (utf8 (f.name ++ ['/'])).length) = .ok (utf8 (f.name ++ ['/'])) := by
  obtain ⟨s, t, _, _, _, h4, _, _, _, _, _, _, _, _, h13, h14⟩ := assemble_spec h
  have hu : (utf8 (f.name ++ ['/'])).length = (utf8 f.name).length + 1 := by
    rw [utf8_append, List.length_append]; rfl
  refine ⟨by omega, ?_⟩
  rw [slice_ok]
  refine ⟨by omega, by omega, ?_⟩
  apply List.ext_getElem?
  intro i
  rw [List.getElem?_take, List.getElem?_drop]
  split
  · rename_i hi; rw [h13 i (by omega)]
  · rename_i hi; rw [List.getElem?_eq_none (by omega)]

/-- C85: exactly which schemas can be assembled: the name has at most 1012 bytes, and the tables, with 25 bytes and the
occurrences, with 20 bytes each besides twice the length of their names, fit in the one sector that is used. -/
theorem assembles_iff (p : Profile) (f : FmpFile) (hr : Spec.InRange f) : (∃ buf, assemble p f = .ok buf) ↔
    (utf8 f.name).length ≤ 1012 ∧
      (f.tables.map fun t => 25 + 2 * t.2.name.length).sum +
        (f.tableOccurrences.map fun o => 20 + 2 * o.2.name.length).sum ≤ 3249 := by
  have hu : (utf8 (f.name ++ ['/'])).length = (utf8 f.name).length + 1 := by
    rw [utf8_append, List.length_append]; rfl
  rw [assemble_fits_iff p f hr, fileRecords_size f hr, hu]
  omega

/-- C16 is false of the code, for every schema in range: decompiling an assembled file yields the empty schema,
whatever tables, occurrences, layouts and scripts the schema has. -/
theorem assembled_schema_lost (p q : Profile) (f : FmpFile) (buf : Bytes) (hr : Spec.InRange f) (h : assemble p f = .ok buf) :
    ∃ fuel₀, ∀ fuel, fuel₀ ≤ fuel → decompile q buf fuel = .ok (some {}) := by
  obtain ⟨chs, h1, h2⟩ := assemble_reads (q := q) hr h
  obtain ⟨fuel₀, h3⟩ := decompile_run (by have := (assemble_layout p f buf h).1; omega) h1
  refine ⟨fuel₀, fun fuel hf => ?_⟩
  rw [h3 fuel hf, runChunks_other _ _ _ h2]
  rfl

/-- C16, the part that holds: the tables come back if there are none. Missing: schemas with tables, where it is
always false in range (`assembled_schema_lost`). -/
theorem assembled_tables_partial (p q : Profile) (f : FmpFile) (buf : Bytes) (hr : Spec.InRange f) (h : assemble p f = .ok buf) :
    (∃ fuel g, decompile q buf fuel = .ok (some g) ∧ g.tables = f.tables) ↔ f.tables = [] := by
  obtain ⟨fuel₀, h2⟩ := assembled_schema_lost p q f buf hr h
  constructor
  · rintro ⟨fuel, g, h3, h4⟩
    have h5 := decompile_mono h3 (by simp) (max fuel fuel₀) (by omega)
    rw [h2 _ (by omega)] at h5
    cases h5
    exact h4.symm
  · intro h3
    exact ⟨fuel₀, {}, h2 _ (Nat.le_refl _), h3.symm⟩

/-- A schema with one table. -/
def oneTable : FmpFile := { name := t!"s", tables := [(1, { name := t!"Person", fields := [(1, { name := t!"id" })] })] }

theorem oneTable_inRange : Spec.InRange oneTable where
  tableIds := by simp [oneTable]
  tableNames := by simp [oneTable]
  tableCount := by simp [oneTable]
  occurrenceIds := by simp [oneTable]
  occurrenceNames := by simp [oneTable]

set_option maxRecDepth 20000 in
theorem oneTable_assembles (p : Profile) : ∃ buf, assemble p oneTable = .ok buf := by
  apply assemble_fits p _ oneTable_inRange
  · decide
  · decide

/-- C85: a schema of 130 tables does not assemble. -/
theorem too_many_tables (p : Profile) (buf : Bytes) :
    assemble p { name := t!"s", tables := (List.range 130).map fun i => (i, { name := [] }) } ≠ .ok buf := by
  intro h
  have hr : Spec.InRange { name := t!"s", tables := (List.range 130).map fun i => (i, { name := [] }) } := by
    constructor
    · intro t ht; simp at ht; obtain ⟨i, hi, rfl⟩ := ht; dsimp only; omega
    · intro t ht; simp at ht; obtain ⟨i, hi, rfl⟩ := ht; exact Nat.zero_le _
    · simp
    · intro o ho; cases ho
    · intro o ho; cases ho
  have := ((assembles_iff p _ hr).mp ⟨buf, h⟩).2
  revert this
  decide +kernel

/-- C16 is false of the code: a schema with a table assembles, and its decompilation has no table. -/
theorem assembled_tables_reappear_refuted (p q : Profile) : ∃ f buf g fuel₀, f.tables ≠ [] ∧ assemble p f = .ok buf ∧
    (∀ fuel, fuel₀ ≤ fuel → decompile q buf fuel = .ok (some g)) ∧ g.tables = [] := by
  obtain ⟨buf, h1⟩ := oneTable_assembles p
  obtain ⟨fuel₀, h2⟩ := assembled_schema_lost p q _ buf oneTable_inRange h1
  exact ⟨oneTable, buf, {}, fuel₀, by simp [oneTable], h1, h2, rfl⟩

end BurnFm.Props
