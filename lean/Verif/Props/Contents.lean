import Verif.Proofs.Contents
import Verif.Props.Assemble

/-! Property C138: what a compiled file contains. -/

namespace BurnFm.Props
open Spec

/-- C138: reading a compiled file shows exactly the contents of the specification, and after them only empty data. -/
theorem compiled_contents (p q : Profile) (f : FmpFile) (buf : Bytes) (hr : InRange f) (h : assemble p f = .ok buf) :
    ∃ chs, FileReads q buf (nextSector buf 1) 2 chs ∧ ∃ n, eventsOf chs = shownAll [] (contents f) ++ List.replicate n filler := by
  obtain ⟨chs, h1, _, n, h2⟩ := assemble_reads_records (q := q) hr h
  exact ⟨chs, h1, n, by rw [h2, draws_file]; rfl⟩

/-- C138: the records of every directory of a compiled file but the root. Directories that are not named here have
no records. -/
theorem compiled_records (p q : Profile) (f : FmpFile) (buf : Bytes) (hr : InRange f) (h : assemble p f = .ok buf) (chs : List Chunk)
    (hc : FileReads q buf (nextSector buf 1) 2 chs) (path : List Nat) (hp : path ≠ []) :
    recordsIn path (eventsOf chs) =
      if path = [2] then recordsIn [2] (shownAll [2] maker)
      else if path = [3, 16, 1, 1] then f.tables.map fun t => .longKv (encodeText t.2.name ++ [0, 0, 0]) [2, 128, UInt8.ofNat t.1]
      else if path = [3, 16, 1, 3] then f.tables.map fun t => .longKv (fourBytes t.1) (fourBytes t.1)
      else if path = [3, 16, 1] then [.kv 4 (fourBytes f.tables.length), .kv 216 (obscured t!"hello"), .kv 129 (obscured t!"admin"),
        .kv 130 (obscured t!"admin")]
      else if path = [3, 17, 1] then [.kv 0 [3, 208, 0, 9]]
      else if path = [3, 17, 1, 1] then f.tableOccurrences.map fun o => .data (encodeText (o.2.name ++ ['\x00', '\x00']))
      else if path = [3, 17, 1, 3] then f.tableOccurrences.map fun o => .data (fourBytes o.1)
      else if path = [4, 1] then [.kv 0 [1, UInt8.ofNat f.layouts.length]]
      else if path = [17, 1] then [.kv 0 [1, UInt8.ofNat f.scripts.length]]
      else [] := by
  obtain ⟨chs', h1, _, n, h2⟩ := assemble_reads_records (q := q) hr h
  have := hc.unique h1
  subst this
  rw [h2, draws_file, recordsIn_append, recordsIn_filler path hp, recordsIn_contents, List.append_nil]
  repeat' (split; (rename_i e; subst e; simp))
  simp [*]

/-- C138: the file depends on nothing but the name of the file, the numbers and names of the tables and occurrences, and the numbers
of layouts and scripts modulo 256. -/
theorem compiled_only_names (p : Profile) (f g : FmpFile) (hn : f.name = g.name)
    (ht : f.tables.map (fun t => (t.1, encodeText t.2.name)) = g.tables.map (fun t => (t.1, encodeText t.2.name)))
    (ho : f.tableOccurrences.map (fun o => (o.1, encodeText o.2.name)) = g.tableOccurrences.map (fun o => (o.1, encodeText o.2.name)))
    (hl : f.layouts.length % 256 = g.layouts.length % 256) (hs : f.scripts.length % 256 = g.scripts.length % 256) :
    assemble p f = assemble p g := by
  have byte : ∀ {a b : Nat}, a % 256 = b % 256 → UInt8.ofNat a = UInt8.ofNat b := by
    intro a b h; apply UInt8.toNat_inj.mp; simpa using h
  have tl : f.tables.length = g.tables.length := by simpa using congrArg List.length ht
  have e1 : emitTableMetadata p f = emitTableMetadata p g := by
    funext s
    have f1 := fun s => foldlM_key (h := fun s (k : Nat × Bytes) => emitLongKv s (k.2 ++ [0, 0, 0]) [2, 128, UInt8.ofNat k.1]) _ ht s
    have f2 := fun s => foldlM_key (h := fun s (k : Nat × Bytes) => do
      let key ← putInt p k.1
      emitLongKv s key (beBytes k.1)) _ ht s
    have f3 := fun s => foldlM_key (h := fun s (k : Nat × Bytes) => do
      let d ← tableDir p k.1
      let s ← emitPush s d
      emitPop s) _ ht s
    unfold emitTableMetadata
    simp only [tl] at *
    simp only [f1, f2, f3]
  have e2 : emitRelationshipData p f = emitRelationshipData p g := by
    funext s
    have f1 := fun s => foldlM_key (h := fun s (k : Nat × Bytes) => emitData1B s (k.2 ++ encodeText ['\x00', '\x00'])) _ ho s
    have f2 := fun s => foldlM_key (h := fun s (k : Nat × Bytes) => do
      let n ← putInt p k.1
      emitData1B s n) _ ho s
    unfold emitRelationshipData
    simp only [encodeText_append]
    simp only [f1, f2]
  have e3 : emitLayoutData f = emitLayoutData g := by funext s; unfold emitLayoutData; rw [byte hl]
  have e4 : emitScriptData f = emitScriptData g := by funext s; unfold emitScriptData; rw [byte hs]
  have e5 : emitSections p f = emitSections p g := by funext s; unfold emitSections; rw [e1, e2, e3, e4]
  unfold assemble
  rw [e5, hn]

/-- C138: two schemas are compiled to the same file exactly if they agree in these things. -/
theorem compiled_same_iff (p : Profile) (f g : FmpFile) (hf : InRange f) (hg : InRange g) (nf : '/' ∉ f.name) (ng : '/' ∉ g.name)
    (a b : Bytes) (ha : assemble p f = .ok a) (hb : assemble p g = .ok b) :
    a = b ↔ f.name = g.name ∧
      f.tables.map (fun t => (t.1, encodeText t.2.name)) = g.tables.map (fun t => (t.1, encodeText t.2.name)) ∧
      f.tableOccurrences.map (fun o => (o.1, encodeText o.2.name)) = g.tableOccurrences.map (fun o => (o.1, encodeText o.2.name)) ∧
      f.layouts.length % 256 = g.layouts.length % 256 ∧ f.scripts.length % 256 = g.scripts.length % 256 := by
  constructor
  · intro e
    subst e
    obtain ⟨chs, h1, _⟩ := compiled_contents p p f a hf ha
    have r1 := compiled_records p p f a hf ha chs h1
    have r2 := compiled_records p p g a hg hb chs h1
    have r := fun path hp => (r1 path hp).symm.trans (r2 path hp)
    have t1 := r [3, 16, 1, 1] (by simp)
    have t3 := r [3, 16, 1, 3] (by simp)
    have o1 := r [3, 17, 1, 1] (by simp)
    have o3 := r [3, 17, 1, 3] (by simp)
    have l := r [4, 1] (by simp)
    have s := r [17, 1] (by simp)
    simp at t1 t3 o1 o3 l s
    have four : ∀ {a b : Nat}, a < 2 ^ 24 → b < 2 ^ 24 → fourBytes a = fourBytes b → a = b := by
      intro a b h1 h2 h; rw [← fourBytes_eq, ← fourBytes_eq] at h; exact beBytes_inj h1 h2 h
    have byte : ∀ {a b : Nat}, UInt8.ofNat a = UInt8.ofNat b → a % 256 = b % 256 := by
      intro a b h; simpa using congrArg UInt8.toNat h
    refine ⟨?_, map_pair _ _ ?_ ?_, map_pair _ _ ?_ ?_, byte l, byte s⟩
    · have pre : ∀ {f : FmpFile}, assemble p f = .ok a → utf8 f.name ++ [47] <+: a.drop 3082 := by
        intro f h
        have h2 := (assemble_name p f a h).2
        rw [slice_ok] at h2
        rw [utf8_append] at h2
        have e : utf8 ['/'] = [47] := by decide
        rw [e] at h2
        rw [h2.2.2]
        exact List.take_prefix _ _
      exact header_name nf ng (pre ha) (pre hb)
    · exact map_via _ _ (fun t ht u hu e => four (by have := hf.tableIds t ht; omega) (by have := hg.tableIds u hu; omega) (What.longKv.inj e).1) t3
    · exact map_via _ _ (fun t ht u hu e => List.append_cancel_right (What.longKv.inj e).1) t1
    · exact map_via _ _ (fun t ht u hu e => four (hf.occurrenceIds t ht) (hg.occurrenceIds u hu) (What.data.inj e)) o3
    · exact map_via _ _ (fun t ht u hu e => by
        have e := What.data.inj e
        rw [encodeText_append, encodeText_append] at e
        exact List.append_cancel_right e) o1
  · rintro ⟨h1, h2, h3, h4, h5⟩
    rw [compiled_only_names p f g h1 h2 h3 h4 h5, hb] at ha
    cases ha
    rfl

/-- C138: a compiled file says it was made by version 20.1 of FileMaker Pro, whoever compiled it, and names a directory of the
computer on which the template was made. -/
theorem compiled_maker (p q : Profile) (f : FmpFile) (buf : Bytes) (hr : InRange f) (h : assemble p f = .ok buf) (chs : List Chunk)
    (hc : FileReads q buf (nextSector buf 1) 2 chs) :
    What.kv 3 (obscured t!"\"20.1\"") ∈ recordsIn [2] (eventsOf chs) ∧
    ∃ path, What.kv 11 path ∈ recordsIn [2] (eventsOf chs) ∧
      slashed [t!"Macintosh HD", t!"Users", t!"merimak"] <:+: path := by
  rw [compiled_records p q f buf hr h chs hc [2] (by simp), if_pos rfl]
  refine ⟨by decide +kernel, [0, 8, 7] ++ obscured t!"filemac" ++ [98, 65, 50] ++
    slashed [t!"Macintosh HD", t!"Applications", t!"FileMaker Pro.app", t!"Contents", t!"Resources", t!"Installer", t!"Extensions",
      t!"Dictionaries", t!"Vukenglsh.mpr"] ++ [7] ++ obscured t!"filemac" ++ [90, 65, 50] ++
    slashed [t!"Macintosh HD", t!"Users", t!"merimak"] ++
    slashed [t!"Library", t!"Application Support", t!"FileMaker", t!"Extensions", t!"Dictionaries", t!"RUser.upr"], by decide +kernel,
    _, _, rfl⟩

/-- The same schema as `oneTable`, without the field, but with a relationship and a test. -/
def otherTable : FmpFile :=
  { name := t!"s", tables := [(1, { name := t!"PERSON" })], relationships := [(1, {})], valueLists := [(7, {})], tests := [{}] }

/-- C138: the hypotheses are met, and the fields, relationships, value lists and tests of a schema and the case of its names
leave no trace in the file. -/
theorem compiled_determines_schema_refuted (p : Profile) : ∃ f g buf, InRange f ∧ InRange g ∧ f.tables ≠ g.tables ∧
    f.relationships.length ≠ g.relationships.length ∧ assemble p f = .ok buf ∧ assemble p g = .ok buf := by
  obtain ⟨buf, h⟩ := oneTable_assembles p
  refine ⟨oneTable, otherTable, buf, oneTable_inRange, ?_, by simp [oneTable, otherTable], by simp [oneTable, otherTable], h, ?_⟩
  · constructor <;> simp [otherTable]
  · rw [← h]
    exact (compiled_only_names p oneTable otherTable rfl (by decide +kernel) rfl rfl rfl).symm

/-! Property C139: the name in the header. -/

/-- What the header of a file has at the place of the name, up to the end of the header. -/
def nameField (buf : Bytes) : Bytes := (buf.take 4095).drop 3082

theorem nameField_get {p : Profile} {f : FmpFile} {buf : Bytes} (h : assemble p f = .ok buf) (i : Nat) :
    (nameField buf)[i]? = if i < (utf8 f.name).length + 1 then (utf8 f.name ++ [47])[i]? else (headerInit.drop 3082)[i]? := by
  have hl := (assemble_layout p f buf h).1
  have hn := (assemble_name p f buf h).1
  have e : utf8 (f.name ++ ['/']) = utf8 f.name ++ [47] := by rw [utf8_append]; congr 1
  unfold nameField
  rw [List.getElem?_drop, List.getElem?_take, List.getElem?_drop]
  by_cases hi : 3082 + i < 4095
  · rw [if_pos hi, assemble_header h _ hi, e, List.length_append, List.length_singleton, Nat.add_sub_cancel_left]
    by_cases h2 : i < (utf8 f.name).length + 1
    · rw [if_pos h2, if_pos (by omega)]
    · rw [if_neg h2, if_neg (by omega)]
  · rw [if_neg hi, if_neg (by omega), List.getElem?_eq_none (by rw [headerInit_length]; omega)]

theorem nameField_eq {p : Profile} {f : FmpFile} {buf : Bytes} (h : assemble p f = .ok buf) :
    nameField buf = utf8 f.name ++ [47] ++ (headerInit.drop 3082).drop ((utf8 f.name).length + 1) := by
  apply List.ext_getElem?
  intro i
  rw [nameField_get h, List.getElem?_append (l₁ := utf8 f.name ++ [47]), List.length_append, List.length_singleton]
  split
  · rfl
  · rename_i hi
    rw [List.getElem?_drop (i := (utf8 f.name).length + 1)]
    congr 1
    omega

set_option maxRecDepth 20000 in
theorem template_tail : headerInit.drop 3082 = utf8 t!"blank/" ++ [13] ++ List.replicate 999 32 ++ [13] ++ utf8 t!"CR:IFA" := by
  decide +kernel

/-- C139: the header before the name is the same in all compiled files, and ends with `R,`. -/
theorem header_before_name (p : Profile) (f : FmpFile) (buf : Bytes) (h : assemble p f = .ok buf) :
    buf.take 3082 = headerInit.take 3082 ∧ (buf.take 3082).drop 3072 = utf8 t!"EAFI:RC" ++ [13] ++ utf8 t!"R," := by
  have e : buf.take 3082 = headerInit.take 3082 := by
    apply List.ext_getElem?
    intro i
    rw [List.getElem?_take, List.getElem?_take]
    split
    · rw [assemble_header h _ (by omega), if_neg (by omega)]
    · rfl
  rw [e]
  exact ⟨rfl, by decide +kernel⟩

/-- C139: what the header has in place of the name of the template, `blank`: the name and a slash, written over the text `blank/`, the
end of line after it, the 999 spaces and the trailer of the header. -/
theorem header_name_exact (p : Profile) (f : FmpFile) (buf : Bytes) (h : assemble p f = .ok buf) :
    nameField buf = utf8 (f.name ++ ['/']) ++
      (utf8 t!"blank/" ++ [13] ++ List.replicate 999 32 ++ [13] ++ utf8 t!"CR:IFA").drop (utf8 (f.name ++ ['/'])).length := by
  have e : utf8 (f.name ++ ['/']) = utf8 f.name ++ [47] := by rw [utf8_append]; congr 1
  rw [nameField_eq h, template_tail, e, List.length_append, List.length_singleton]

set_option maxRecDepth 20000 in
theorem template_ends : ∀ k, k < 1014 →
    ((utf8 t!"blank/" ++ [13] ++ List.replicate 999 32 ++ [13] ++ utf8 t!"CR:IFA")[k]? = some 13 ↔ k = 6 ∨ k = 1006) := by
  decide +kernel

/-- C139, the part that holds: the name is followed by a slash and the end of line, as in the template, exactly for names of 5 or 1005
bytes. Missing: all other names, for which it is false. -/
theorem header_name_partial (p : Profile) (f : FmpFile) (buf : Bytes) (h : assemble p f = .ok buf) :
    (utf8 f.name ++ [47, 13] <+: nameField buf) ↔ (utf8 f.name).length = 5 ∨ (utf8 f.name).length = 1005 := by
  have hn := (assemble_name p f buf h).1
  rw [nameField_eq h, template_tail, show utf8 f.name ++ [47, 13] = utf8 f.name ++ [47] ++ [13] by simp, List.prefix_append_right_inj]
  have := template_ends ((utf8 f.name).length + 1) (by omega)
  constructor
  · rintro ⟨t, ht⟩
    have e : ([13] ++ t)[0]? = _ := congrArg (fun l : Bytes => l[0]?) ht
    rw [List.getElem?_drop, Nat.add_zero] at e
    have := this.mp e.symm
    omega
  · intro hl
    have e := this.mpr (by omega)
    obtain ⟨e1, e2⟩ := List.getElem?_eq_some_iff.mp e
    exact ⟨_, (congrArg (· :: _) e2.symm).trans (List.drop_eq_getElem_cons e1).symm⟩

/-- C139 is false: in the header of a file named `ab` the name is `ab/nk`. -/
theorem header_name_refuted (p : Profile) : ∃ f buf, assemble p f = .ok buf ∧ utf8 f.name = utf8 t!"ab" ∧
    utf8 t!"ab/nk/" ++ [13] <+: nameField buf ∧ ¬ (utf8 f.name ++ [47, 13] <+: nameField buf) := by
  obtain ⟨buf, h⟩ : ∃ buf, assemble p { name := t!"ab" } = .ok buf := by
    rw [assembles_iff]
    · decide
    · constructor <;> simp
  refine ⟨_, buf, h, rfl, ?_, ?_⟩
  · rw [header_name_exact p _ buf h]
    exact ⟨List.replicate 999 32 ++ [13] ++ utf8 t!"CR:IFA", by decide +kernel⟩
  · rw [header_name_partial p _ buf h]
    decide

/-- The part that holds is met by a name of five bytes. -/
example (p : Profile) : ∃ buf, assemble p { name := t!"hello" } = .ok buf ∧ utf8 t!"hello" ++ [47, 13] <+: nameField buf := by
  obtain ⟨buf, h⟩ : ∃ buf, assemble p { name := t!"hello" } = .ok buf := by
    rw [assembles_iff]
    · decide
    · constructor <;> simp
  exact ⟨buf, h, (header_name_partial p _ buf h).mpr (.inl (by decide))⟩

end BurnFm.Props
