import Verif.Proofs.Assemble
import Verif.Spec.Assemble
import Verif.Props.DbChar

/-! An assembled file as a list of records, and what the decompiler makes of it. -/

namespace BurnFm

def Emits (f : Asm → Res Asm) (rs : List Spec.Record) : Prop := ∀ s, f s = emitRecords s rs

theorem emitRecords_append (s : Asm) (a b : List Spec.Record) :
    emitRecords s (a ++ b) = emitRecords s a >>= fun s => emitRecords s b := by
  unfold emitRecords; rw [List.foldlM_append]

theorem emitRecords_one (s : Asm) (r : Spec.Record) : emitRecords s [r] = emitRecord s r := by
  unfold emitRecords
  rw [List.foldlM_cons]
  cases emitRecord s r <;> rfl

theorem Emits.bind {f g : Asm → Res Asm} {a b : List Spec.Record} (hf : Emits f a) (hg : Emits g b) :
    Emits (fun s => f s >>= g) (a ++ b) := by
  intro s
  dsimp only
  rw [emitRecords_append, hf s]
  congr 1
  funext t
  exact hg t

theorem Emits.pre {α : Type} {r : Res α} {a : α} {g : α → Asm → Res Asm} {rs : List Spec.Record} (hr : r = .ok a)
    (hg : Emits (g a) rs) : Emits (fun s => r >>= fun a => g a s) rs := by
  intro s
  dsimp only
  rw [hr, ok_bind]
  exact hg s

theorem Emits.fold {α : Type} {g : Asm → α → Res Asm} {rs : α → List Spec.Record} (l : List α)
    (hg : ∀ a ∈ l, Emits (fun s => g s a) (rs a)) : Emits (fun s => l.foldlM g s) (l.flatMap rs) := by
  induction l with
  | nil => intro s; rfl
  | cons a l ih =>
    intro s
    dsimp only
    rw [List.foldlM_cons, List.flatMap_cons, emitRecords_append, ← hg a (by simp) s]
    congr 1
    funext t
    exact ih (fun b hb => hg b (by simp [hb])) t

theorem Emits.push (d : Nat) : Emits (fun s => emitPush s (UInt32.ofNat d)) [.push d] := fun s => (emitRecords_one s (.push d)).symm
theorem Emits.pop : Emits emitPop [.pop] := fun s => (emitRecords_one s .pop).symm
theorem Emits.kv (k : UInt8) (v : Bytes) : Emits (fun s => emitKv s k v) [.kv k v] := fun s => (emitRecords_one s (.kv k v)).symm
theorem Emits.kvE (k : Nat) (v : Bytes) : Emits (fun s => emitKvE s (UInt32.ofNat k) v) [.kvE k v] :=
  fun s => (emitRecords_one s (.kvE k v)).symm
theorem Emits.longKv (k v : Bytes) : Emits (fun s => emitLongKv s k v) [.longKv k v] :=
  fun s => (emitRecords_one s (.longKv k v)).symm
theorem Emits.data (v : Bytes) : Emits (fun s => emitData1B s v) [.data v] := fun s => (emitRecords_one s (.data v)).symm

def blobRecords : List Spec.Record :=
  [.push 2] ++ ([.kv 3 initBlob3] ++ ([.kv 5 initBlob5] ++ ([.kv 6 initBlob6] ++ ([.kv 8 initBlob8] ++ ([.kv 9 initBlob9] ++
    ([.kv 11 initBlob11] ++ ([.kv 24 initBlob24] ++ [.pop])))))))

def tableRecords (f : FmpFile) : List Spec.Record :=
  [.push 3] ++ ([.push 16] ++ ([.push 1] ++ ([.push 1] ++
  (f.tables.flatMap (fun t => [.longKv (encodeText t.2.name ++ [0, 0, 0]) [2, 128, UInt8.ofNat t.1]]) ++ ([.pop] ++ ([.push 3] ++
  (f.tables.flatMap (fun t => [.longKv (beBytes t.1) (beBytes t.1)]) ++ ([.pop] ++
  ([.kv 4 (beBytes f.tables.length)] ++ ([.kv 216 (fmStringEncrypt t!"hello")] ++ ([.kvE 129 [59, 62, 55, 51, 52]] ++
  ([.kvE 130 [59, 62, 55, 51, 52]] ++ ([.push 5] ++
  (f.tables.flatMap (fun t => [.push (128 + t.1)] ++ [.pop]) ++ ([.pop] ++ ([.pop] ++ [.pop]))))))))))))))))

def occurrenceRecords (f : FmpFile) : List Spec.Record :=
  [.push 17] ++ ([.push 1] ++ ([.kv 0 [3, 208, 0, 9]] ++ ([.push 1] ++
  (f.tableOccurrences.flatMap (fun t => [.data (encodeText (t.2.name ++ ['\x00', '\x00']))]) ++ ([.pop] ++ ([.push 3] ++
  (f.tableOccurrences.flatMap (fun t => [.data (beBytes t.1)]) ++ ([.pop] ++ ([.push 8] ++ ([.pop] ++ ([.pop] ++
  ([.pop] ++ [.pop]))))))))))))

def layoutRecords (f : FmpFile) : List Spec.Record :=
  [.push 4] ++ ([.push 1] ++ ([.kv 0 [1, UInt8.ofNat f.layouts.length]] ++ ([.push 5] ++ ([.pop] ++ ([.pop] ++ [.pop])))))

def scriptRecords (f : FmpFile) : List Spec.Record :=
  [.push 17] ++ ([.push 1] ++ ([.kv 0 [1, UInt8.ofNat f.scripts.length]] ++ ([.push 1] ++ ([.pop] ++ ([.pop] ++ [.pop])))))

def dirRecords (d : Nat) : List Spec.Record := [.push d] ++ [.pop]

def fileRecords (f : FmpFile) : List Spec.Record :=
  blobRecords ++ (tableRecords f ++ (occurrenceRecords f ++ (layoutRecords f ++ (dirRecords 6 ++ (scriptRecords f ++
    (dirRecords 23 ++ (dirRecords 6 ++ (dirRecords 25 ++ dirRecords 65))))))))

theorem putInt_small (p : Profile) {n : Nat} (h : n < 2 ^ 24) : putInt p n = .ok (beBytes n) := by
  cases p
  · rw [putInt_debug, if_pos (by omega)]
    unfold beBytes
    congr 2
    · rw [show n / 2 ^ 24 = 0 by omega]
    · congr 1
      congr 1
      · apply UInt8.toNat_inj.mp; simp only [UInt8.toNat_ofNat']; omega
      · congr 1; apply UInt8.toNat_inj.mp; simp only [UInt8.toNat_ofNat']; omega
  · rw [putInt_release, if_pos (by omega)]
    unfold beBytes
    congr 2
    congr 1
    · apply UInt8.toNat_inj.mp; simp only [UInt8.toNat_ofNat']; omega
    · congr 1
      · apply UInt8.toNat_inj.mp; simp only [UInt8.toNat_ofNat']; omega
      · congr 1; apply UInt8.toNat_inj.mp; simp only [UInt8.toNat_ofNat']; omega

theorem tableDir_small (p : Profile) {n : Nat} (h : n < 256) : tableDir p n = .ok (UInt32.ofNat (128 + n)) := by
  unfold tableDir
  dsimp only
  rw [if_pos (by rw [UInt32.toNat_ofNat']; omega)]
  congr 1
  apply UInt32.toNat_inj.mp
  simp only [UInt32.toNat_add, UInt32.toNat_ofNat']
  simp

theorem emits_blobs : Emits emitInitBlobs blobRecords := by
  unfold emitInitBlobs blobRecords
  exact .bind (.push 2) (.bind (.kv _ _) (.bind (.kv _ _) (.bind (.kv _ _) (.bind (.kv _ _) (.bind (.kv _ _)
    (.bind (.kv _ _) (.bind (.kv _ _) .pop)))))))

theorem emits_tables (p : Profile) (f : FmpFile) (h : Spec.InRange f) : Emits (emitTableMetadata p f) (tableRecords f) := by
  unfold emitTableMetadata tableRecords
  exact .bind (.push 3) (.bind (.push 16) (.bind (.push 1) (.bind (.push 1)
    (.bind (.fold _ (fun _ _ => .longKv _ _)) (.bind .pop (.bind (.push 3)
    (.bind (.fold _ (fun t ht => .pre (putInt_small p (by have := h.tableIds t ht; omega)) (.longKv _ _))) (.bind .pop
    (.pre (putInt_small p h.tableCount)
    (.bind (.kv _ _) (.bind (.kv _ _) (.bind (.kvE 129 _) (.bind (.kvE 130 _) (.bind (.push 5)
    (.bind (.fold _ (fun t ht => .pre (tableDir_small p (h.tableIds t ht)) (.bind (.push _) .pop))) (.bind .pop (.bind .pop .pop)))))))))))))))))

theorem emits_occurrences (p : Profile) (f : FmpFile) (h : Spec.InRange f) : Emits (emitRelationshipData p f) (occurrenceRecords f) := by
  unfold emitRelationshipData occurrenceRecords
  exact .bind (.push 17) (.bind (.push 1) (.bind (.kv _ _) (.bind (.push 1)
    (.bind (.fold _ (fun _ _ => .data _)) (.bind .pop (.bind (.push 3)
    (.bind (.fold _ (fun t ht => .pre (putInt_small p (h.occurrenceIds t ht)) (.data _))) (.bind .pop (.bind (.push 8) (.bind .pop (.bind .pop
      (.bind .pop .pop))))))))))))

theorem emits_dir (d : Nat) : Emits (emitEmptyDir (UInt32.ofNat d)) (dirRecords d) := .bind (.push d) .pop

/-- The chunks of an assembled file are the no-op and the records of the schema. -/
theorem emitSections_eq (p : Profile) (f : FmpFile) (h : Spec.InRange f) (s : Asm) :
    emitSections p f s = emitNoop s >>= fun s => emitRecords s (fileRecords f) := by
  unfold emitSections
  congr 1
  funext t
  exact Emits.bind emits_blobs (.bind (emits_tables p f h) (.bind (emits_occurrences p f h)
    (.bind (.bind (.push 4) (.bind (.push 1) (.bind (.kv _ _) (.bind (.push 5) (.bind .pop (.bind .pop .pop))))))
    (.bind (emits_dir 6)
    (.bind (.bind (.push 17) (.bind (.push 1) (.bind (.kv _ _) (.bind (.push 1) (.bind .pop (.bind .pop .pop))))))
    (.bind (emits_dir 23) (.bind (emits_dir 6) (.bind (emits_dir 25) (emits_dir 65))))))))) t

/-- Representable records in directories the decompiler ignores. -/
def Quiet : DirPath → List Spec.Record → DirPath → Prop
  | path, [], path' => path = path'
  | path, r :: rs, path' => Spec.Representable r ∧ classify (Spec.finalPath path [r]) = .other ∧ Quiet (Spec.finalPath path [r]) rs path'

theorem Quiet.append {path path' path'' : DirPath} {a b : List Spec.Record} (h1 : Quiet path a path') (h2 : Quiet path' b path'') :
    Quiet path (a ++ b) path'' := by
  induction a generalizing path with
  | nil => cases h1; exact h2
  | cons r a ih => exact ⟨h1.1, h1.2.1, ih h1.2.2⟩

theorem Quiet.fold {α : Type} {path : DirPath} {rs : α → List Spec.Record} (l : List α) (h : ∀ a ∈ l, Quiet path (rs a) path) :
    Quiet path (l.flatMap rs) path := by
  induction l with
  | nil => rfl
  | cons a l ih => rw [List.flatMap_cons]; exact (h a (by simp)).append (ih (fun b hb => h b (by simp [hb])))

theorem Quiet.spec {path path' : DirPath} {rs : List Spec.Record} (h : Quiet path rs path') :
    (∀ r ∈ rs, Spec.Representable r) ∧ Spec.finalPath path rs = path' ∧ ∀ e ∈ Spec.events path rs, classify e.path = .other := by
  induction rs generalizing path with
  | nil => cases h; exact ⟨by simp, rfl, by simp [Spec.events]⟩
  | cons r rs ih =>
    obtain ⟨h1, h2, h3⟩ := h
    obtain ⟨i1, i2, i3⟩ := ih h3
    refine ⟨?_, by rw [finalPath_append, i2], ?_⟩
    · intro x hx
      rcases List.mem_cons.mp hx with rfl | hx
      · exact h1
      · exact i1 x hx
    · intro e he
      rw [events_append] at he
      rcases List.mem_append.mp he with he | he
      · have : e.path = Spec.finalPath path [r] := by
          cases r <;> simp [Spec.events] at he <;> subst he <;> rfl
        rw [this]; exact h2
      · exact i3 e he

theorem quiet_one {path path' : DirPath} {r : Spec.Record} (h : Spec.Representable r) (h2 : Spec.finalPath path [r] = path')
    (h3 : classify path' = .other) : Quiet path [r] path' := by
  subst h2
  exact ⟨h, h3, rfl⟩

theorem quiet_push (path : DirPath) (d : Nat) (hd : d < 384) (h : classify (path ++ [d]) = .other) : Quiet path [.push d] (path ++ [d]) :=
  quiet_one hd rfl h
theorem quiet_pop (path : DirPath) (h : classify path.dropLast = .other) : Quiet path [.pop] path.dropLast := quiet_one trivial rfl h

set_option maxRecDepth 20000 in
theorem quiet_blobs : Quiet [] blobRecords [] := by
  have k : ∀ (key : UInt8) (v : Bytes), Spec.KvLen key v.length → Quiet [2] [.kv key v] [2] := fun key v h => quiet_one h rfl rfl
  exact (quiet_push [] 2 (by decide) rfl).append ((k _ _ (by decide)).append ((k _ _ (by decide)).append ((k _ _ (by decide)).append
    ((k _ _ (by decide)).append ((k _ _ (by decide)).append ((k _ _ (by decide)).append ((k _ _ (by decide)).append (quiet_pop [2] rfl))))))))

theorem quiet_tables (f : FmpFile) (h : Spec.InRange f) : Quiet [] (tableRecords f) [3] := by
  have be : ∀ n, (beBytes n).length = 4 := fun _ => rfl
  refine (quiet_push [] 3 (by decide) rfl).append ((quiet_push [3] 16 (by decide) rfl).append ((quiet_push [3, 16] 1 (by decide) rfl).append
    ((quiet_push [3, 16, 1] 1 (by decide) rfl).append (.append (.fold _ fun t ht => quiet_one ?_ rfl rfl) ((quiet_pop [3, 16, 1, 1] rfl).append
    ((quiet_push [3, 16, 1] 3 (by decide) rfl).append (.append (.fold _ fun t ht => quiet_one ?_ rfl rfl)
    ((quiet_pop [3, 16, 1, 3] rfl).append (.append (quiet_one (path' := [3, 16, 1]) ?_ rfl rfl) (.append (quiet_one (path' := [3, 16, 1]) ?_ rfl rfl)
    (.append (quiet_one (path' := [3, 16, 1]) ?_ rfl rfl) (.append (quiet_one (path' := [3, 16, 1]) ?_ rfl rfl)
    ((quiet_push [3, 16, 1] 5 (by decide) rfl).append (.append (.fold _ fun t ht => .append (quiet_push [3, 16, 1, 5] (128 + t.1) ?_ ?_) (quiet_pop ([3, 16, 1, 5] ++ [128 + t.1]) rfl))
    ((quiet_pop [3, 16, 1, 5] rfl).append ((quiet_pop [3, 16, 1] rfl).append (quiet_pop [3, 16] rfl)))))))))))))))))
  · have := h.tableNames t ht
    refine ⟨?_, by simp⟩
    rw [List.length_append, Props.encode_text_length]
    simp; omega
  · exact ⟨by rw [be]; omega, by rw [be]; omega⟩
  · exact (by decide : Spec.KvLen 4 4)
  · unfold Spec.Representable Spec.KvLen
    decide
  · exact ⟨by decide, by decide, by decide⟩
  · exact ⟨by decide, by decide, by decide⟩
  · have := h.tableIds t ht; omega
  · simp [classify]

theorem quiet_occurrences (f : FmpFile) (h : Spec.InRange f) : Quiet [3] (occurrenceRecords f) [] := by
  have be : ∀ n, (beBytes n).length = 4 := fun _ => rfl
  refine (quiet_push [3] 17 (by decide) rfl).append ((quiet_push [3, 17] 1 (by decide) rfl).append (.append (quiet_one (path' := [3, 17, 1]) ?_ rfl rfl)
    ((quiet_push [3, 17, 1] 1 (by decide) rfl).append (.append (.fold _ fun t ht => quiet_one ?_ rfl rfl) ((quiet_pop [3, 17, 1, 1] rfl).append
    ((quiet_push [3, 17, 1] 3 (by decide) rfl).append (.append (.fold _ fun t ht => quiet_one ?_ rfl rfl)
    ((quiet_pop [3, 17, 1, 3] rfl).append ((quiet_push [3, 17, 1] 8 (by decide) rfl).append ((quiet_pop [3, 17, 1, 8] rfl).append
    ((quiet_pop [3, 17, 1] rfl).append ((quiet_pop [3, 17] rfl).append (quiet_pop [3] rfl)))))))))))))
  · exact (by decide : Spec.KvLen 0 4)
  · have := h.occurrenceNames t ht
    show 1 ≤ (encodeText _).length ∧ (encodeText _).length ≤ 255
    rw [Props.encode_text_length, List.length_append]
    simp; omega
  · exact ⟨by rw [be]; omega, by rw [be]; omega⟩

theorem quiet_dir (d : Nat) (hd : d < 384) (h : classify ([] ++ [d]) = .other) : Quiet [] (dirRecords d) [] :=
  (quiet_push [] d hd h).append (quiet_pop _ rfl)

theorem quiet_layouts (f : FmpFile) : Quiet [] (layoutRecords f) [] :=
  (quiet_push [] 4 (by decide) rfl).append ((quiet_push [4] 1 (by decide) rfl).append (.append (quiet_one (path' := [4, 1]) (by decide : Spec.KvLen 0 2) rfl rfl)
    ((quiet_push [4, 1] 5 (by decide) rfl).append ((quiet_pop [4, 1, 5] rfl).append ((quiet_pop [4, 1] rfl).append (quiet_pop [4] rfl))))))

theorem quiet_scripts (f : FmpFile) : Quiet [] (scriptRecords f) [] :=
  (quiet_push [] 17 (by decide) rfl).append ((quiet_push [17] 1 (by decide) rfl).append (.append (quiet_one (path' := [17, 1]) (by decide : Spec.KvLen 0 2) rfl rfl)
    ((quiet_push [17, 1] 1 (by decide) rfl).append ((quiet_pop [17, 1, 1] rfl).append ((quiet_pop [17, 1] rfl).append (quiet_pop [17] rfl))))))

theorem quiet_file (f : FmpFile) (h : Spec.InRange f) : Quiet [] (fileRecords f) [] :=
  quiet_blobs.append ((quiet_tables f h).append ((quiet_occurrences f h).append ((quiet_layouts f).append ((quiet_dir 6 (by decide) rfl).append
    ((quiet_scripts f).append ((quiet_dir 23 (by decide) rfl).append ((quiet_dir 6 (by decide) rfl).append ((quiet_dir 25 (by decide) rfl).append
      (quiet_dir 65 (by decide) rfl)))))))))

theorem take_eq_of_get {a b : Bytes} {n : Nat} (h : ∀ i : Nat, i < n → a[i]? = b[i]?) : a.take n = b.take n := by
  apply List.ext_getElem?
  intro i
  rw [List.getElem?_take, List.getElem?_take]
  split
  · exact h i (by omega)
  · rfl

theorem emitRecords_end {rs : List Spec.Record} {s t : Asm} (h : emitRecords s (rs ++ [.pop]) = .ok t) : t.idx ≤ t.buf.length := by
  rw [emitRecords_append, bind_ok] at h
  obtain ⟨u, _, h2⟩ := h
  rw [emitRecords_one, emitRecord_eq] at h2
  have := write_length h2
  simp only [encRecord, gapRecord] at this
  omega

theorem eventsOf_cat (a b : List Chunk) : eventsOf (a ++ b) = eventsOf a ++ eventsOf b := by
  unfold eventsOf; rw [List.filterMap_append]

theorem eventsOf_fill {chs : List Chunk} (h : ∀ ch ∈ chs, ch.path = [] ∧ meaning ch = some (.data [])) :
    eventsOf chs = List.replicate chs.length ⟨[], .data []⟩ := by
  induction chs with
  | nil => rfl
  | cons c cs ih =>
    unfold eventsOf at ih ⊢
    rw [List.filterMap_cons, (h c (by simp)).2, (h c (by simp)).1, ih (fun ch hc => h ch (by simp [hc]))]
    rfl

/-- An assembled file reads as the records of the schema and empty data, in directories the decompiler ignores. -/
theorem assemble_reads_records {p q : Profile} {f : FmpFile} {buf : Bytes} (hr : Spec.InRange f) (h : assemble p f = .ok buf) :
    ∃ chs, FileReads q buf (Spec.nextSector buf 1) 2 chs ∧ (∀ ch ∈ chs, classify ch.path = .other) ∧
      ∃ n, eventsOf chs = Spec.events [] (fileRecords f) ++ List.replicate n ⟨[], .data []⟩ := by
  obtain ⟨s, t, h1, h2, h3, h4, h5, h6, h7, h8, h9, h10, h11, h12, _⟩ := assemble_spec h
  obtain ⟨u, g1, g2⟩ := bind_ok.mp ((emitSections_eq p f hr s).symm.trans h1)
  obtain ⟨q1, q2, q3⟩ := (quiet_file f hr).spec
  rw [emitNoop_eq] at g1
  obtain ⟨k1, k2, k3⟩ := write_length g1
  have kg := fun i => write_get g1 i
  simp only [List.length_cons, List.length_nil] at k2 kg
  obtain ⟨f1, f2, f3⟩ := emitRecords_frame g2
  have fa := emitRecords_after g2
  have hend : t.idx ≤ 12287 := by
    have : fileRecords f = (blobRecords ++ (tableRecords f ++ (occurrenceRecords f ++ (layoutRecords f ++ (dirRecords 6 ++ (scriptRecords f ++
      (dirRecords 23 ++ (dirRecords 6 ++ (dirRecords 25 ++ [.push 65]))))))))) ++ [.pop] := by
      simp [fileRecords, dirRecords]
    rw [this] at g2
    have := emitRecords_end g2
    omega
  obtain ⟨chs, d1, d2, d3⟩ := emitRecords_decodes q 8192 q1 [] buf g2 (take_eq_of_get fun i hi => h6 i (by omega))
  rw [q2] at d1
  have hu : u.idx = 8213 := by omega
  have hnoop : buf[8212]? = some 0x80 := by
    have e1 : u.buf[8212]? = some 0x80 := by rw [kg, if_neg (by omega), if_pos (by omega), h2]; rfl
    have e2 : (t.buf.take u.idx)[8212]? = (u.buf.take u.idx)[8212]? := by rw [f1]
    rw [List.getElem?_take_of_lt (by omega), List.getElem?_take_of_lt (by omega)] at e2
    rw [h6 _ (by omega), e2, e1]
  obtain ⟨c0, n1, n2, n3⟩ : ∃ ch, getChunk q buf 8212 [] 8192 = .ok (.ok ch 8213 []) ∧ ch.path = [] ∧ meaning ch = none := by
    have hb : chunkBody buf 8212 (stripDelay 0x80) = .ok (some { ctype := .noop, off := 8213 }) := rfl
    exact ⟨_, by rw [getChunk_of_body hnoop hb]; rfl, rfl, rfl⟩
  have z2 : ∀ i : Nat, t.idx ≤ i → i < 12288 → buf[i]? = some 0 := by
    intro i hi hi2
    by_cases e : i < 12287
    · rw [h6 i e, fa i hi, kg, if_neg (by omega), if_neg (by omega), h7 i (by omega) e]
    · exact h8 i (by omega) (by omega) (by omega)
  obtain ⟨chs2, r1, r2⟩ := readsTo_zeros (p := q) (buf := buf) (loc := 8192) (bound := 12288) (by omega) 12288 t.idx []
    (by omega) (fun k hk => z2 _ (by omega) hk)
  have d1' : Decodes q buf 8192 8212 [] (c0 :: chs) t.idx [] := .cons n1 (by omega) (hu ▸ d1)
  have s2 := d1'.readsTo (bound := 12288) (by omega) r1
  obtain ⟨chs3, r3, r4⟩ := readsTo_zeros (p := q) (buf := buf) (loc := 12288) (bound := 16384) (by omega) 2038 12308 []
    (by omega) (fun k hk => h8 _ (by omega) (by omega) (by omega))
  obtain ⟨chs4, r5, r6⟩ := readsTo_zeros (p := q) (buf := buf) (loc := 16384) (bound := 20480) (by omega) 2038 16404 []
    (by omega) (fun k hk => h8 _ (by omega) (by omega) (by omega))
  have n1' : Spec.nextSector buf 1 = 4 := h9
  have n2' : Spec.nextSector buf 2 = 3 := h10
  have n3' : Spec.nextSector buf 3 = 4 := h11
  have n4' : Spec.nextSector buf 4 = 0 := h12
  rw [n1']
  refine ⟨(c0 :: chs ++ chs2) ++ (chs3 ++ (chs4 ++ [])), .sector (by omega) (by omega) (by omega) s2 ?_, ?_, chs2.length + chs3.length + chs4.length, ?_⟩
  · rw [n2']
    refine .sector (by omega) (by omega) (by omega) r3 ?_
    rw [n3']
    refine .sector (by omega) (by omega) (by omega) r5 ?_
    rw [n4']
    exact .done
  · intro ch hch
    simp only [List.mem_append, List.mem_cons, List.not_mem_nil, or_false] at hch
    rcases hch with ((rfl | hch) | hch) | hch | hch
    · rw [n2]; rfl
    · obtain ⟨⟨e, e1, e2⟩, _⟩ := d3 ch hch
      rw [← e2]; exact q3 e e1
    · rw [(r2 ch hch).1]; rfl
    · rw [(r4 ch hch).1]; rfl
    · rw [(r6 ch hch).1]; rfl
  · have e0 : eventsOf (c0 :: chs) = eventsOf chs := by unfold eventsOf; rw [List.filterMap_cons, n3]; rfl
    rw [List.append_nil, eventsOf_cat, eventsOf_cat, eventsOf_cat, e0, d2, eventsOf_fill r2, eventsOf_fill r4, eventsOf_fill r6,
      List.append_assoc, List.replicate_append_replicate, List.replicate_append_replicate, Nat.add_assoc]

/-- An assembled file reads as chunks in directories the decompiler ignores. -/
theorem assemble_reads {p q : Profile} {f : FmpFile} {buf : Bytes} (hr : Spec.InRange f) (h : assemble p f = .ok buf) :
    ∃ chs, FileReads q buf (Spec.nextSector buf 1) 2 chs ∧ ∀ ch ∈ chs, classify ch.path = .other := by
  obtain ⟨chs, h1, h2, _⟩ := assemble_reads_records (q := q) hr h
  exact ⟨chs, h1, h2⟩

theorem emitRecords_fits (rs : List Spec.Record) : ∀ (s : Asm), s.idx + (rs.map fun r => (encRecord r).length + gapRecord r).sum ≤ s.buf.length →
    ∃ t, emitRecords s rs = .ok t ∧ t.buf.length = s.buf.length := by
  induction rs with
  | nil => intro s _; exact ⟨s, rfl, rfl⟩
  | cons r rs ih =>
    intro s h
    simp only [List.map_cons, List.sum_cons] at h
    obtain ⟨u, hu⟩ : ∃ u, s.write (encRecord r) (gapRecord r) = .ok u := by
      unfold Asm.write; rw [if_pos (by omega)]; exact ⟨_, rfl⟩
    have hl := write_length hu
    obtain ⟨t, h1, h2⟩ := ih u (by omega)
    refine ⟨t, ?_, by omega⟩
    unfold emitRecords at h1 ⊢
    rw [List.foldlM_cons, emitRecord_eq, hu, ok_bind, h1]

theorem blank_ok (p : Profile) (s : Asm) (n : Nat) : ∃ t u, appendBlank p s = .ok t ∧ setNext n t = .ok u := by
  have hl : (s.buf ++ List.replicate 4096 0).length = s.buf.length + 4096 := by rw [List.length_append, List.length_replicate]
  have hbe : (beBytes n).length = 4 := rfl
  refine ⟨⟨s.buf.length + 1, s.buf ++ List.replicate 4096 0⟩, ?_⟩
  unfold appendBlank setNext Asm.splice usub
  dsimp only
  rw [if_pos (by omega), if_pos (by omega), ok_bind]
  refine ⟨_, ?_, rfl⟩
  rw [show s.buf.length + 1 = (s.buf ++ List.replicate 4096 0).length - 4095 by omega]
  rfl

/-- A schema small enough assembles. -/
theorem assemble_fits (p : Profile) (f : FmpFile) (h : Spec.InRange f) (hn : (utf8 (f.name ++ ['/'])).length ≤ 1013)
    (hs : ((fileRecords f).map fun r => (encRecord r).length + gapRecord r).sum ≤ 4074) : ∃ buf, assemble p f = .ok buf := by
  have hl := headerInit_length
  obtain ⟨s0, e0⟩ : ∃ s0, Asm.splice { idx := 3082, buf := headerInit } (utf8 (f.name ++ ['/'])) = .ok s0 := by
    unfold Asm.splice; dsimp only; rw [if_pos (by omega)]; exact ⟨_, rfl⟩
  obtain ⟨l0, _⟩ := write_length ((splice_eq _ _).symm.trans e0)
  dsimp only at l0
  obtain ⟨s1, s2, e1, e2⟩ := blank_ok p s0 4
  obtain ⟨a1, a2, _⟩ := blank_spec e1 e2
  obtain ⟨s3, s4, e3, e4⟩ := blank_ok p s2 3
  obtain ⟨b1, b2, _⟩ := blank_spec e3 e4
  obtain ⟨s5, e5⟩ : ∃ s5, emitSections p f { s4 with idx := s4.idx + 20 } = .ok s5 := by
    rw [emitSections_eq p f h, emitNoop_eq]
    obtain ⟨u, hu⟩ : ∃ u, Asm.write { s4 with idx := s4.idx + 20 } [0x80] 0 = .ok u := by
      unfold Asm.write; dsimp only; rw [if_pos (by simp; omega)]; exact ⟨_, rfl⟩
    have hl := write_length hu
    simp only [List.length_cons, List.length_nil] at hl
    obtain ⟨t, h1, h2⟩ := emitRecords_fits (fileRecords f) u (by omega)
    exact ⟨t, by rw [hu, ok_bind, h1]⟩
  obtain ⟨s6, s7, e6, e7⟩ := blank_ok p s5 4
  obtain ⟨s8, s9, e8, e9⟩ := blank_ok p { s7 with idx := s7.idx + 20 } 0
  refine ⟨s9.buf, ?_⟩
  unfold assemble
  dsimp only
  rw [e0, ok_bind, e1, ok_bind, e2, ok_bind, e3, ok_bind, e4, ok_bind, e5, ok_bind, e6, ok_bind, e7, ok_bind, e8, ok_bind, e9, ok_bind]
  rfl

theorem emitRecords_size {rs : List Spec.Record} : ∀ {s t : Asm}, emitRecords s rs = .ok t →
    t.idx = s.idx + (rs.map fun r => (encRecord r).length + gapRecord r).sum ∧ t.buf.length = s.buf.length := by
  induction rs with
  | nil => intro s t h; cases h; exact ⟨rfl, rfl⟩
  | cons r rs ih =>
    intro s t h
    unfold emitRecords at h
    rw [List.foldlM_cons, emitRecord_eq] at h
    obtain ⟨u, h1, h⟩ := bind_ok.mp h
    obtain ⟨l1, l2, l3⟩ := write_length h1
    obtain ⟨i1, i2⟩ := ih (s := u) (t := t) h
    simp only [List.map_cons, List.sum_cons]
    omega

/-- Records that end in one without a gap are written only if they fit. -/
theorem emitRecords_room {rs : List Spec.Record} {r : Spec.Record} (hg : gapRecord r = 0) {s t : Asm}
    (h : emitRecords s (rs ++ [r]) = .ok t) :
    s.idx + ((rs ++ [r]).map fun r => (encRecord r).length + gapRecord r).sum ≤ s.buf.length := by
  unfold emitRecords at h
  rw [List.foldlM_append] at h
  obtain ⟨u, h1, h⟩ := bind_ok.mp h
  obtain ⟨i1, i2⟩ := emitRecords_size h1
  rw [List.foldlM_cons, emitRecord_eq] at h
  obtain ⟨v, h2, _⟩ := bind_ok.mp h
  obtain ⟨l1, l2, l3⟩ := write_length h2
  simp only [List.map_append, List.sum_append, List.map_cons, List.map_nil, List.sum_cons, List.sum_nil, hg]
  omega

/-- The bytes a list of records takes. -/
def recSize (rs : List Spec.Record) : Nat := (rs.map fun r => (encRecord r).length + gapRecord r).sum

theorem recSize_append (a b : List Spec.Record) : recSize (a ++ b) = recSize a + recSize b := by
  simp [recSize]

theorem recSize_fold {α : Type} (l : List α) (g : α → List Spec.Record) (n : α → Nat) (h : ∀ a ∈ l, recSize (g a) = n a) :
    recSize (l.flatMap g) = (l.map n).sum := by
  induction l with
  | nil => rfl
  | cons a l ih =>
    rw [List.flatMap_cons, recSize_append, ih (fun b hb => h b (by simp [hb])), h a (by simp), List.map_cons, List.sum_cons]

theorem sum_add {α : Type} (l : List α) (a b : α → Nat) : (l.map a).sum + (l.map b).sum = (l.map fun x => a x + b x).sum := by
  induction l with
  | nil => rfl
  | cons x l ih => simp only [List.map_cons, List.sum_cons]; omega

theorem encodeText_length (s : Str) : (encodeText s).length = 2 * s.length := by
  induction s with
  | nil => rfl
  | cons c s ih => rw [encodeText, List.flatMap_cons, List.length_append, ← encodeText, ih]; simp; omega

theorem tableRecords_size (f : FmpFile) (h : Spec.InRange f) :
    recSize (tableRecords f) = 55 + (f.tables.map fun t => 25 + 2 * t.2.name.length).sum := by
  have e1 := recSize_fold f.tables (fun t => [.longKv (encodeText t.2.name ++ [0, 0, 0]) [2, 128, UInt8.ofNat t.1]])
    (fun t => 9 + 2 * t.2.name.length) (by
      intro t _
      simp [recSize, encRecord, gapRecord, encLongKv, encodeText_length]; omega)
  have e2 := recSize_fold f.tables (fun t => [.longKv (beBytes t.1) (beBytes t.1)]) (fun _ => 11) (by
      intro t _
      simp [recSize, encRecord, gapRecord, encLongKv, beBytes])
  have e3 := recSize_fold f.tables (fun t => [.push (128 + t.1)] ++ [.pop]) (fun _ => 5) (by
      intro t ht
      have := h.tableIds t ht
      have hp : (encPush (UInt32.ofNat (128 + t.1))).length = 4 := by
        rw [encPush, putPathInt_mid (show 128 ≤ 128 + t.1 by omega) (by omega)]; rfl
      simp only [recSize, List.map_cons, List.map_nil, List.sum_cons, List.sum_nil, encRecord, gapRecord, hp, List.cons_append, List.nil_append]
      rfl)
  have k4 : recSize [.kv 4 (beBytes f.tables.length)] = 6 := by
    simp [recSize, encRecord, gapRecord, encKv, calcSmallKvIns, beBytes]
  have t1 : (f.tables.map fun t => 9 + 2 * t.2.name.length).sum + (f.tables.map fun _ => 11).sum + (f.tables.map fun _ => 5).sum =
      (f.tables.map fun t => 25 + 2 * t.2.name.length).sum := by
    rw [sum_add, sum_add]
    congr 1
    apply List.map_congr_left
    intro x _; omega
  rw [← t1]
  unfold tableRecords
  simp only [recSize_append (_ :: []), recSize_append (List.flatMap _ _), e1, e2, e3, k4,
    show recSize [.push 3] = 3 by decide, show recSize [.push 16] = 3 by decide,
    show recSize [.push 1] = 3 by decide, show recSize [.push 5] = 3 by decide, show recSize [.pop] = 1 by decide,
    show recSize [.kv 216 (fmStringEncrypt t!"hello")] = 8 by decide, show recSize [.kvE 129 [59, 62, 55, 51, 52]] = 9 by decide,
    show recSize [.kvE 130 [59, 62, 55, 51, 52]] = 9 by decide]
  omega

theorem occurrenceRecords_size (f : FmpFile) :
    recSize (occurrenceRecords f) = 27 + (f.tableOccurrences.map fun o => 20 + 2 * o.2.name.length).sum := by
  have e1 := recSize_fold f.tableOccurrences (fun t => [.data (encodeText (t.2.name ++ ['\x00', '\x00']))])
    (fun t => 10 + 2 * t.2.name.length) (by
      intro t _
      simp [recSize, encRecord, gapRecord, encData1B, encodeText_length]; omega)
  have e2 := recSize_fold f.tableOccurrences (fun t => [.data (beBytes t.1)]) (fun _ => 10) (by
      intro t _
      simp [recSize, encRecord, gapRecord, encData1B, beBytes])
  have t1 : (f.tableOccurrences.map fun t => 10 + 2 * t.2.name.length).sum + (f.tableOccurrences.map fun _ => 10).sum =
      (f.tableOccurrences.map fun t => 20 + 2 * t.2.name.length).sum := by
    rw [sum_add]
    congr 1
    apply List.map_congr_left
    intro x _; omega
  rw [← t1]
  unfold occurrenceRecords
  simp only [recSize_append (_ :: []), recSize_append (List.flatMap _ _), e1, e2,
    show recSize [.push 17] = 3 by decide, show recSize [.push 3] = 3 by decide,
    show recSize [.push 1] = 3 by decide, show recSize [.push 8] = 3 by decide, show recSize [.pop] = 1 by decide,
    show recSize [.kv 0 [3, 208, 0, 9]] = 6 by decide]
  omega

/-- The size of the records of a schema. -/
theorem fileRecords_size (f : FmpFile) (h : Spec.InRange f) : recSize (fileRecords f) =
      825 + (f.tables.map fun t => 25 + 2 * t.2.name.length).sum +
        (f.tableOccurrences.map fun o => 20 + 2 * o.2.name.length).sum := by
  have k0 : ∀ x : UInt8, recSize [.kv 0 [1, x]] = 4 := by
    intro x
    simp [recSize, encRecord, gapRecord, encKv, calcSmallKvIns]
  have b : recSize blobRecords = 691 := by decide +kernel
  have l1 : recSize (layoutRecords f) = 16 := by
    unfold layoutRecords
    simp only [recSize_append (_ :: []), k0, show recSize [.push 4] = 3 by decide, show recSize [.push 1] = 3 by decide,
      show recSize [.push 5] = 3 by decide, show recSize [.pop] = 1 by decide]
  have s1 : recSize (scriptRecords f) = 16 := by
    unfold scriptRecords
    simp only [recSize_append (_ :: []), k0, show recSize [.push 17] = 3 by decide, show recSize [.push 1] = 3 by decide,
      show recSize [.push 5] = 3 by decide, show recSize [.pop] = 1 by decide]
  unfold fileRecords
  rw [recSize_append, recSize_append, recSize_append, recSize_append, recSize_append, recSize_append, recSize_append,
    recSize_append, recSize_append, b, tableRecords_size f h, occurrenceRecords_size, l1, s1,
    show recSize (dirRecords 6) = 4 by decide, show recSize (dirRecords 23) = 4 by decide,
    show recSize (dirRecords 25) = 4 by decide, show recSize (dirRecords 65) = 4 by decide]
  omega

/-- Exactly the schemas that fit assemble. -/
theorem assemble_fits_iff (p : Profile) (f : FmpFile) (h : Spec.InRange f) : (∃ buf, assemble p f = .ok buf) ↔
    (utf8 (f.name ++ ['/'])).length ≤ 1013 ∧ recSize (fileRecords f) ≤ 4074 := by
  refine ⟨?_, fun ⟨h1, h2⟩ => assemble_fits p f h h1 h2⟩
  rintro ⟨buf, hb⟩
  have hl := headerInit_length
  unfold assemble at hb
  dsimp only at hb
  obtain ⟨s0, e0, hb⟩ := bind_ok.mp hb
  obtain ⟨l0, _, l1⟩ := write_length ((splice_eq _ _).symm.trans e0)
  dsimp only at l0 l1
  obtain ⟨s1, e1, hb⟩ := bind_ok.mp hb
  obtain ⟨s2, e2, hb⟩ := bind_ok.mp hb
  obtain ⟨a1, a2, _⟩ := blank_spec e1 e2
  obtain ⟨s3, e3, hb⟩ := bind_ok.mp hb
  obtain ⟨s4, e4, hb⟩ := bind_ok.mp hb
  obtain ⟨b1, b2, _⟩ := blank_spec e3 e4
  obtain ⟨s5, e5, hb⟩ := bind_ok.mp hb
  refine ⟨by omega, ?_⟩
  rw [emitSections_eq p f h, emitNoop_eq] at e5
  obtain ⟨u, hu, e5⟩ := bind_ok.mp e5
  have hl := write_length hu
  simp only [List.length_cons, List.length_nil] at hl
  have hf : ∃ rs, fileRecords f = rs ++ [.pop] := by
    refine ⟨blobRecords ++ (tableRecords f ++ (occurrenceRecords f ++ (layoutRecords f ++ (dirRecords 6 ++ (scriptRecords f ++
      (dirRecords 23 ++ (dirRecords 6 ++ (dirRecords 25 ++ [.push 65])))))))), ?_⟩
    simp [fileRecords, dirRecords]
  obtain ⟨rs, hf⟩ := hf
  rw [hf] at e5 ⊢
  have := emitRecords_room (r := .pop) rfl e5
  unfold recSize
  omega

end BurnFm
