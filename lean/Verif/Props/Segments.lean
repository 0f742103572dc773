import Verif.Proofs.Segments
import Verif.Props.Terminates
import Verif.Props.Chunk

/-! Property C19: scripts stored in segments. -/

namespace BurnFm.Props

/-- C19: in a file where the steps of script `k` are given by the segments `segs`, in any order, with distinct
numbers, the steps recovered are those in the complete records of the segments joined in the order of their numbers. -/
theorem segments_in_order (p : Profile) (buf : Bytes) (chs : List Chunk) (fuel : Nat) (f : FmpFile) (k : Nat)
    (segs sorted : List (UInt8 × Bytes)) (sc : FScript)
    (hl : 4116 ≤ buf.length) (hr : FileReads p buf (Spec.nextSector buf 1) 2 chs)
    (hseg : (eventsOf chs).filter (Spec.describesSegments k) = Spec.segmentEvents k segs)
    (hno : ∀ e ∈ eventsOf chs, Spec.givesSteps k e = false)
    (hp : sorted.Perm segs) (hs : sorted.Pairwise (fun a b => a.1 < b.1))
    (hd : decompile p buf fuel = .ok (some f)) (hk : f.scripts.get k = some sc) :
    sc.instructions = (Spec.records (sorted.flatMap (·.2))).filterMap
      (Spec.stepOf instructionMap getPathInt fun j => (f.scripts.get j).map (·.name)) := by
  obtain ⟨fuel₀, h1⟩ := decompile_run hl hr
  have h2 := decompile_mono hd (by simp) (max fuel fuel₀) (by omega)
  rw [h1 _ (by omega)] at h2
  obtain ⟨st, h3, h4⟩ := bind_ok.mp h2
  have h0 : NoSteps k ({} : DState).file.scripts := fun _ h => by cases h
  obtain ⟨g1, g2, g3⟩ := run_segments k (shape_fileReads hr) hno h3 List.nodup_nil h0
  have hs' : (sorted.map fun s => (s.1.toNat, s.2)).Pairwise (fun a b => a.1 < b.1) := by
    rw [List.pairwise_map]
    exact hs.imp fun h => UInt8.lt_iff_toNat_lt.mp h
  have hp' : (sorted.map fun s => (s.1.toNat, s.2)).Perm (segs.map fun s => (s.1.toNat, s.2)) := hp.map _
  have hne : (segs.map fun s => (s.1.toNat, s.2)).Pairwise (fun a b => a.1 ≠ b.1) :=
    (hp'.pairwise_iff (fun h e => h e.symm)).mp (hs'.imp fun h => Nat.ne_of_lt h)
  have g4 : st.segments.get k = some (segs.map fun s => (s.1.toNat, s.2)) := by
    rw [g3, segStep_filter, hseg]
    unfold Spec.segmentEvents
    rw [List.foldl_cons]
    have : segStep k (HMap.get ([] : HMap (HMap Bytes)) k) ⟨[17, 5, k, 4], .push⟩ = some [] := by
      simp [segStep, Spec.describesSegments, HMap.get_nil]
    rw [show ({} : DState).segments = [] from rfl, this, segStep_all k segs [] (by simpa using hne)]
    rfl
  cases ha : assembleScripts st with
  | error e => rw [ha] at h4; cases h4
  | ok g =>
    rw [ha] at h4
    cases h4
    unfold assembleScripts at ha
    obtain ⟨u, a1, a2⟩ := bind_ok.mp ha
    cases a2
    obtain ⟨b1, b2⟩ := assemble_fold (names := fun j => (st.file.scripts.get j).map (·.name)) _ a1 g1 (fun _ => rfl)
    have b3 := b2 k
    rw [hk, g4] at b3
    rw [show (fun j => (u.file.scripts.get j).map (·.name)) = fun j => (st.file.scripts.get j).map (·.name) from funext b1]
    cases hg : st.file.scripts.get k with
    | none => rw [hg] at b3; cases b3
    | some sc' =>
      rw [hg] at b3
      simp only [Option.map_some, Option.getD_some, Option.some.injEq] at b3
      rw [b3, g2 sc' hg, List.nil_append]
      unfold stepsOf
      rw [sortByKey_eq hp' hs', List.flatMap_map]

/-- C19: the order in which the segments arrive does not matter. -/
theorem segment_order_irrelevant (p p' : Profile) (buf buf' : Bytes) (chs chs' : List Chunk) (fuel fuel' : Nat) (f f' : FmpFile) (k : Nat)
    (segs segs' : List (UInt8 × Bytes)) (sc sc' : FScript)
    (hl : 4116 ≤ buf.length) (hr : FileReads p buf (Spec.nextSector buf 1) 2 chs)
    (hseg : (eventsOf chs).filter (Spec.describesSegments k) = Spec.segmentEvents k segs)
    (hno : ∀ e ∈ eventsOf chs, Spec.givesSteps k e = false)
    (hd : decompile p buf fuel = .ok (some f)) (hk : f.scripts.get k = some sc)
    (hl' : 4116 ≤ buf'.length) (hr' : FileReads p' buf' (Spec.nextSector buf' 1) 2 chs')
    (hseg' : (eventsOf chs').filter (Spec.describesSegments k) = Spec.segmentEvents k segs')
    (hno' : ∀ e ∈ eventsOf chs', Spec.givesSteps k e = false)
    (hd' : decompile p' buf' fuel' = .ok (some f')) (hk' : f'.scripts.get k = some sc')
    (hnames : ∀ j, (f.scripts.get j).map (·.name) = (f'.scripts.get j).map (·.name))
    (hdist : segs.Pairwise (fun a b => a.1 ≠ b.1)) (hperm : segs.Perm segs') :
    sc.instructions = sc'.instructions := by
  have h1 := List.mergeSort_perm segs (fun a b => decide (a.1 ≤ b.1))
  have h2 : (segs.mergeSort fun a b => decide (a.1 ≤ b.1)).Pairwise (fun a b => a.1 < b.1) := by
    have h3 := List.pairwise_mergeSort (le := fun (a b : UInt8 × Bytes) => decide (a.1 ≤ b.1))
      (fun a b c => by simp only [decide_eq_true_eq]; exact UInt8.le_trans) (fun a b => by simp only [Bool.or_eq_true, decide_eq_true_eq]; exact UInt8.le_total a.1 b.1) segs
    have h4 := (h1.pairwise_iff (fun h e => h e.symm)).mpr hdist
    have h5 := List.Pairwise.and h3 h4
    exact h5.imp fun ⟨a, b⟩ => UInt8.lt_of_le_of_ne (by simpa using a) b
  rw [segments_in_order p buf chs fuel f k segs _ sc hl hr hseg hno h1 h2 hd hk,
    segments_in_order p' buf' chs' fuel' f' k segs' _ sc' hl' hr' hseg' hno' (h1.trans hperm) h2 hd' hk']
  rw [show (fun j => (f.scripts.get j).map (·.name)) = fun j => (f'.scripts.get j).map (·.name) from funext hnames]

/-- Chunks at the start of the content of a file. -/
theorem decodes_shift {p : Profile} {body : Bytes} (pre post : Bytes) (loc : Nat) (h2 : 2 ≤ body.length) {o o' : Nat} {path path' : DirPath} {chs : List Chunk}
    (h : Decodes p body 0 o path chs o' path') :
    Decodes p (pre ++ body ++ post) loc (pre.length + o) path chs (pre.length + o') path' := by
  induction h with
  | nil => exact .nil _ _
  | @cons o o₁ o' path path₁ path' ch chs g1 g2 _ ih =>
    refine .cons ?_ (by omega) ih
    have ho : o ≤ body.length := by
      obtain ⟨b, _, hb, _⟩ := getChunk_ok g1
      have := (List.getElem?_eq_some_iff.mp hb).1
      omega
    have hb : body.take o ++ body.drop o = body := List.take_append_drop o body
    have hlt : (body.take o).length = o := by rw [List.length_take]; omega
    have := chunk_context_independent p p (body.take o) (pre ++ body.take o) (body.drop o) post 0 loc (o₁ - o) path path₁ ch
      (by rw [hb, hlt, g1]; congr 2; omega) (by simp [List.length_append]; omega)
    rw [List.append_assoc pre, hb, List.length_append, hlt, Nat.add_assoc, show o + (o₁ - o) = o₁ by omega] at this
    exact this

/-- A record: a step with the given number and opcode. -/
def exampleRecord (n op : UInt8) : Bytes := [2, 1, n, 0, 0, 0, 0, 0, 1, 0, 0, 0, 0, 0, 0, 0, 0, 0, 0, 0, 0, op, 0, 0, 0, 0, 0, 0]

/-- Two records and the start of a third, cut in two segments. -/
def exampleSteps : Bytes := exampleRecord 1 141 ++ exampleRecord 2 1 ++ [2, 1, 3]

/-- Script 1, called `ab`, in two segments; the second comes first. -/
def exampleBody : Bytes :=
  [0x20, 17, 0x20, 1, 0x20, 5, 0x20, 1, 0x06, 16, 2, 0x3B, 0x38, 0x40, 0x40, 0x40, 0x40,
   0x20, 17, 0x20, 5, 0x20, 1, 0x20, 4] ++ [0x07, 2, 0, 29] ++ exampleSteps.drop 30 ++ [0x07, 1, 0, 30] ++ exampleSteps.take 30 ++
   [0x40, 0x40, 0x40, 0x40]

/-- Decode the chunks from an offset to the end. -/
def decodeAll (p : Profile) (body : Bytes) : Nat → Nat → DirPath → Option (List Chunk × DirPath)
  | 0, _, _ => none
  | fuel + 1, o, path =>
    if o = body.length then some ([], path)
    else
      match getChunk p body o path 0 with
      | .ok (.ok ch o' path') => if o < o' then (decodeAll p body fuel o' path').map fun r => (ch :: r.1, r.2) else none
      | _ => none

theorem decodeAll_decodes {p : Profile} {body : Bytes} : ∀ {fuel o : Nat} {path path' : DirPath} {chs : List Chunk},
    decodeAll p body fuel o path = some (chs, path') → Decodes p body 0 o path chs body.length path' := by
  intro fuel
  induction fuel with
  | zero => intro o path path' chs h; cases h
  | succ fuel ih =>
    intro o path path' chs h
    unfold decodeAll at h
    split at h
    · rename_i ho; cases h; subst ho; exact .nil _ _
    · split at h
      · rename_i ch o' path1 hg
        split at h
        · rename_i hlt
          cases hr : decodeAll p body fuel o' path1 with
          | none => rw [hr] at h; cases h
          | some r =>
            rw [hr] at h
            cases h
            exact .cons hg hlt (ih hr)
        · cases h
      · cases h

/-- A file with the given chunks in its content sector reads as these chunks and no-ops in the directory they end in. -/
theorem file_of_body {p : Profile} {body : Bytes} {fuel : Nat} {chs : List Chunk} {path : DirPath} (h : decodeAll p body fuel 0 [] = some (chs, path))
    (hl : 2 ≤ body.length) (hl2 : body.length ≤ 4076) :
    4116 ≤ (threeSectors 0 body).length ∧ ∃ chs2, FileReads p (threeSectors 0 body) (Spec.nextSector (threeSectors 0 body) 1) 2 (chs ++ chs2) ∧
      ∀ ch ∈ chs2, ch.path = path ∧ meaning ch = some (.data []) := by
  obtain ⟨l1, l2, l3, l4⟩ := threeSectors_spec 0 body hl2
  have hz : ∀ n, (Spec.zeros n).length = n := zeros_length
  let pre : Bytes := Spec.zeros 4104 ++ ([0, 0, 0, 2] ++ (Spec.zeros 4092 ++ ([0, 0, 0, 0] ++ Spec.zeros 8)))
  have e : threeSectors 0 body = pre ++ body ++ Spec.zeros (4076 - body.length) := by
    unfold threeSectors
    simp only [pre, List.append_assoc]
  have hpre : pre.length = 8212 := by simp only [pre, List.length_append, hz, List.length_cons, List.length_nil]
  have d := decodes_shift pre (Spec.zeros (4076 - body.length)) 8192 hl (decodeAll_decodes h)
  rw [← e, hpre] at d
  obtain ⟨chs2, r1, r2⟩ := readsTo_zeros (p := p) (buf := threeSectors 0 body) (loc := 8192) (bound := 12288) (by omega) 12288 (8212 + body.length) path
    (by omega) (fun k hk => by
      rw [Nat.add_assoc, l4, List.getElem?_append_right (by omega)]
      exact List.getElem?_replicate_of_lt (by omega))
  have n1 : Spec.nextSector (threeSectors 0 body) 1 = 2 := l2
  have n2 : Spec.nextSector (threeSectors 0 body) 2 = 0 := l3
  refine ⟨by omega, chs2, ?_, r2⟩
  have : FileReads p (threeSectors 0 body) 2 2 ((chs ++ chs2) ++ []) := by
    refine .sector (by omega) (by omega) (by omega) (d.readsTo (by omega) r1) ?_
    rw [n2]
    exact .done
  rw [List.append_nil] at this
  rw [n1]
  exact this

def exampleChunks (p : Profile) : List Chunk := ((decodeAll p exampleBody 50 0 []).getD ([], [])).1

set_option maxRecDepth 20000 in
/-- The hypotheses of `segments_in_order` are met by a file with a script in two segments that arrive in the wrong order. -/
example (p : Profile) : ∃ chs fuel f sc, 4116 ≤ (threeSectors 0 exampleBody).length ∧
    FileReads p (threeSectors 0 exampleBody) (Spec.nextSector (threeSectors 0 exampleBody) 1) 2 chs ∧
    (eventsOf chs).filter (Spec.describesSegments 1) = Spec.segmentEvents 1 [(2, exampleSteps.drop 30), (1, exampleSteps.take 30)] ∧
    (∀ e ∈ eventsOf chs, Spec.givesSteps 1 e = false) ∧
    decompile p (threeSectors 0 exampleBody) fuel = .ok (some f) ∧ f.scripts.get 1 = some sc ∧
    sc.instructions = [⟨.setVariable, 1, []⟩, ⟨.performScript, 2, [t!"ab"]⟩] := by
  have h : decodeAll p exampleBody 50 0 [] = some (exampleChunks p, []) := by cases p <;> rfl
  obtain ⟨h1, chs2, h2, h3⟩ := file_of_body h (by decide) (by decide)
  have e2 : eventsOf chs2 = chs2.map fun _ => ⟨[], .data []⟩ := by
    clear h2
    induction chs2 with
    | nil => rfl
    | cons c cs ih =>
      have := ih (fun ch hch => h3 ch (by simp [hch]))
      unfold eventsOf at this ⊢
      rw [List.filterMap_cons, (h3 c (by simp)).1, (h3 c (by simp)).2, List.map_cons, this]
      rfl
  have hev : eventsOf (exampleChunks p ++ chs2) = eventsOf (exampleChunks p) ++ chs2.map fun _ => ⟨[], .data []⟩ := by
    unfold eventsOf at e2 ⊢
    rw [List.filterMap_append, e2]
  obtain ⟨fuel, h4⟩ := decompile_run h1 h2
  obtain ⟨st, r1, r0, rs⟩ : ∃ st, runChunks p {} (exampleChunks p) = .ok st ∧
      st.segments = [(1, [(2, exampleSteps.drop 30), (1, exampleSteps.take 30)])] ∧ st.file.scripts = [(1, { name := t!"ab" })] := by
    cases p <;> exact ⟨_, rfl, rfl, rfl⟩
  have r2 : (assembleScripts st).toOption.bind (fun f => f.scripts.get 1) =
      some { name := t!"ab", instructions := [⟨.setVariable, 1, []⟩, ⟨.performScript, 2, [t!"ab"]⟩] } := by
    have hsort : sortByKey [(2, exampleSteps.drop 30), (1, exampleSteps.take 30)] = [(1, exampleSteps.take 30), (2, exampleSteps.drop 30)] :=
      sortByKey_eq (List.Perm.swap _ _ _) (by simp)
    have hch : chunks28 exampleSteps = [exampleRecord 1 141, exampleRecord 2 1, [2, 1, 3]] := by
      rw [chunks28_cons (by decide), chunks28_cons (by decide), chunks28_cons (by decide),
        show ((exampleSteps.drop 28).drop 28).drop 28 = [] from rfl, chunks28_nil]
      rfl
    unfold assembleScripts
    rw [r0]
    simp only [List.foldlM_cons, List.foldlM_nil]
    unfold assembleScript
    rw [hsort, show (List.flatMap (fun x => x.2) [(1, exampleSteps.take 30), (2, exampleSteps.drop 30)]) = exampleSteps from rfl, hch]
    obtain ⟨file, segments, sources⟩ := st
    dsimp only at rs
    obtain ⟨nm, tb, rel, lay, vl, scr⟩ := file
    dsimp only at rs
    subst rs
    rfl
  cases ha : assembleScripts st with
  | error e => rw [ha] at r2; cases r2
  | ok f =>
    rw [ha] at r2
    refine ⟨_, fuel, f, _, h1, h2, ?_, ?_, ?_, r2, rfl⟩
    · rw [hev, List.filter_append]
      have : (chs2.map fun _ => (⟨[], .data []⟩ : Spec.Event)).filter (Spec.describesSegments 1) = [] := by
        rw [List.filter_eq_nil_iff]
        intro e he
        obtain ⟨_, _, rfl⟩ := List.mem_map.mp he
        simp [Spec.describesSegments]
      rw [this, List.append_nil]
      cases p <;> rfl
    · intro e he
      rw [hev] at he
      rcases List.mem_append.mp he with he | he
      · have : ∀ e ∈ eventsOf (exampleChunks p), Spec.givesSteps 1 e = false := by cases p <;> decide
        exact this e he
      · obtain ⟨_, _, rfl⟩ := List.mem_map.mp he
        simp [Spec.givesSteps]
    · rw [h4 _ (Nat.le_refl _), runChunks_append, r1, ok_bind, runChunks_other _ _ _ (fun ch hch => by rw [(h3 ch hch).1]; rfl), ok_bind, ha]
      rfl

end BurnFm.Props
