import Verif.Proofs.FileRun
import Verif.Spec.Sources

/-! Decompiling the chunks of a file: those about data sources and the others. -/

namespace BurnFm
open Spec (Event What FormatRun Raw RawRun)

/-! Chunks and events -/

theorem raw_format {path path' : List Nat} {bytes : Bytes} {raws : List Raw} (h : RawRun path bytes raws path') :
    FormatRun path bytes (Spec.seen raws) path' := by
  induction h with
  | nil path => exact .nil path
  | @cons path path' b bytes rest w n raws h1 _ ih =>
    have := FormatRun.cons h1 ih
    cases w <;> exact this

theorem format_raw {path path' : List Nat} {bytes : Bytes} {evs : List Event} (h : FormatRun path bytes evs path') :
    ∃ raws, RawRun path bytes raws path' ∧ Spec.seen raws = evs := by
  induction h with
  | nil path => exact ⟨[], .nil path, rfl⟩
  | @cons path path' b bytes rest w n evs h1 _ ih =>
    obtain ⟨raws, h2, rfl⟩ := ih
    refine ⟨_, .cons h1 h2, ?_⟩
    cases w <;> rfl

theorem seen_append (a b : List Raw) : Spec.seen (a ++ b) = Spec.seen a ++ Spec.seen b := List.filterMap_append

theorem rawSectors_sectors {buf : Bytes} {i : Nat} {raws : List Raw} (h : Spec.RawSectors buf i raws) :
    Spec.Sectors buf i (Spec.seen raws) := by
  induction h with
  | last => exact .last
  | sector h1 h2 h3 h4 h5 _ ih => rw [seen_append]; exact .sector h1 h2 h3 h4 (raw_format h5) ih
  | openSector h1 h2 h3 h4 h5 _ ih => rw [seen_append, seen_append]; exact .openSector h1 h2 h3 h4 (raw_format h5) ih

theorem sectors_raw {buf : Bytes} {i : Nat} {evs : List Event} (h : Spec.Sectors buf i evs) :
    ∃ raws, Spec.RawSectors buf i raws ∧ Spec.seen raws = evs := by
  induction h with
  | last => exact ⟨[], .last, rfl⟩
  | sector h1 h2 h3 h4 h5 _ ih =>
    obtain ⟨raws, r1, rfl⟩ := ih
    obtain ⟨raws0, q1, rfl⟩ := format_raw h5
    exact ⟨_, .sector h1 h2 h3 h4 q1 r1, seen_append _ _⟩
  | openSector h1 h2 h3 h4 h5 _ ih =>
    obtain ⟨raws, r1, rfl⟩ := ih
    obtain ⟨raws0, q1, rfl⟩ := format_raw h5
    exact ⟨_, .openSector h1 h2 h3 h4 q1 r1, by rw [seen_append, seen_append]⟩

theorem rawFile_file {buf : Bytes} {raws : List Raw} (h : Spec.RawFileOf buf raws) : Spec.FileOf buf (Spec.seen raws) :=
  ⟨h.1, rawSectors_sectors h.2⟩

theorem file_raw {buf : Bytes} {evs : List Event} (h : Spec.FileOf buf evs) : ∃ raws, Spec.RawFileOf buf raws ∧ Spec.seen raws = evs := by
  obtain ⟨raws, h1, h2⟩ := sectors_raw h.2
  exact ⟨raws, ⟨h.1, h1⟩, h2⟩

/-! Decoding -/

theorem push_data {b : UInt8} {bytes : Bytes} {n : Nat} (h : Spec.ChunkFormat (Spec.opcode b) bytes (some .push) n) (pre post : Bytes)
    {body : Body} (hb : chunkBody (pre ++ b :: (bytes ++ post)) pre.length (stripDelay b) = .ok (some body)) :
    body.data = some (Spec.dirBytes (Spec.opcode b) bytes) := by
  generalize hop : Spec.opcode b = c at h
  cases h with
  | push1 m h1 =>
    rw [strip_eq hop (by decide)] at hb
    change some <$> armPush1 _ _ = _ at hb
    unfold armPush1 at hb
    rw [idx_append] at hb
    simp only [List.cons_append, idx_cons, idx_zero, ok_bind] at hb
    rw [if_neg h1, slice_mid (h := pre ++ [b]) (d := [m]) (post := post) (by simp) (by simp) (by simp), ok_bind] at hb
    cases hb
    rfl
  | pushFE m d hl =>
    rw [strip_eq hop (by decide)] at hb
    change some <$> armPush1 _ _ = _ at hb
    unfold armPush1 at hb
    rw [idx_append] at hb
    simp only [List.cons_append, idx_cons, idx_zero, ok_bind] at hb
    rw [if_pos trivial, slice_mid (h := pre ++ [b, 0xFE]) (d := m :: d) (post := post) (by simp) (by simp) (by simp [hl]), ok_bind,
      slice_mid (h := pre ++ [b, 0xFE]) (d := [m]) (post := d ++ post) (by simp) (by simp) (by simp), ok_bind] at hb
    cases hb
    unfold Spec.dirBytes
    rw [if_neg (by decide), if_pos (by simp [hl])]
    rfl
  | push2 n1 n2 =>
    rw [strip_eq hop (by decide)] at hb
    change some <$> armPush2 _ _ = _ at hb
    unfold armPush2 at hb
    rw [slice_mid (h := pre ++ [b]) (d := [n1, n2]) (post := post) (by simp) (by simp) (by simp), ok_bind] at hb
    cases hb
    rfl

  | push3 n1 n2 n3 =>
    rw [strip_eq hop (by decide)] at hb
    change some <$> armPush3 _ _ = _ at hb
    unfold armPush3 at hb
    rw [slice_mid (h := pre ++ [b]) (d := [n1, n2, n3]) (post := post) (by simp) (by simp) (by simp), ok_bind] at hb
    cases hb
    rfl
  | pushN len n1 n2 d hl =>
    rw [strip_eq hop (by decide)] at hb
    change some <$> armPushN _ _ = _ at hb
    unfold armPushN at hb
    rw [idx_append] at hb
    simp only [List.cons_append, idx_cons, idx_zero, ok_bind] at hb
    rw [slice_mid (h := pre ++ [b, len]) (d := [n1, n2]) (post := d ++ post) (by simp) (by simp) (by simp), ok_bind] at hb
    cases hb
    rfl

/-- The chunk decoded from a raw chunk. -/
structure Match (r : Raw) (ch : Chunk) : Prop where
  shape : Shape ch
  meaning : meaning ch = r.what
  path : ch.path = r.path
  code : ch.code.toNat = r.opcode
  push : r.what = some .push → ch.data = some (Spec.dirBytes r.opcode r.operands)

theorem raw_decodes {b : UInt8} {bytes : Bytes} {w : Option What} {n : Nat} (h : Spec.ChunkFormat (Spec.opcode b) bytes w n)
    (p : Profile) (pre post : Bytes) (path : DirPath) (loc : Nat) :
    ∃ ch, getChunk p (pre ++ b :: (bytes ++ post)) pre.length path loc =
        .ok (.ok ch (pre.length + (1 + bytes.length)) (Spec.pathAfter b n path)) ∧
      Match ⟨Spec.pathAfter b n path, Spec.opcode b, bytes, w⟩ ch := by
  obtain ⟨ch, h1, h2, h3⟩ := format_decodes h p pre post path loc
  refine ⟨ch, h1, getChunk_shape h1, h2, h3, ?_, ?_⟩
  · obtain ⟨b', body, hb, _, _, _, rfl⟩ := getChunk_ok h1
    rw [List.getElem?_append_right (Nat.le_refl _), Nat.sub_self] at hb
    cases hb
    exact opcode_strip b
  · intro hw
    dsimp only at hw
    subst hw
    obtain ⟨b', body, hb, hc, _, _, rfl⟩ := getChunk_ok h1
    rw [List.getElem?_append_right (Nat.le_refl _), Nat.sub_self] at hb
    cases hb
    exact push_data h pre post hc

/-! Data sources -/

def noteStep (p : Profile) (st : DState) : Spec.SourceNote → Res DState
  | .name d => do
    let s ← decodeBytes d
    return { st with sources := st.sources ++ [s] }
  | .enter _ ops =>
    match st.sources with
    | [] => .ok st
    | s :: rest => .ok { st with sources := rest, file := { st.file with dataSources := st.file.dataSources.insert (getInt ops) { name := s } } }
  | .location id d => do
    let loc ← sourceFromBytes p d
    return { st with file := { st.file with dataSources := st.file.dataSources.modify id ({ · with location := loc }) } }
  | .user id d =>
    .ok { st with file := { st.file with dataSources := st.file.dataSources.modify id ({ · with createdByUser := fmStringDecrypt d }) } }

def runNotes (p : Profile) (st : DState) (ns : List Spec.SourceNote) : Res DState := ns.foldlM (noteStep p) st

theorem runNotes_cons (p : Profile) (st : DState) (n : Spec.SourceNote) (ns : List Spec.SourceNote) :
    runNotes p st (n :: ns) = noteStep p st n >>= fun st => runNotes p st ns := by
  unfold runNotes; rw [List.foldlM_cons]

theorem runNotes_append (p : Profile) (st : DState) (a b : List Spec.SourceNote) :
    runNotes p st (a ++ b) = runNotes p st a >>= fun st => runNotes p st b := by
  unfold runNotes; rw [List.foldlM_append]

theorem classify_sourceNames : classify [32, 1, 1] = .sourceNames := by simp [classify]

theorem classify_source (x : Nat) (rest : List Nat) : classify (32 :: 5 :: x :: rest) = .source x := by
  simp [classify]

theorem classify_isSource {path : DirPath} (h : isSource (classify path) = true) :
    (path = [32, 1, 1] ∧ classify path = .sourceNames) ∨
    (path ≠ [32, 1, 1] ∧ path.take 2 = [32, 5] ∧ 3 ≤ path.length ∧ classify path = .source (path.getD 2 0)) := by
  cases hc : classify path <;> rw [hc] at h <;> first | (cases h; done) | skip
  · left
    refine ⟨?_, rfl⟩
    unfold classify at hc
    dsimp only at hc
    repeat' (refine ite_elim hc (fun hx hc => ?_) (fun hc => ?_))
    all_goals try (cases hc; done)
    exact hx
  · right
    have hp : path ≠ [32, 1, 1] := by rintro rfl; rw [classify_sourceNames] at hc; cases hc
    refine ⟨hp, ?_⟩
    unfold classify at hc
    dsimp only at hc
    repeat' (refine ite_elim hc (fun hx hc => ?_) (fun hc => ?_))
    all_goals try (cases hc; done)
    cases hc
    exact ⟨hx.1, hx.2, rfl⟩

theorem not_isSource {path : DirPath} (h : isSource (classify path) = false) : path ≠ [32, 1, 1] ∧ ¬(path.take 2 = [32, 5] ∧ 3 ≤ path.length) := by
  constructor
  · rintro rfl; rw [classify_sourceNames] at h; cases h
  · rintro ⟨h1, h2⟩
    match path, h1, h2 with
    | a :: b :: x :: rest, h1, _ =>
      simp at h1
      obtain ⟨rfl, rfl⟩ := h1
      rw [classify_source x rest] at h
      cases h

theorem note_none {r : Raw} (h : isSource (classify r.path) = false) : r.note = none := by
  obtain ⟨h1, h2⟩ := not_isSource h
  unfold Raw.note
  rw [if_neg h1, if_neg h2]

theorem dispatch_note {p : Profile} {st : DState} {r : Raw} {ch : Chunk} (hm : Match r ch) (hs : isSource (classify r.path) = true) :
    dispatch p st ch.path ch = match r.note with
      | none => .ok st
      | some n => noteStep p st n := by
  obtain ⟨h1, h2, h3, h4, h5⟩ := hm
  obtain ⟨path, op, ops, what⟩ := r
  dsimp only at h2 h3 h4 h5 hs
  subst h3
  unfold dispatch Raw.note
  dsimp only
  obtain ⟨ct, code, data, rd, path, seg, rs⟩ := ch
  obtain ⟨s1, s2, s3, s4⟩ := h1
  dsimp only at s1 s2 s3 s4 h2 h4 h5 hs ⊢
  rcases classify_isSource hs with ⟨hp, hc⟩ | ⟨hp, hp2, hp3, hc⟩
  · rw [hc, if_pos hp]
    dsimp only
    unfold armSourceNames
    cases ct <;> cases rs <;> cases seg <;> cases rd <;> cases data <;> simp [meaning] at s1 s2 s3 s4 h2 <;> subst h2 <;> rfl
  · rw [hc, if_neg hp, if_pos ⟨hp2, hp3⟩]
    dsimp only
    unfold armSource
    cases ct <;> cases rs <;> cases seg <;> cases rd <;> cases data <;> simp [meaning] at s1 s2 s3 s4 h2 <;> subst h2 <;> try rfl
    · rename_i k d
      have hop : (code = 0x6) = (op = 0x06) := by
        apply propext
        rw [← h4]
        constructor
        · rintro rfl; rfl
        · intro h; exact UInt8.toNat_inj.mp h
      rw [if_neg (by simp), if_pos rfl]
      show (if k = 130 then _ else _) = _
      by_cases hk : k = 130
      · rw [if_pos hk]
        simp only [hk, if_true]
        show (if code = 0x6 then _ else _) = _
        by_cases ho : op = 0x06
        · rw [if_pos (hop ▸ ho), if_pos ho]
          rfl
        · rw [if_neg (fun hh => ho (hop ▸ hh)), if_neg ho]
          rfl
      · rw [if_neg hk]
        simp only [if_neg hk]
        rfl
    · cases h5 rfl
    · rename_i d
      cases h5 rfl
      rw [if_pos rfl]
      rfl

/-! Frames -/

/-- The data sources of one state, everything else of another. -/
def graft (D st : DState) : DState := { st with sources := D.sources, file := { st.file with dataSources := D.file.dataSources } }

theorem graft_self (st : DState) : graft st st = st := rfl

theorem graft_note (p : Profile) (D st : DState) (n : Spec.SourceNote) :
    noteStep p (graft D st) n = (fun D => graft D st) <$> noteStep p D n := by
  cases n with
  | name d => unfold noteStep; dsimp only; cases decodeBytes d <;> rfl
  | enter q ops =>
    obtain ⟨f, segs, src⟩ := D
    cases src <;> rfl
  | location id d => unfold noteStep; dsimp only; cases sourceFromBytes p d <;> rfl
  | user id d => rfl

theorem graft_event (p : Profile) (D st : DState) (e : Event) (h : isSource (classify e.path) = false) :
    edispatch p (graft D st) e = graft D <$> edispatch p st e := by
  unfold edispatch dispatch
  cases hc : classify e.path <;> rw [hc] at h <;> first | (cases h; done) | skip
  all_goals dsimp only
  · unfold armRelationship; dsimp only [graft]; frame
  · unfold armOccurrence; dsimp only [graft]; frame
  · unfold armJoin; dsimp only [graft]; frame
  · unfold armLayout; dsimp only [graft]; frame
  · unfold armField; dsimp only [graft]; frame
  · unfold armTableMeta; dsimp only [graft]; frame
  · unfold armSegments; dsimp only [graft]; frame
  · unfold armStepExpr; dsimp only [graft]; frame
  · unfold armStepName; dsimp only [graft]; frame
  · unfold armStepValue; dsimp only [graft]; frame
  · unfold armScript
    split
    · rfl
    · split
      · rw [map_bind_res]
        refine bind_congr_res _ (fun d => ?_)
        refine foldlM_commutes (m := graft D) (fun s a => ?_) _ st
        dsimp only [graft]
        frame
      · split
        · rw [map_bind_res]
          refine bind_congr_res _ (fun d => ?_)
          refine foldlM_commutes (m := graft D) (fun s a => ?_) _ st
          dsimp only [graft]
          frame
        · rfl
  · unfold armScriptMeta; dsimp only [graft]; frame
  · rfl

theorem graft_assembleScripts (D st : DState) :
    assembleScripts (graft D st) = (fun f => { f with dataSources := D.file.dataSources }) <$> assembleScripts st := by
  unfold assembleScripts
  have : ∀ (segs : HMap (HMap Bytes)) (S : DState), segs.foldlM (fun s e => assembleScript s e.1 e.2) (graft D S) =
      graft D <$> segs.foldlM (fun s e => assembleScript s e.1 e.2) S := by
    intro segs S
    refine foldlM_commutes (m := graft D) (fun s a => ?_) _ S
    unfold assembleScript
    refine foldlM_commutes (m := graft D) (fun s a => ?_) _ s
    dsimp only [graft]
    frame
  rw [show (graft D st).segments = st.segments from rfl, this, map_bind_res]
  cases st.segments.foldlM (fun s e => assembleScript s e.1 e.2) st <;> rfl

/-! Runs -/

/-- Where no-ops outside data sources do nothing. -/
def NoopSafe' (st : DState) (path : DirPath) : Prop := ∀ s k, classify path = .stepValue s k → st.file.scripts.contains s = true

def notSource (e : Event) : Bool := !isSource (classify e.path)

theorem map_ok_iff {α β : Type} {f : α → β} {x : Res α} {y : β} : f <$> x = .ok y ↔ ∃ a, x = .ok a ∧ y = f a := by
  cases x with
  | error e => constructor <;> intro h <;> first | (cases h; done) | (obtain ⟨a, h, _⟩ := h; cases h)
  | ok a =>
    constructor
    · intro h; cases h; exact ⟨a, rfl, rfl⟩
    · rintro ⟨b, h, rfl⟩; cases h; rfl

theorem area_not_source {e : Event} (h : isSource (classify e.path) = false) : area e ≠ .sources := by
  unfold area
  cases hc : classify e.path <;> rw [hc] at h <;> first | (cases h; done) | (intro hh; cases hh)

/-- A run over the chunks succeeds if and only if the run over the notes about data sources and the run over the other
events succeed. -/
theorem run_raw {p : Profile} {loc : Nat} {path path' : DirPath} {bytes : Bytes} {raws : List Raw}
    (h : RawRun path bytes raws path') (pre post : Bytes) :
    ∃ chs, Decodes p (pre ++ (bytes ++ post)) loc pre.length path chs (pre.length + bytes.length) path' ∧
      ∀ D st u, NoopSafe' st path → (runChunks p (graft D st) chs = .ok u ↔ ∃ D' st', u = graft D' st' ∧
        runNotes p D (raws.filterMap Raw.note) = .ok D' ∧ runEvents p st ((Spec.seen raws).filter notSource) = .ok st') := by
  induction h generalizing pre with
  | nil path =>
    refine ⟨[], .nil _ _, fun D st u _ => ?_⟩
    constructor
    · intro h; cases h; exact ⟨D, st, rfl, rfl, rfl⟩
    · rintro ⟨D', st', rfl, h1, h2⟩; cases h1; cases h2; rfl
  | @cons path path' b bytes rest w n raws h1 _ ih =>
    obtain ⟨ch, h2, hm⟩ := raw_decodes h1 p pre (rest ++ post) path loc
    obtain ⟨chs, h5, h6⟩ := ih (pre ++ b :: bytes)
    refine ⟨ch :: chs, .cons (o₁ := pre.length + (1 + bytes.length)) (path₁ := Spec.pathAfter b n path) ?_ (by omega) ?_, ?_⟩
    · rw [← h2]; simp
    · have e1 : pre ++ b :: bytes ++ (rest ++ post) = pre ++ (b :: bytes ++ rest ++ post) := by simp
      have e2 : (pre ++ b :: bytes).length = pre.length + (1 + bytes.length) := by simp; omega
      have e3 : (pre ++ b :: bytes).length + rest.length = pre.length + (b :: bytes ++ rest).length := by simp; omega
      rw [e3, e1, e2] at h5
      exact h5
    · intro D st u hq
      rw [runChunks_cons]
      cases hsrc : isSource (classify (Spec.pathAfter b n path)) with
      | true =>
        have hq' : ∀ s, NoopSafe' s (Spec.pathAfter b n path) := by
          intro s a k hc; rw [hc] at hsrc; cases hsrc
        have hev : (Spec.seen (⟨Spec.pathAfter b n path, Spec.opcode b, bytes, w⟩ :: raws)).filter notSource =
            (Spec.seen raws).filter notSource := by
          cases w with
          | none => rfl
          | some w => exact filter_skip (by unfold notSource; dsimp only; rw [hsrc]; rfl)
        rw [dispatch_note hm hsrc, hev]
        cases hn : (⟨Spec.pathAfter b n path, Spec.opcode b, bytes, w⟩ : Raw).note with
        | none =>
          rw [List.filterMap_cons_none hn, ok_bind]
          exact h6 D st u (hq' st)
        | some nt =>
          rw [List.filterMap_cons_some hn, runNotes_cons]
          dsimp only
          rw [graft_note]
          cases hd : noteStep p D nt with
          | error e =>
            constructor
            · intro h; cases h
            · rintro ⟨D', st', _, h, _⟩; cases h
          | ok D1 => exact h6 D1 st u (hq' st)
      | false =>
        rw [List.filterMap_cons_none (note_none (r := ⟨Spec.pathAfter b n path, Spec.opcode b, bytes, w⟩) hsrc)]
        cases w with
        | none =>
          have hp := noop_path h1 path
          rw [dispatch_noop hm.shape hm.meaning (by rw [hm.path]; exact hsrc) (by rw [hm.path, hp]; exact hq), ok_bind]
          exact h6 D st u (by rw [hp]; exact hq)
        | some w =>
          have hev : (Spec.seen (⟨Spec.pathAfter b n path, Spec.opcode b, bytes, some w⟩ :: raws)).filter notSource =
              ⟨Spec.pathAfter b n path, w⟩ :: (Spec.seen raws).filter notSource :=
            List.filter_cons_of_pos (by unfold notSource; dsimp only; rw [hsrc]; rfl)
          have hmp : ch.path = Spec.pathAfter b n path := hm.path
          rw [hev, runEvents_cons, dispatch_meaning hm.shape hm.meaning (by rw [hmp]; exact hsrc), hmp, graft_event _ _ _ _ hsrc]
          cases hd : edispatch p st ⟨Spec.pathAfter b n path, w⟩ with
          | error e =>
            constructor
            · intro h; cases h
            · rintro ⟨D', st', _, _, h⟩; cases h
          | ok s1 =>
            have hq1 := (quiet_after (e := ⟨Spec.pathAfter b n path, w⟩) (area_not_source hsrc) hd).2
            exact h6 D s1 u hq1

theorem run_padding {p : Profile} (path : DirPath) (k : Nat) : ∀ D st u,
    (runChunks p (graft D st) (List.replicate k (zeroChunk path)) = .ok u ↔ ∃ D' st', u = graft D' st' ∧
      runNotes p D ((List.replicate k ⟨path, 0x00, [0], some (.data [])⟩ : List Raw).filterMap Raw.note) = .ok D' ∧
      runEvents p st ((Spec.seen (List.replicate k ⟨path, 0x00, [0], some (.data [])⟩)).filter notSource) = .ok st') := by
  have hm : Match ⟨path, 0x00, [0], some (.data [])⟩ (zeroChunk path) := ⟨zeroChunk_shape path, rfl, rfl, rfl, fun h => by cases h⟩
  induction k with
  | zero =>
    intro D st u
    constructor
    · intro h; cases h; exact ⟨D, st, rfl, rfl, rfl⟩
    · rintro ⟨D', st', rfl, h1, h2⟩; cases h1; cases h2; rfl
  | succ k ih =>
    intro D st u
    rw [List.replicate_succ, List.replicate_succ, runChunks_cons]
    cases hsrc : isSource (classify path) with
    | true =>
      rw [dispatch_note hm hsrc, show Spec.seen (⟨path, 0x00, [0], some (.data [])⟩ :: List.replicate k ⟨path, 0x00, [0], some (.data [])⟩) =
        ⟨path, .data []⟩ :: Spec.seen (List.replicate k ⟨path, 0x00, [0], some (.data [])⟩) from rfl,
        filter_skip (by unfold notSource; dsimp only; rw [hsrc]; rfl)]
      cases hn : (⟨path, 0x00, [0], some (.data [])⟩ : Raw).note with
      | none =>
        rw [List.filterMap_cons_none hn, ok_bind]
        exact ih D st u
      | some nt =>
        rw [List.filterMap_cons_some hn, runNotes_cons]
        dsimp only
        rw [graft_note]
        cases hd : noteStep p D nt with
        | error e =>
          constructor
          · intro h; cases h
          · rintro ⟨D', st', _, h, _⟩; cases h
        | ok D1 => exact ih D1 st u
    | false =>
      rw [List.filterMap_cons_none (note_none (r := ⟨path, 0x00, [0], some (.data [])⟩) hsrc),
        show Spec.seen (⟨path, 0x00, [0], some (.data [])⟩ :: List.replicate k ⟨path, 0x00, [0], some (.data [])⟩) =
        ⟨path, .data []⟩ :: Spec.seen (List.replicate k ⟨path, 0x00, [0], some (.data [])⟩) from rfl,
        List.filter_cons_of_pos (by unfold notSource; dsimp only; rw [hsrc]; rfl), runEvents_cons,
        dispatch_meaning hm.shape hm.meaning hsrc, show (zeroChunk path).path = path from rfl, graft_event _ _ _ _ hsrc]
      cases hd : edispatch p st ⟨path, .data []⟩ with
      | error e =>
        constructor
        · intro h; cases h
        · rintro ⟨D', st', _, _, h⟩; cases h
      | ok s1 => exact ih D s1 u

theorem run_rawSectors {p : Profile} {buf : Bytes} {i : Nat} {raws : List Raw} (h : Spec.RawSectors buf i raws) :
    ∃ chs, FileReads p buf (Spec.nextSector buf 1) i chs ∧
      ∀ D st u, (runChunks p (graft D st) chs = .ok u ↔ ∃ D' st', u = graft D' st' ∧
        runNotes p D (raws.filterMap Raw.note) = .ok D' ∧ runEvents p st ((Spec.seen raws).filter notSource) = .ok st') := by
  induction h with
  | last =>
    refine ⟨[], .done, fun D st u => ?_⟩
    constructor
    · intro h; cases h; exact ⟨D, st, rfl, rfl, rfl⟩
    · rintro ⟨D', st', rfl, h1, h2⟩; cases h1; cases h2; rfl
  | @sector i n bytes raws rest hi hn hl hb hf _ ih =>
    obtain ⟨s1, s2, s3⟩ := split_sector hb (by omega)
    obtain ⟨chs, d1, d2⟩ := run_raw (p := p) (loc := i * 4096) hf (buf.take (i * 4096 + 20)) (Spec.zeros n ++ buf.drop (i * 4096 + 20 + 4076))
    rw [← s1, s3] at d1
    obtain ⟨chs2, r1, r2⟩ := readsTo_zeros (p := p) (buf := buf) (loc := i * 4096) (bound := i * 4096 + 4096) (by omega) n
      (i * 4096 + 20 + bytes.length) [] (by omega) (fun k hk => by
        rw [s1, ← List.append_assoc, List.getElem?_append_right (by rw [List.length_append, s3]; omega), List.length_append, s3,
          List.getElem?_append_left (by simp [Spec.zeros]; omega)]
        exact List.getElem?_replicate_of_lt (by omega))
    obtain ⟨chs3, f1, f2⟩ := ih
    refine ⟨(chs ++ chs2) ++ chs3, .sector hi hn (by omega) (d1.readsTo (by omega) r1) f1, fun D st u => ?_⟩
    have key : runChunks p (graft D st) (chs ++ chs2) = runChunks p (graft D st) chs := by
      rw [runChunks_append]
      cases runChunks p (graft D st) chs with
      | error e => rfl
      | ok u => rw [ok_bind, runChunks_other p u chs2 (fun ch hc => by rw [(r2 ch hc).1]; rfl)]
    rw [runChunks_append, key, List.filterMap_append, seen_append, List.filter_append, runNotes_append, runEvents_append]
    have d2 := d2 D st
    constructor
    · intro h
      obtain ⟨v, h1, h2⟩ := bind_ok.mp h
      obtain ⟨D1, st1, rfl, h3, h4⟩ := (d2 v (fun s k hc => by cases hc)).mp h1
      obtain ⟨D2, st2, h5, h6, h7⟩ := (f2 D1 st1 u).mp h2
      exact ⟨D2, st2, h5, bind_ok.mpr ⟨D1, h3, h6⟩, bind_ok.mpr ⟨st1, h4, h7⟩⟩
    · rintro ⟨D2, st2, h5, h6, h7⟩
      obtain ⟨D1, h3, h6⟩ := bind_ok.mp h6
      obtain ⟨st1, h4, h7⟩ := bind_ok.mp h7
      exact bind_ok.mpr ⟨_, (d2 _ (fun s k hc => by cases hc)).mpr ⟨D1, st1, rfl, h3, h4⟩, (f2 D1 st1 u).mpr ⟨D2, st2, h5, h6, h7⟩⟩
  | @openSector i n bytes path raws rest hi hn hl hb hf _ ih =>
    obtain ⟨s1, s2, s3⟩ := split_sector hb (by omega)
    obtain ⟨chs, d1, d2⟩ := run_raw (p := p) (loc := i * 4096) hf (buf.take (i * 4096 + 20)) (Spec.zeros n ++ buf.drop (i * 4096 + 20 + 4076))
    rw [← s1, s3] at d1
    have r1 := readsTo_padding (p := p) (buf := buf) (loc := i * 4096) (bound := i * 4096 + 4096) (by omega) path ((n + 1) / 2)
      (i * 4096 + 20 + bytes.length) (by omega) (fun k hk => sector_zeros hb (by omega) k (by omega))
    obtain ⟨chs3, f1, f2⟩ := ih
    refine ⟨(chs ++ _) ++ chs3, .sector hi hn (by omega) (d1.readsTo (by omega) r1) f1, fun D st u => ?_⟩
    rw [runChunks_append, runChunks_append, List.filterMap_append, List.filterMap_append, seen_append, seen_append, List.filter_append,
      List.filter_append, runNotes_append, runNotes_append, runEvents_append, runEvents_append]
    have d2 := d2 D st
    have r2 := run_padding (p := p) path ((n + 1) / 2)
    constructor
    · intro h
      obtain ⟨w, h0, h2⟩ := bind_ok.mp h
      obtain ⟨v, h1, h8⟩ := bind_ok.mp h0
      obtain ⟨D1, st1, rfl, h3, h4⟩ := (d2 v (fun s k hc => by cases hc)).mp h1
      obtain ⟨D3, st3, rfl, h9, h10⟩ := (r2 D1 st1 w).mp h8
      obtain ⟨D2, st2, h5, h6, h7⟩ := (f2 D3 st3 u).mp h2
      exact ⟨D2, st2, h5, bind_ok.mpr ⟨D3, bind_ok.mpr ⟨D1, h3, h9⟩, h6⟩, bind_ok.mpr ⟨st3, bind_ok.mpr ⟨st1, h4, h10⟩, h7⟩⟩
    · rintro ⟨D2, st2, h5, h6, h7⟩
      obtain ⟨D3, h9, h6⟩ := bind_ok.mp h6
      obtain ⟨D1, h3, h9⟩ := bind_ok.mp h9
      obtain ⟨st3, h10, h7⟩ := bind_ok.mp h7
      obtain ⟨st1, h4, h10⟩ := bind_ok.mp h10
      exact bind_ok.mpr ⟨_, bind_ok.mpr ⟨_, (d2 _ (fun s k hc => by cases hc)).mpr ⟨D1, st1, rfl, h3, h4⟩,
        (r2 D1 st1 _).mpr ⟨D3, st3, rfl, h9, h10⟩⟩, (f2 D3 st3 u).mpr ⟨D2, st2, h5, h6, h7⟩⟩

/-- Decompiling a file: the notes about data sources and the other events are read independently of each other. -/
theorem raw_events {p : Profile} {buf : Bytes} {raws : List Raw} (h : Spec.RawFileOf buf raws) :
    ∃ fuel₀, ∀ fuel, fuel₀ ≤ fuel → decompile p buf fuel ≠ .ok none ∧ ∀ f, decompile p buf fuel = .ok (some f) ↔ ∃ D st g,
      f = { g with dataSources := D.file.dataSources } ∧ runNotes p {} (raws.filterMap Raw.note) = .ok D ∧
      runEvents p {} ((Spec.seen raws).filter notSource) = .ok st ∧ assembleScripts st = .ok g := by
  obtain ⟨chs, c1, c2⟩ := run_rawSectors (p := p) h.2
  obtain ⟨fuel₀, hf⟩ := decompile_run h.1 c1
  refine ⟨fuel₀, fun fuel hle => ?_⟩
  have c2 := c2 {} {}
  rw [show graft {} {} = ({} : DState) from rfl] at c2
  rw [hf fuel hle]
  constructor
  · intro h
    obtain ⟨v, _, h2⟩ := bind_ok.mp h
    obtain ⟨a, _, h3⟩ := map_ok_iff.mp h2
    cases h3
  · intro f
    constructor
    · intro h
      obtain ⟨v, h1, h2⟩ := bind_ok.mp h
      obtain ⟨D, st, rfl, h3, h4⟩ := (c2 v).mp h1
      obtain ⟨a, h5, h6⟩ := map_ok_iff.mp h2
      rw [graft_assembleScripts] at h5
      obtain ⟨g, h7, rfl⟩ := map_ok_iff.mp h5
      cases h6
      exact ⟨D, st, g, rfl, h3, h4, h7⟩
    · rintro ⟨D, st, g, rfl, h3, h4, h7⟩
      refine bind_ok.mpr ⟨_, (c2 _).mpr ⟨D, st, rfl, h3, h4⟩, ?_⟩
      rw [graft_assembleScripts, h7]
      rfl

theorem filter_notSource {f : Event → Bool} (h : ∀ e, f e = true → area e ≠ .sources) (evs : List Event) :
    (evs.filter notSource).filter f = evs.filter f := by
  rw [List.filter_filter]
  refine List.filter_congr fun e _ => ?_
  cases hf : f e with
  | false => rfl
  | true => unfold notSource; rw [isSource_area (h e hf)]; rfl

theorem filter_areas (evs : List Event) : (evs.filter notSource).filter Spec.describesSchema = evs.filter Spec.describesSchema ∧
    (evs.filter notSource).filter Spec.aboutGraph = evs.filter Spec.aboutGraph ∧
    (evs.filter notSource).filter Spec.aboutLayouts = evs.filter Spec.aboutLayouts ∧
    (evs.filter notSource).filter Spec.aboutScripts = evs.filter Spec.aboutScripts :=
  ⟨filter_notSource (fun _ h => by rw [area_schema h]; simp) evs, filter_notSource (fun _ h => by rw [area_graph h]; simp) evs,
    filter_notSource (fun _ h => by rw [area_layouts h]; simp) evs, filter_notSource (fun _ h => by rw [area_scripts h]; simp) evs⟩

theorem area_of_filter (evs : List Event) : ∀ e ∈ evs.filter notSource, area e ≠ .sources := by
  intro e he
  have := (List.mem_filter.mp he).2
  unfold notSource at this
  exact area_not_source (by simpa using this)

/-- What a decompiled file says about each component depends on the chunks about it only. -/
theorem raw_project {p : Profile} {buf : Bytes} {raws : List Raw} (h : Spec.RawFileOf buf raws)
    {fuel : Nat} {f : FmpFile} (hd : decompile p buf fuel = .ok (some f)) : ∃ T G L S D g,
    f = { (merge T G L { S with file := g }).file with dataSources := D.file.dataSources } ∧
    runEvents p {} ((Spec.seen raws).filter Spec.describesSchema) = .ok T ∧
    runEvents p {} ((Spec.seen raws).filter Spec.aboutGraph) = .ok G ∧ runEvents p {} ((Spec.seen raws).filter Spec.aboutLayouts) = .ok L ∧
    runEvents p {} ((Spec.seen raws).filter Spec.aboutScripts) = .ok S ∧ runNotes p {} (raws.filterMap Raw.note) = .ok D ∧
    assembleScripts S = .ok g := by
  obtain ⟨fuel₀, hf⟩ := raw_events (p := p) h
  have h2 := decompile_mono hd (by simp) (max fuel fuel₀) (by omega)
  obtain ⟨D, st, g, rfl, h3, h4, h5⟩ := ((hf _ (by omega)).2 f).mp h2
  obtain ⟨T, G, L, S, r0, r1, r2, r3, r4⟩ := run_project p _ (area_of_filter _) (T := {}) (G := {}) (L := {}) (S := {}) h4
  obtain ⟨e1, e2, e3, e4⟩ := filter_areas (Spec.seen raws)
  rw [e1] at r1; rw [e2] at r2; rw [e3] at r3; rw [e4] at r4
  subst r0
  rw [frame_assembleScripts] at h5
  obtain ⟨g', h6, rfl⟩ := map_ok_iff.mp h5
  exact ⟨T, G, L, S, D, g', rfl, r1, r2, r3, r4, h3, h6⟩

theorem file_project {p : Profile} {buf : Bytes} {evs : List Event} (h : Spec.FileOf buf evs)
    {fuel : Nat} {f : FmpFile} (hd : decompile p buf fuel = .ok (some f)) : ∃ T G L S g ds,
    f = { (merge T G L { S with file := g }).file with dataSources := ds } ∧ runEvents p {} (evs.filter Spec.describesSchema) = .ok T ∧
    runEvents p {} (evs.filter Spec.aboutGraph) = .ok G ∧ runEvents p {} (evs.filter Spec.aboutLayouts) = .ok L ∧
    runEvents p {} (evs.filter Spec.aboutScripts) = .ok S ∧ assembleScripts S = .ok g := by
  obtain ⟨raws, h1, rfl⟩ := file_raw h
  obtain ⟨T, G, L, S, D, g, r0, r1, r2, r3, r4, _, r5⟩ := raw_project h1 hd
  exact ⟨T, G, L, S, g, _, r0, r1, r2, r3, r4, r5⟩

/-- A file whose chunks run for each component decompiles to the components. -/
theorem raw_run {p : Profile} {buf : Bytes} {raws : List Raw} (h : Spec.RawFileOf buf raws)
    {T G L S D : DState} {f : FmpFile} (h1 : runEvents p {} ((Spec.seen raws).filter Spec.describesSchema) = .ok T)
    (h2 : runEvents p {} ((Spec.seen raws).filter Spec.aboutGraph) = .ok G) (h3 : runEvents p {} ((Spec.seen raws).filter Spec.aboutLayouts) = .ok L)
    (h4 : runEvents p {} ((Spec.seen raws).filter Spec.aboutScripts) = .ok S) (h5 : runNotes p {} (raws.filterMap Raw.note) = .ok D)
    (h6 : assembleScripts S = .ok f) :
    ∃ fuel₀, ∀ fuel, fuel₀ ≤ fuel →
      decompile p buf fuel = .ok (some { (merge T G L { S with file := f }).file with dataSources := D.file.dataSources }) := by
  obtain ⟨fuel₀, hf⟩ := raw_events (p := p) h
  refine ⟨fuel₀, fun fuel hle => ((hf fuel hle).2 _).mpr ⟨D, merge T G L S, _, rfl, h5, ?_, ?_⟩⟩
  · obtain ⟨e1, e2, e3, e4⟩ := filter_areas (Spec.seen raws)
    exact run_split p _ (area_of_filter _) (by rw [e1]; exact h1) (by rw [e2]; exact h2) (by rw [e3]; exact h3) (by rw [e4]; exact h4)
  · rw [frame_assembleScripts, h6]
    rfl

/-- If no run of the events before an event leads to a state in which it succeeds, decompilation panics. -/
theorem file_fails {p : Profile} {buf : Bytes} {pre post : List Event} {e : Event} (h : Spec.FileOf buf (pre ++ e :: post))
    (hs : isSource (classify e.path) = false) (hr : ∀ u u', runEvents p {} (pre.filter notSource) = .ok u → edispatch p u e ≠ .ok u') :
    ∃ fuel₀, ∃ x, ∀ fuel, fuel₀ ≤ fuel → decompile p buf fuel = .error x := by
  obtain ⟨raws, h1, h2⟩ := file_raw h
  obtain ⟨fuel₀, hf⟩ := raw_events (p := p) h1
  obtain ⟨n1, n2⟩ := hf fuel₀ (Nat.le_refl _)
  cases hx : decompile p buf fuel₀ with
  | error x => exact ⟨fuel₀, x, fun fuel hle => decompile_mono hx (by simp) fuel hle⟩
  | ok r =>
    cases r with
    | none => exact absurd hx n1
    | some f =>
      obtain ⟨D, st, g, _, _, h3, _⟩ := (n2 f).mp hx
      rw [h2, List.filter_append, List.filter_cons_of_pos (by unfold notSource; rw [hs]; rfl), runEvents_append] at h3
      obtain ⟨u, h4, h5⟩ := bind_ok.mp h3
      rw [runEvents_cons] at h5
      obtain ⟨u', h6, _⟩ := bind_ok.mp h5
      exact absurd h6 (hr u u' h4)

end BurnFm
