import Verif.Proofs.Areas
import Verif.Proofs.ChunkFormat

/-! Decompiling the events of a file. -/

namespace BurnFm
open Spec (Event What FormatRun)

/-- Where no-ops do nothing. -/
def NoopSafe (st : DState) (path : DirPath) : Prop :=
  isSource (classify path) = false ∧ ∀ s k, classify path = .stepValue s k → st.file.scripts.contains s = true

theorem isSource_area {e : Event} (h : area e ≠ .sources) : isSource (classify e.path) = false := by
  unfold area at h
  cases hc : classify e.path <;> rw [hc] at h <;> first | rfl | exact absurd rfl h

theorem quiet_after {p : Profile} {st st' : DState} {e : Event} (hs : area e ≠ .sources) (h : edispatch p st e = .ok st') :
    NoopSafe st' e.path := by
  refine ⟨isSource_area hs, fun s k hc => ?_⟩
  unfold edispatch dispatch at h
  rw [hc] at h
  dsimp only at h
  unfold armStepValue at h
  split at h
  · obtain ⟨d, _, h⟩ := bind_ok.mp h
    obtain ⟨t, _, h⟩ := bind_ok.mp h
    obtain ⟨sc, h1, h⟩ := bind_ok.mp h
    rw [unwrap_ok] at h1
    split at h
    · cases h
    · cases h
      unfold DState.setSteps
      dsimp only
      rw [HMap.contains_modify, HMap.contains_eq, h1]
      rfl
  · split at h
    · cases h; assumption
    · cases h

theorem noop_path {b : UInt8} {bytes : Bytes} {n : Nat} (h : Spec.ChunkFormat (Spec.opcode b) bytes none n) (path : DirPath) :
    Spec.pathAfter b n path = path := by
  have : Spec.opcode b = 0x80 := by
    generalize Spec.opcode b = c at h
    cases h
    rfl
  have hb : b.toNat < 256 := b.toNat_lt
  unfold Spec.opcode at this
  have nd : ¬ Spec.delayed b := by
    unfold Spec.delayed
    intro hd
    rw [if_pos hd] at this
    omega
  unfold Spec.pathAfter Spec.isPush Spec.isPop Spec.opcode
  rw [if_neg nd]
  simp [this]

theorem run_format {p : Profile} {loc : Nat} {path path' : DirPath} {bytes : Bytes} {evs : List Event}
    (h : FormatRun path bytes evs path') (pre post : Bytes) : (∀ e ∈ evs, area e ≠ .sources) →
    ∃ chs, Decodes p (pre ++ (bytes ++ post)) loc pre.length path chs (pre.length + bytes.length) path' ∧
      ∀ st, NoopSafe st path → runChunks p st chs = runEvents p st evs := by
  induction h generalizing pre with
  | nil path => intro _; exact ⟨[], .nil _ _, fun st _ => rfl⟩
  | @cons path path' b bytes rest w n evs h1 _ ih =>
    intro hsrc
    obtain ⟨ch, h2, h3, h4⟩ := format_decodes h1 p pre (rest ++ post) path loc
    have hshape := getChunk_shape h2
    obtain ⟨chs, h5, h6⟩ := ih (pre ++ b :: bytes) (fun e he => hsrc e (by simp [he]))
    refine ⟨ch :: chs, .cons (o₁ := pre.length + (1 + bytes.length)) (path₁ := Spec.pathAfter b n path) ?_ (by omega) ?_, ?_⟩
    · rw [← h2]; simp
    · have e1 : pre ++ b :: bytes ++ (rest ++ post) = pre ++ (b :: bytes ++ rest ++ post) := by simp
      have e2 : (pre ++ b :: bytes).length = pre.length + (1 + bytes.length) := by simp; omega
      have e3 : (pre ++ b :: bytes).length + rest.length = pre.length + (b :: bytes ++ rest).length := by simp; omega
      rw [e3, e1, e2] at h5
      exact h5
    · intro st hq
      rw [runChunks_cons]
      cases w with
      | none =>
        have hp := noop_path h1 path
        rw [dispatch_noop hshape h3 (by rw [h4, hp]; exact hq.1) (by rw [h4, hp]; exact hq.2), ok_bind]
        exact h6 st (by rw [hp]; exact hq)
      | some w =>
        have hs : area ⟨Spec.pathAfter b n path, w⟩ ≠ .sources := hsrc _ (by simp)
        rw [dispatch_meaning hshape h3 (by rw [h4]; exact isSource_area hs), h4]
        change _ = runEvents p st (⟨Spec.pathAfter b n path, w⟩ :: evs)
        rw [runEvents_cons]
        cases hd : edispatch p st ⟨Spec.pathAfter b n path, w⟩ with
        | error e => rfl
        | ok u => exact h6 u (quiet_after hs hd)

theorem split_sector {buf bytes : Bytes} {a n : Nat} (h : (buf.drop a).take 4076 = bytes ++ Spec.zeros n) (hl : a + 4076 ≤ buf.length) :
    buf = buf.take a ++ (bytes ++ (Spec.zeros n ++ buf.drop (a + 4076))) ∧ bytes.length + n = 4076 ∧ (buf.take a).length = a := by
  have l1 : ((buf.drop a).take 4076).length = 4076 := by rw [List.length_take, List.length_drop]; omega
  rw [h] at l1
  refine ⟨?_, by simpa [Spec.zeros] using l1, by rw [List.length_take]; omega⟩
  rw [← List.append_assoc bytes, ← h, ← List.drop_drop, List.take_append_drop, List.take_append_drop]

theorem seen_padding (path : DirPath) (n : Nat) : Spec.seen (Spec.padding path n) = List.replicate ((n + 1) / 2) ⟨path, .data []⟩ := by
  unfold Spec.seen Spec.padding
  rw [List.filterMap_replicate]
  rfl

theorem zeroChunk_shape (path : DirPath) : Shape (zeroChunk path) := by
  constructor <;> simp [zeroChunk]

theorem run_zeros {p : Profile} {path : DirPath} (hs : isSource (classify path) = false) (st : DState) (k : Nat) :
    runChunks p st (List.replicate k (zeroChunk path)) = runEvents p st (List.replicate k ⟨path, .data []⟩) := by
  induction k generalizing st with
  | zero => rfl
  | succ k ih =>
    rw [List.replicate_succ, List.replicate_succ, runChunks_cons, runEvents_cons,
      dispatch_meaning (ch := zeroChunk path) (w := .data []) (zeroChunk_shape path) rfl hs, show (zeroChunk path).path = path from rfl]
    cases edispatch p st ⟨path, .data []⟩ with
    | error e => rfl
    | ok u => exact ih u

theorem sector_zeros {buf bytes : Bytes} {a n : Nat} (h : (buf.drop a).take 4076 = bytes ++ Spec.zeros n) (hl : a + 4076 ≤ buf.length)
    (k : Nat) (hk : a + bytes.length + 2 * k < a + 4076) : buf[a + bytes.length + 2 * k]? = some 0 := by
  obtain ⟨s1, s2, s3⟩ := split_sector h hl
  rw [s1, ← List.append_assoc, List.getElem?_append_right (by rw [List.length_append, s3]; omega), List.length_append, s3,
    List.getElem?_append_left (by simp [Spec.zeros]; omega)]
  exact List.getElem?_replicate_of_lt (by omega)

theorem run_sectors {p : Profile} {buf : Bytes} {i : Nat} {evs : List Event} (h : Spec.Sectors buf i evs) :
    (∀ e ∈ evs, area e ≠ .sources) →
    ∃ chs, FileReads p buf (Spec.nextSector buf 1) i chs ∧ ∀ st, runChunks p st chs = runEvents p st evs := by
  induction h with
  | last => intro _; exact ⟨[], .done, fun st => rfl⟩
  | @sector i n bytes evs rest hi hn hl hb hf _ ih =>
    intro hs
    obtain ⟨s1, s2, s3⟩ := split_sector hb (by omega)
    obtain ⟨chs, d1, d2⟩ := run_format (p := p) (loc := i * 4096) hf (buf.take (i * 4096 + 20)) (Spec.zeros n ++ buf.drop (i * 4096 + 20 + 4076))
      (fun e he => hs e (by simp [he]))
    rw [← s1, s3] at d1
    obtain ⟨chs2, r1, r2⟩ := readsTo_zeros (p := p) (buf := buf) (loc := i * 4096) (bound := i * 4096 + 4096) (by omega) n
      (i * 4096 + 20 + bytes.length) [] (by omega) (fun k hk => by
        rw [s1, ← List.append_assoc, List.getElem?_append_right (by rw [List.length_append, s3]; omega), List.length_append, s3,
          List.getElem?_append_left (by simp [Spec.zeros]; omega)]
        exact List.getElem?_replicate_of_lt (by omega))
    obtain ⟨chs3, f1, f2⟩ := ih (fun e he => hs e (by simp [he]))
    refine ⟨(chs ++ chs2) ++ chs3, .sector hi hn (by omega) (d1.readsTo (by omega) r1) f1, fun st => ?_⟩
    rw [runChunks_append, runChunks_append, runEvents_append, d2 st ⟨rfl, fun s k hc => by cases hc⟩]
    cases runEvents p st evs with
    | error e => rfl
    | ok u =>
      rw [ok_bind, ok_bind, runChunks_other p u chs2 (fun ch hc => by rw [(r2 ch hc).1]; rfl), ok_bind, f2]
  | @openSector i n bytes path evs rest hi hn hl hb hf _ ih =>
    intro hs
    obtain ⟨s1, s2, s3⟩ := split_sector hb (by omega)
    obtain ⟨chs, d1, d2⟩ := run_format (p := p) (loc := i * 4096) hf (buf.take (i * 4096 + 20)) (Spec.zeros n ++ buf.drop (i * 4096 + 20 + 4076))
      (fun e he => hs e (by simp [he]))
    rw [← s1, s3] at d1
    have r1 := readsTo_padding (p := p) (buf := buf) (loc := i * 4096) (bound := i * 4096 + 4096) (by omega) path ((n + 1) / 2)
      (i * 4096 + 20 + bytes.length) (by omega) (fun k hk => sector_zeros hb (by omega) k (by omega))
    obtain ⟨chs3, f1, f2⟩ := ih (fun e he => hs e (by simp [he]))
    refine ⟨(chs ++ _) ++ chs3, .sector hi hn (by omega) (d1.readsTo (by omega) r1) f1, fun st => ?_⟩
    have hz : ∀ u, runChunks p u (List.replicate ((n + 1) / 2) (zeroChunk path)) = runEvents p u (Spec.seen (Spec.padding path n)) := by
      intro u
      rw [seen_padding]
      by_cases h0 : (n + 1) / 2 = 0
      · rw [h0]; rfl
      · exact run_zeros (isSource_area (hs ⟨path, .data []⟩ (by rw [seen_padding]; simp [h0]))) u _
    rw [runChunks_append, runChunks_append, runEvents_append, runEvents_append, d2 st ⟨rfl, fun s k hc => by cases hc⟩]
    cases runEvents p st evs with
    | error e => rfl
    | ok u =>
      rw [ok_bind, ok_bind, hz]
      cases runEvents p u (Spec.seen (Spec.padding path n)) with
      | error e => rfl
      | ok v => rw [ok_bind, ok_bind, f2]

theorem of_classify_source {path : DirPath} (h : areaOf (classify path) = .sources) :
    path = [32, 1, 1] ∨ (path.take 2 = [32, 5] ∧ 3 ≤ path.length) := by
  cases hc : classify path <;> rw [hc] at h <;> first | (cases h; done) | skip
  · left
    unfold classify at hc
    dsimp only at hc
    repeat' (refine ite_elim hc (fun hx hc => ?_) (fun hc => ?_))
    all_goals try (cases hc; done)
    exact hx
  · right
    unfold classify at hc
    dsimp only at hc
    repeat' (refine ite_elim hc (fun hx hc => ?_) (fun hc => ?_))
    all_goals try (cases hc; done)
    exact hx

theorem no_source {e : Event} (h : Spec.aboutSources e = false) : area e ≠ .sources := by
  intro ha
  unfold Spec.aboutSources at h
  rcases of_classify_source ha with h1 | ⟨h1, h2⟩
  · rw [h1] at h; cases h
  · simp [h1, h2] at h

/-- Decompiling a file is running its events. -/
theorem file_events {p : Profile} {buf : Bytes} {evs : List Event} (h : Spec.FileOf buf evs) (hs : ∀ e ∈ evs, Spec.aboutSources e = false) :
    ∃ fuel₀, ∀ fuel, fuel₀ ≤ fuel → decompile p buf fuel = runEvents p {} evs >>= fun st => some <$> assembleScripts st := by
  obtain ⟨chs, c1, c2⟩ := run_sectors (p := p) h.2 (fun e he => no_source (hs e he))
  obtain ⟨fuel₀, hf⟩ := decompile_run h.1 c1
  refine ⟨fuel₀, fun fuel hle => ?_⟩
  rw [hf fuel hle, c2]

/-- A file whose events run for each component decompiles to the components. -/
theorem file_run {p : Profile} {buf : Bytes} {evs : List Event} (h : Spec.FileOf buf evs) (hs : ∀ e ∈ evs, Spec.aboutSources e = false)
    {T G L S : DState} {f : FmpFile} (h1 : runEvents p {} (evs.filter Spec.describesSchema) = .ok T)
    (h2 : runEvents p {} (evs.filter Spec.aboutGraph) = .ok G) (h3 : runEvents p {} (evs.filter Spec.aboutLayouts) = .ok L)
    (h4 : runEvents p {} (evs.filter Spec.aboutScripts) = .ok S) (h5 : assembleScripts S = .ok f) :
    ∃ fuel₀, ∀ fuel, fuel₀ ≤ fuel → decompile p buf fuel = .ok (some (merge T G L { S with file := f }).file) := by
  obtain ⟨fuel₀, hf⟩ := file_events (p := p) h hs
  refine ⟨fuel₀, fun fuel hle => ?_⟩
  have hr : runEvents p {} evs = .ok (merge T G L S) := run_split p evs (fun e he => no_source (hs e he)) h1 h2 h3 h4
  rw [hf fuel hle, hr, ok_bind, frame_assembleScripts, h5]
  rfl

theorem run_idle {p : Profile} {f : Event → Bool} {s u s' : DState} {e : Event} {evs : List Event}
    (hi : f e = false → edispatch p s e = .ok s) (he : edispatch p s e = .ok u) (h : runEvents p u (evs.filter f) = .ok s') :
    runEvents p s ((e :: evs).filter f) = .ok s' := by
  cases hf : f e with
  | true => rw [List.filter_cons_of_pos hf, runEvents_cons, he]; exact h
  | false =>
    rw [hi hf] at he
    cases he
    rw [filter_skip hf]
    exact h

/-- A successful run over mixed events is a successful run for each component. -/
theorem run_project (p : Profile) (evs : List Event) (hs : ∀ e ∈ evs, area e ≠ .sources) : ∀ {T G L S st' : DState},
    runEvents p (merge T G L S) evs = .ok st' → ∃ T' G' L' S', st' = merge T' G' L' S' ∧
    runEvents p T (evs.filter Spec.describesSchema) = .ok T' ∧ runEvents p G (evs.filter Spec.aboutGraph) = .ok G' ∧
    runEvents p L (evs.filter Spec.aboutLayouts) = .ok L' ∧ runEvents p S (evs.filter Spec.aboutScripts) = .ok S' := by
  induction evs with
  | nil => intro T G L S st' h; cases h; exact ⟨T, G, L, S, rfl, rfl, rfl, rfl, rfl⟩
  | cons e evs ih =>
    intro T G L S st' h
    have ih := @ih (fun e' he => hs e' (by simp [he]))
    rw [runEvents_cons] at h
    obtain ⟨u, h1, h2⟩ := bind_ok.mp h
    obtain ⟨m1, m2, m3, m4, m5⟩ := edispatch_merge p T G L S e
    have n1 : area e ≠ .tables → (e :: evs).filter Spec.describesSchema = evs.filter Spec.describesSchema := fun h =>
      filter_skip (by cases hf : Spec.describesSchema e with | false => rfl | true => exact absurd (area_schema hf) h)
    have n2 : area e ≠ .graph → (e :: evs).filter Spec.aboutGraph = evs.filter Spec.aboutGraph := fun h =>
      filter_skip (by cases hf : Spec.aboutGraph e with | false => rfl | true => exact absurd (area_graph hf) h)
    have n3 : area e ≠ .layouts → (e :: evs).filter Spec.aboutLayouts = evs.filter Spec.aboutLayouts := fun h =>
      filter_skip (by cases hf : Spec.aboutLayouts e with | false => rfl | true => exact absurd (area_layouts hf) h)
    have n4 : area e ≠ .scripts → (e :: evs).filter Spec.aboutScripts = evs.filter Spec.aboutScripts := fun h =>
      filter_skip (by cases hf : Spec.aboutScripts e with | false => rfl | true => exact absurd (area_scripts hf) h)
    have inv : ∀ {m : DState → DState} {x : Res DState}, m <$> x = .ok u → ∃ y, x = .ok y ∧ m y = u := by
      intro m x hx
      cases x with
      | error e => cases hx
      | ok y => cases hx; exact ⟨y, rfl, rfl⟩
    cases ha : area e with
    | tables =>
      rw [n2 (by simp [ha]), n3 (by simp [ha]), n4 (by simp [ha])]
      rw [m1 ha] at h1
      obtain ⟨y, y1, rfl⟩ := inv h1
      obtain ⟨T', G', L', S', r0, r1, r2, r3, r4⟩ := ih h2
      exact ⟨T', G', L', S', r0, run_idle (fun hf => idle_tables ha hf) y1 r1, r2, r3, r4⟩
    | graph =>
      rw [n1 (by simp [ha]), n3 (by simp [ha]), n4 (by simp [ha])]
      rw [m2 ha] at h1
      obtain ⟨y, y1, rfl⟩ := inv h1
      obtain ⟨T', G', L', S', r0, r1, r2, r3, r4⟩ := ih h2
      exact ⟨T', G', L', S', r0, r1, run_idle (fun hf => idle_graph ha hf) y1 r2, r3, r4⟩
    | layouts =>
      rw [n1 (by simp [ha]), n2 (by simp [ha]), n4 (by simp [ha])]
      rw [m3 ha] at h1
      obtain ⟨y, y1, rfl⟩ := inv h1
      obtain ⟨T', G', L', S', r0, r1, r2, r3, r4⟩ := ih h2
      exact ⟨T', G', L', S', r0, r1, r2, run_idle (fun hf => idle_layouts ha hf) y1 r3, r4⟩
    | scripts =>
      rw [n1 (by simp [ha]), n2 (by simp [ha]), n3 (by simp [ha])]
      rw [m4 ha] at h1
      obtain ⟨y, y1, rfl⟩ := inv h1
      obtain ⟨T', G', L', S', r0, r1, r2, r3, r4⟩ := ih h2
      exact ⟨T', G', L', S', r0, r1, r2, r3, run_idle (fun hf => idle_scripts ha hf) y1 r4⟩
    | sources => exact absurd ha (hs e (by simp))
    | none =>
      rw [n1 (by simp [ha]), n2 (by simp [ha]), n3 (by simp [ha]), n4 (by simp [ha])]
      rw [m5 ha] at h1
      cases h1
      exact ih h2

end BurnFm
