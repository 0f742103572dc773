import Verif.Proofs.Decompiler
import Verif.Spec.FileLayout

namespace BurnFm

theorem getInt_be32 {buf d : Bytes} {start : Nat} (h : slice buf start (start + 4) = .ok d) :
    getInt d = Spec.be32 buf start := by
  obtain ⟨_, h2, h3⟩ := slice_ok.mp h
  have e : d = [buf[start], buf[start + 1], buf[start + 2], buf[start + 3]] := by
    rw [h3, show start + 4 - start = 4 by omega]
    rw [List.drop_eq_getElem_cons (by omega), List.drop_eq_getElem_cons (by omega), List.drop_eq_getElem_cons (by omega),
      List.drop_eq_getElem_cons (by omega)]
    rfl
  have g : ∀ k, k < buf.length → ∀ v, buf[k]? = some v → buf.getD k 0 = v := by
    intro k _ v hv; rw [List.getD_eq_getElem?_getD, hv]; rfl
  rw [e]
  unfold Spec.be32
  rw [g start (by omega) _ (List.getElem?_eq_getElem (by omega)), g (start + 1) (by omega) _ (List.getElem?_eq_getElem (by omega)),
    g (start + 2) (by omega) _ (List.getElem?_eq_getElem (by omega)), g (start + 3) (by omega) _ (List.getElem?_eq_getElem (by omega))]
  simp only [getInt, Nat.shiftLeft_eq]
  omega

theorem slice_slice_end {α : Type} {xs s d : List α} {a i j : Nat} (h : slice xs a xs.length = .ok s)
    (h2 : slice s i j = .ok d) : slice xs (a + i) (a + j) = .ok d := by
  obtain ⟨h3, _, rfl⟩ := slice_ok.mp h
  obtain ⟨h4, h5, rfl⟩ := slice_ok.mp h2
  have e : List.take (xs.length - a) (List.drop a xs) = List.drop a xs := List.take_of_length_le (by simp)
  rw [e] at h5 ⊢
  rw [slice_ok]
  simp at h5
  refine ⟨by omega, by omega, ?_⟩
  rw [List.drop_drop]
  congr 1
  omega

theorem getSector_next {buf : Bytes} {start : Nat} {sec : Sector} (h : getSector buf start = .ok sec) :
    sec.next = Spec.be32 buf (start + 8) := by
  unfold getSector at h
  simp only [bind_ok, pure_ok, Except.ok.injEq] at h
  obtain ⟨s, h1, d, h2, l, h3, prev, h4, next, h5, pl, h6, rfl⟩ := h
  exact getInt_be32 (slice_slice_end h1 h5)

theorem getSector_of {buf : Bytes} {start : Nat} (h : start + 20 ≤ buf.length) :
    ∃ sec, getSector buf start = .ok sec ∧ sec.next = Spec.be32 buf (start + 8) := by
  have key : ∃ sec, getSector buf start = .ok sec := by
    unfold getSector
    have e1 : slice buf start buf.length = .ok (buf.drop start) := by
      rw [slice_ok]; refine ⟨by omega, by omega, ?_⟩; rw [List.take_of_length_le (by simp)]
    rw [e1, ok_bind]
    have hl : (buf.drop start).length = buf.length - start := by simp
    generalize buf.drop start = s at hl
    have i : ∀ k, k < 20 → ∃ x, idx s k = .ok x := fun k hk => ⟨_, idx_of (List.getElem?_eq_getElem (by omega))⟩
    have sl : ∀ a b, a ≤ b → b ≤ 20 → ∃ x, slice s a b = .ok x := fun a b hab hb =>
      ⟨_, slice_ok.mpr ⟨hab, by omega, rfl⟩⟩
    obtain ⟨x0, e0⟩ := i 0 (by omega)
    obtain ⟨x1, e1⟩ := i 1 (by omega)
    obtain ⟨x2, e2⟩ := sl 4 8 (by omega) (by omega)
    obtain ⟨x3, e3⟩ := sl 8 12 (by omega) (by omega)
    have e4 : slice s 20 s.length = .ok _ := slice_ok.mpr ⟨by omega, by omega, rfl⟩
    rw [e0, ok_bind, e1, ok_bind, e2, ok_bind, e3, ok_bind, e4, ok_bind]
    exact ⟨_, rfl⟩
  obtain ⟨sec, hs⟩ := key
  exact ⟨sec, hs, getSector_next hs⟩

theorem sectorLoop_terminates (p : Profile) (buf : Bytes) (start bound s₀ : Nat)
    (hs : ∀ (o : Nat) (path : DirPath), Reaches p buf start bound s₀ o path →
      buf[o]? = some 0x0F ∨ buf[o]? = some 0xCF → buf[o + 1]? = some 0x80) :
    ∀ (fuel o : Nat) (path : DirPath) (st : DState), bound ≤ o + fuel → Reaches p buf start bound s₀ o path →
    sectorLoop p buf start bound (fuel + 1) o path st ≠ .ok none := by
  intro fuel
  induction fuel with
  | zero =>
    intro o path st hf hr h
    unfold sectorLoop at h
    rw [if_neg (by omega)] at h
    cases h
  | succ n ih =>
    intro o path st hf hr h
    rw [sectorLoop] at h
    split at h
    · rename_i hlt
      cases hg : getChunk p buf o path start with
      | error e => rw [hg] at h; cases h
      | ok d =>
        rw [hg, ok_bind] at h
        cases d with
        | invalid => cases h
        | ok ch off' path' =>
          dsimp only at h
          cases hd : dispatch p st path' ch with
          | error e => rw [hd] at h; cases h
          | ok st' =>
            rw [hd, ok_bind] at h
            have : o < off' := by
              obtain ⟨b, body, hb, hbody, rfl, _, _⟩ := getChunk_ok hg
              rcases progress_body hbody with h1 | ⟨h1, h2, h3⟩
              · exact h1
              · exact absurd (hs o path hr (by rcases (strip_0F b).mp h1 with rfl | rfl <;> simp [hb])) h2
            exact ih off' path' st' (by omega) (.step hr hlt hg) h
    · cases h

theorem fileLoop_terminates (p : Profile) (buf : Bytes) (n : Nat) (hs : NoBareSegment p buf) {i : Nat}
    (hc : Spec.ChainEnds buf i) : ∃ fuel, ∀ st, fileLoop p buf n fuel i st ≠ .ok none := by
  induction hc with
  | zero => exact ⟨1, fun st h => by unfold fileLoop at h; cases h⟩
  | @next i _ ih =>
    obtain ⟨fuel, ih⟩ := ih
    refine ⟨max fuel 4097 + 1, fun st h => ?_⟩
    unfold fileLoop at h
    by_cases hi : i = 0
    · rw [if_pos hi] at h; cases h
    · rw [if_neg hi] at h
      dsimp only at h
      cases hg : getSector buf (i * 4096) with
      | error e => rw [hg] at h; cases h
      | ok sec =>
        rw [hg, ok_bind] at h
        split at h
        · cases h
        · cases hl : sectorLoop p buf (i * 4096) (i * 4096 + 4096) (max fuel 4097) (i * 4096 + 20) [] st with
          | error e => rw [hl] at h; cases h
          | ok o =>
            rw [hl, ok_bind] at h
            cases o with
            | none =>
              obtain ⟨m, hm⟩ : ∃ m, max fuel 4097 = m + 1 := ⟨max fuel 4097 - 1, by omega⟩
              rw [hm] at hl
              exact sectorLoop_terminates p buf _ _ _ (hs i) m _ _ _ (by omega) .start hl
            | some st' =>
              dsimp only at h
              rw [getSector_next hg] at h
              have h2 := ih st'
              have h3 := fileLoop_mono (p := p) (buf := buf) (n := n) (fuel := fuel) (i := Spec.be32 buf (i * 4096 + 8)) (st := st')
                rfl h2 (max fuel 4097) (by omega)
              rw [h3] at h
              exact h2 h

theorem fileLoop_run {p : Profile} {buf : Bytes} {n i : Nat} {chs : List Chunk} (h : FileReads p buf n i chs) :
    ∃ fuel₀, ∀ fuel st, fuel₀ ≤ fuel → fileLoop p buf n fuel i st = some <$> runChunks p st chs := by
  induction h with
  | done =>
    refine ⟨1, fun fuel st hf => ?_⟩
    obtain ⟨m, rfl⟩ : ∃ m, fuel = m + 1 := ⟨fuel - 1, by omega⟩
    unfold fileLoop
    rfl
  | @sector i chs rest h1 h2 h3 h4 _ ih =>
    obtain ⟨fuel₀, ih⟩ := ih
    refine ⟨max fuel₀ (chs.length + 1) + 1, fun fuel st hf => ?_⟩
    obtain ⟨m, rfl⟩ : ∃ m, fuel = m + 1 := ⟨fuel - 1, by omega⟩
    obtain ⟨sec, g1, g2⟩ := getSector_of h3
    unfold fileLoop
    rw [if_neg h1]
    dsimp only
    rw [g1, ok_bind, if_neg (by omega), sectorLoop_run h4 m st (by omega), runChunks_append]
    cases hr : runChunks p st chs with
    | error e => rfl
    | ok st' =>
      rw [show (some <$> (.ok st' : Res DState)) = .ok (some st') from rfl, ok_bind, ok_bind]
      dsimp only
      rw [g2]
      exact ih m st' (by omega)

theorem decompile_run {p : Profile} {buf : Bytes} {chs : List Chunk} (hl : 4116 ≤ buf.length)
    (h : FileReads p buf (Spec.nextSector buf 1) 2 chs) :
    ∃ fuel₀, ∀ fuel, fuel₀ ≤ fuel →
      decompile p buf fuel = runChunks p {} chs >>= fun st => some <$> assembleScripts st := by
  obtain ⟨fuel₀, h⟩ := fileLoop_run h
  refine ⟨fuel₀, fun fuel hf => ?_⟩
  obtain ⟨sec, g1, g2⟩ := getSector_of (buf := buf) (start := 4096) (by omega)
  unfold decompile
  rw [g1, ok_bind, g2]
  have := h fuel {} hf
  unfold Spec.nextSector at this
  rw [this]
  cases hr : runChunks p {} chs with
  | error e => rfl
  | ok st' => rfl

/-- A self-linked sector without content is read forever. -/
theorem decompile_cyclic (p : Profile) (buf : Bytes) (hl : 12288 ≤ buf.length) (hn : 2 ≤ Spec.be32 buf 4104)
    (hc : Spec.nextSector buf 2 = 2) (hz : ∀ i, 8212 ≤ i → i < 12288 → buf[i]? = some 0) (fuel : Nat) :
    decompile p buf fuel = .ok none := by
  obtain ⟨chs, h1, h2⟩ := readsTo_zeros (p := p) (buf := buf) (loc := 8192) (bound := 12288) (by omega) 2038 8212 [] (by omega) (fun k hk => hz _ (by omega) hk)
  have run : ∀ k st, sectorLoop p buf 8192 12288 k 8212 [] st = .ok none ∨
      sectorLoop p buf 8192 12288 k 8212 [] st = .ok (some st) := by
    intro k st
    by_cases h : sectorLoop p buf 8192 12288 k 8212 [] st = .ok none
    · exact .inl h
    · right
      have h3 := sectorLoop_mono rfl h (max k (chs.length + 1)) (by omega)
      rw [← h3, sectorLoop_run h1 _ st (by omega), runChunks_other]
      · rfl
      · intro ch hch; rw [(h2 ch hch).1]; rfl
  obtain ⟨sec, g1, g2⟩ := getSector_of (buf := buf) (start := 8192) (by omega)
  obtain ⟨first, f1, f2⟩ := getSector_of (buf := buf) (start := 4096) (by omega)
  have loop : ∀ fuel st, fileLoop p buf first.next fuel 2 st = .ok none := by
    intro fuel
    induction fuel with
    | zero => intro st; rfl
    | succ n ih =>
      intro st
      unfold fileLoop
      rw [if_neg (by decide)]
      show (getSector buf 8192 >>= _) = _
      rw [g1, ok_bind, if_neg (by rw [f2]; exact Nat.not_lt.mpr hn)]
      show (sectorLoop p buf 8192 12288 n 8212 [] st >>= _) = _
      rcases run n st with h | h <;> rw [h, ok_bind]
      · rfl
      · dsimp only
        rw [g2]
        have : Spec.be32 buf (8192 + 8) = 2 := hc
        rw [this]
        exact ih st
  unfold decompile
  rw [f1, ok_bind, loop, ok_bind]
  rfl

/-- A segment opcode without 0x80 at the start of the first sector is read forever. -/
theorem decompile_stuck (p : Profile) (buf : Bytes) (hl : 12288 ≤ buf.length) (hn : 2 ≤ Spec.be32 buf 4104)
    (h0 : buf[8212]? = some 0x0F) (h1 : buf[8213]? ≠ some 0x80) (fuel : Nat) : decompile p buf fuel = .ok none := by
  have hchunk : getChunk p buf 8212 [] 8192 = .ok (.ok { ctype := .noop, code := 0x0F, data := none, refData := none, path := [], segmentIdx := none, refSimple := none } 8212 []) := by
    have hb : chunkBody buf 8212 (stripDelay 0x0F) = .ok (some { ctype := .noop, off := 8212 }) := by
      rw [show stripDelay 0x0F = 0x0F from rfl, show chunkBody buf 8212 0x0F = some <$> armSegmentE buf 8212 from rfl, some_map_ok]
      unfold armSegmentE
      have e : idx buf (8212 + 1) = .ok buf[8213] := idx_of (List.getElem?_eq_getElem (by omega))
      rw [e, ok_bind, if_neg]
      · rfl
      · intro h; apply h1; rw [List.getElem?_eq_getElem (by omega), h]
    rw [getChunk_of_body h0 hb]
    rfl
  have sec : ∀ k st, sectorLoop p buf 8192 12288 k 8212 [] st = .ok none := by
    intro k
    induction k with
    | zero => intro st; rfl
    | succ n ih =>
      intro st
      unfold sectorLoop
      rw [if_pos (by decide), hchunk, ok_bind]
      exact ih st
  obtain ⟨s2, g1, g2⟩ := getSector_of (buf := buf) (start := 8192) (by omega)
  obtain ⟨first, f1, f2⟩ := getSector_of (buf := buf) (start := 4096) (by omega)
  unfold decompile
  rw [f1, ok_bind]
  cases fuel with
  | zero => rfl
  | succ n =>
    unfold fileLoop
    rw [if_neg (by decide)]
    show ((getSector buf 8192 >>= _) >>= _) = _
    rw [g1, ok_bind, if_neg (by rw [f2]; exact Nat.not_lt.mpr hn)]
    show ((sectorLoop p buf 8192 12288 n 8212 [] _ >>= _) >>= _) = _
    rw [sec, ok_bind]
    rfl

end BurnFm
