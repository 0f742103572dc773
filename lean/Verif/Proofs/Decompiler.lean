import Verif.Model.Decompiler
import Verif.Proofs.HMap
import Verif.Proofs.Chunk
import Verif.Spec.Decodes

namespace BurnFm

/-- Handle chunks one after the other. -/
def runChunks (p : Profile) (st : DState) (chs : List Chunk) : Res DState :=
  chs.foldlM (fun st ch => dispatch p st ch.path ch) st

theorem runChunks_nil (p : Profile) (st : DState) : runChunks p st [] = .ok st := rfl

theorem runChunks_cons (p : Profile) (st : DState) (ch : Chunk) (chs : List Chunk) :
    runChunks p st (ch :: chs) = dispatch p st ch.path ch >>= fun st => runChunks p st chs := by
  unfold runChunks; rw [List.foldlM_cons]

theorem runChunks_append (p : Profile) (st : DState) (a b : List Chunk) :
    runChunks p st (a ++ b) = runChunks p st a >>= fun st => runChunks p st b := by
  unfold runChunks; rw [List.foldlM_append]

theorem chunk_path_eq {p : Profile} {code : Bytes} {o loc off : Nat} {path path' : DirPath} {ch : Chunk}
    (h : getChunk p code o path loc = .ok (.ok ch off path')) : ch.path = path' := by
  obtain ⟨_, _, _, _, _, _, rfl⟩ := getChunk_ok h
  rfl

theorem sectorLoop_run {p : Profile} {buf : Bytes} {start bound o : Nat} {path : DirPath} {chs : List Chunk}
    (h : ReadsTo p buf start bound o path chs) : ∀ (fuel : Nat) (st : DState), chs.length + 1 ≤ fuel →
    sectorLoop p buf start bound fuel o path st = some <$> runChunks p st chs := by
  induction h with
  | done hb =>
    intro fuel st hf
    obtain ⟨n, rfl⟩ : ∃ n, fuel = n + 1 := ⟨fuel - 1, by simp at hf; omega⟩
    unfold sectorLoop
    rw [if_neg (by omega)]
    rfl
  | cons hb hg _ ih =>
    intro fuel st hf
    obtain ⟨n, rfl⟩ : ∃ n, fuel = n + 1 := ⟨fuel - 1, by omega⟩
    unfold sectorLoop
    rw [if_pos hb, hg, ok_bind, runChunks_cons, chunk_path_eq hg]
    dsimp only
    cases dispatch p st _ _ with
    | error e => rfl
    | ok st' => rw [ok_bind, ok_bind]; exact ih n st' (by simp at hf; omega)

theorem sectorLoop_mono {p : Profile} {buf : Bytes} {start bound : Nat} : ∀ {fuel o : Nat} {path : DirPath} {st : DState}
    {r : Res (Option DState)}, sectorLoop p buf start bound fuel o path st = r → r ≠ .ok none → ∀ fuel', fuel ≤ fuel' →
    sectorLoop p buf start bound fuel' o path st = r := by
  intro fuel
  induction fuel with
  | zero => intro o path st r h hr; exact absurd h.symm hr
  | succ n ih =>
    intro o path st r h hr fuel' hf
    obtain ⟨m, rfl⟩ : ∃ m, fuel' = m + 1 := ⟨fuel' - 1, by omega⟩
    unfold sectorLoop at h ⊢
    split
    · rename_i hb
      rw [if_pos hb] at h
      cases hg : getChunk p buf o path start with
      | error e => rw [hg] at h; exact h
      | ok d =>
        rw [hg, ok_bind] at h
        rw [ok_bind]
        cases d with
        | invalid => exact h
        | ok ch off' path' =>
          dsimp only at h ⊢
          cases hd : dispatch p st path' ch with
          | error e => rw [hd] at h; exact h
          | ok st' =>
            rw [hd, ok_bind] at h
            rw [ok_bind]
            exact ih h hr m (by omega)
    · rename_i hb
      rw [if_neg hb] at h; exact h

theorem fileLoop_mono {p : Profile} {buf : Bytes} {n : Nat} : ∀ {fuel i : Nat} {st : DState}
    {r : Res (Option DState)}, fileLoop p buf n fuel i st = r → r ≠ .ok none → ∀ fuel', fuel ≤ fuel' →
    fileLoop p buf n fuel' i st = r := by
  intro fuel
  induction fuel with
  | zero => intro i st r h hr; exact absurd h.symm hr
  | succ k ih =>
    intro i st r h hr fuel' hf
    obtain ⟨m, rfl⟩ : ∃ m, fuel' = m + 1 := ⟨fuel' - 1, by omega⟩
    unfold fileLoop at h ⊢
    by_cases hi : i = 0
    · rw [if_pos hi] at h ⊢; exact h
    · rw [if_neg hi] at h ⊢
      dsimp only at h ⊢
      cases hg : getSector buf (i * 4096) with
      | error e => rw [hg] at h; exact h
      | ok sec =>
        rw [hg, ok_bind] at h
        rw [ok_bind]
        by_cases hn : n < i
        · rw [if_pos hn] at h ⊢; exact h
        · rw [if_neg hn] at h ⊢
          cases hs : sectorLoop p buf (i * 4096) (i * 4096 + 4096) k (i * 4096 + 20) [] st with
          | error e =>
            rw [sectorLoop_mono hs (by simp) m (by omega)]
            rw [hs] at h; exact h
          | ok o =>
            cases o with
            | none => rw [hs, ok_bind] at h; exact absurd h.symm hr
            | some st' =>
              rw [sectorLoop_mono hs (by simp) m (by omega)]
              rw [hs, ok_bind] at h
              rw [ok_bind]
              exact ih h hr m (by omega)

theorem decompile_mono {p : Profile} {buf : Bytes} {fuel : Nat} {r : Res (Option FmpFile)}
    (h : decompile p buf fuel = r) (hr : r ≠ .ok none) (fuel' : Nat) (hf : fuel ≤ fuel') : decompile p buf fuel' = r := by
  unfold decompile at h ⊢
  cases hg : getSector buf 4096 with
  | error e => rw [hg] at h; exact h
  | ok sec =>
    rw [hg, ok_bind] at h
    rw [ok_bind]
    cases hs : fileLoop p buf sec.next fuel 2 {} with
    | error e => rw [fileLoop_mono hs (by simp) fuel' hf]; rw [hs] at h; exact h
    | ok o =>
      cases o with
      | none => rw [hs, ok_bind] at h; exact absurd h.symm hr
      | some st => rw [fileLoop_mono hs (by simp) fuel' hf]; rw [hs] at h; exact h

/-- Chunks in directories the decompiler does not look at change nothing. -/
theorem runChunks_other (p : Profile) (st : DState) (chs : List Chunk) (h : ∀ ch ∈ chs, classify ch.path = .other) :
    runChunks p st chs = .ok st := by
  induction chs with
  | nil => rfl
  | cons ch chs ih =>
    rw [runChunks_cons]
    unfold dispatch
    rw [h ch (by simp)]
    exact ih (fun c hc => h c (by simp [hc]))

theorem getChunk_zero {p : Profile} {buf : Bytes} {o loc : Nat} {path : DirPath} (h : buf[o]? = some 0) (h2 : 2 ≤ buf.length) :
    getChunk p buf o path loc =
      .ok (.ok { ctype := .dataSimple, code := 0, data := some [], refData := none, path := path, segmentIdx := none, refSimple := none }
        (o + 2) path) := by
  have hl : o < buf.length := by
    rcases Nat.lt_or_ge o buf.length with h3 | h3
    · exact h3
    · rw [List.getElem?_eq_none h3] at h; cases h
  have hb : chunkBody buf o (stripDelay 0) = .ok (some { ctype := .dataSimple, data := some [], off := o + 2 }) := by
    rw [show stripDelay 0 = 0 from rfl, show chunkBody buf o 0 = some <$> armEmpty buf o from rfl, some_map_ok]
    unfold armEmpty
    have e1 : slice buf (o + 1) (o + 1) = .ok [] := by rw [slice_ok]; simp; omega
    have e2 : ∃ x, idx buf 1 = .ok x := ⟨buf[1], idx_of (List.getElem?_eq_getElem (by omega))⟩
    obtain ⟨x, e2⟩ := e2
    rw [e1, ok_bind, e2, ok_bind]
    rfl
  have := getChunk_of_body (p := p) (loc := loc) (path := path) h hb
  rw [this]
  rfl

/-- A stretch of zero bytes up to the bound reads as empty data. -/
theorem readsTo_zeros {p : Profile} {buf : Bytes} {loc bound : Nat} (h2 : 2 ≤ buf.length) : ∀ (n o : Nat) (path : DirPath),
    bound ≤ o + 2 * n → (∀ k : Nat, o + 2 * k < bound → buf[o + 2 * k]? = some 0) →
    ∃ chs, ReadsTo p buf loc bound o path chs ∧ ∀ ch ∈ chs, ch.path = path ∧ meaning ch = some (.data []) := by
  intro n
  induction n with
  | zero => intro o path hb _; exact ⟨[], .done (by omega), by simp⟩
  | succ n ih =>
    intro o path hb hz
    by_cases ho : o < bound
    · obtain ⟨chs, h1, h3⟩ := ih (o + 2) path (by omega) (fun k hk => by
        have := hz (k + 1) (by omega); rwa [show o + 2 * (k + 1) = o + 2 + 2 * k by omega] at this)
      refine ⟨_ :: chs, .cons ho (getChunk_zero (by simpa using hz 0 (by omega)) h2) h1, ?_⟩
      intro ch hch
      rcases List.mem_cons.mp hch with rfl | hch
      · exact ⟨rfl, rfl⟩
      · exact h3 ch hch
    · exact ⟨[], .done (by omega), by simp⟩

/-- The chunk read from two zero bytes. -/
def zeroChunk (path : DirPath) : Chunk := ⟨.dataSimple, 0, some [], none, path, none, none⟩

theorem readsTo_padding {p : Profile} {buf : Bytes} {loc bound : Nat} (h2 : 2 ≤ buf.length) (path : DirPath) : ∀ (k o : Nat),
    k = (bound - o + 1) / 2 → (∀ j : Nat, o + 2 * j < bound → buf[o + 2 * j]? = some 0) →
    ReadsTo p buf loc bound o path (List.replicate k (zeroChunk path)) := by
  intro k
  induction k with
  | zero => intro o hb _; exact .done (by omega)
  | succ k ih =>
    intro o hb hz
    refine .cons (by omega) (getChunk_zero (by simpa using hz 0 (by omega)) h2) (ih (o + 2) (by omega) (fun j hj => ?_))
    have := hz (j + 1) (by omega)
    rwa [show o + 2 * (j + 1) = o + 2 + 2 * j by omega] at this

theorem Decodes.le {p : Profile} {code : Bytes} {loc o o' : Nat} {path path' : DirPath} {chs : List Chunk}
    (h : Decodes p code loc o path chs o' path') : o ≤ o' := by
  induction h with
  | nil => omega
  | cons _ g _ ih => omega

theorem Decodes.readsTo {p : Profile} {code : Bytes} {loc bound o o' : Nat} {path path' : DirPath} {chs chs' : List Chunk}
    (h : Decodes p code loc o path chs o' path') (hb : o' ≤ bound) (h2 : ReadsTo p code loc bound o' path' chs') :
    ReadsTo p code loc bound o path (chs ++ chs') := by
  induction h with
  | nil => exact h2
  | cons g1 g2 g3 ih => exact .cons (by have := g3.le; omega) g1 (ih hb h2)

end BurnFm
