import Verif.Spec.DecompilerOutput
import Verif.Proofs.Unknown
import Verif.Proofs.Raw
import Verif.Proofs.DecompileCalc

namespace BurnFm
open Spec (ReadsInto ComesTo)

/-! The lines do not change the results. -/

theorem sectorSaid_result (p : Profile) (buf : Bytes) (start bound : Nat) : ∀ (fuel off : Nat) (path : DirPath) (st : DState),
    (sectorSaid p buf start bound fuel off path st).2 = sectorLoop p buf start bound fuel off path st := by
  intro fuel
  induction fuel with
  | zero => intro off path st; rfl
  | succ n ih =>
    intro off path st
    rw [sectorSaid, sectorLoop]
    split
    · cases hg : getChunk p buf off path start with
      | error e => rfl
      | ok d =>
        cases d with
        | invalid => rfl
        | ok ch off' path' =>
          rw [ok_bind]
          dsimp only
          cases hd : dispatch p st path' ch with
          | error e => rfl
          | ok st' => rw [ok_bind]; exact ih off' path' st'
    · rfl

theorem fileSaid_result (p : Profile) (buf : Bytes) (n : Nat) : ∀ (fuel i : Nat) (st : DState),
    (fileSaid p buf n fuel i st).2 = fileLoop p buf n fuel i st := by
  intro fuel
  induction fuel with
  | zero => intro i st; rfl
  | succ m ih =>
    intro i st
    rw [fileSaid, fileLoop]
    split
    · rfl
    · dsimp only
      cases hg : getSector buf (i * 4096) with
      | error e => rfl
      | ok sec =>
        rw [ok_bind]
        dsimp only
        split
        · rfl
        · rw [← sectorSaid_result]
          rcases sectorSaid p buf (i * 4096) (i * 4096 + 4096) m (i * 4096 + 20) [] st with ⟨ls, _ | _ | st'⟩
          · rfl
          · rfl
          · exact ih _ _

theorem decompileSaid_result (p : Profile) (buf : Bytes) (fuel : Nat) : (decompileSaid p buf fuel).2 = decompile p buf fuel := by
  unfold decompileSaid decompile
  cases getSector buf 4096 with
  | error e => rfl
  | ok sec =>
    rw [ok_bind]
    dsimp only
    rw [← fileSaid_result]
    rcases fileSaid p buf sec.next fuel 2 {} with ⟨ls, _ | _ | st'⟩ <;> rfl

/-! Unknown opcodes -/

def DecLine.isUnknown : DecLine → Bool
  | .unknownCode _ _ _ => true
  | _ => false

theorem calcLines_intrinsic (b : Bytes) : ∀ l ∈ calcLines b, l = .intrinsic := by
  fun_induction calcLines b with
  | case6 k rest _ _ ih =>
    intro l hl
    rcases List.mem_append.mp hl with hl | hl
    · split at hl <;> simp_all
    · exact ih l hl
  | _ => first | (intro l hl; cases hl; done) | assumption

theorem dispatchLines_known (st : DState) (path : DirPath) (ch : Chunk) : ∀ l ∈ dispatchLines st path ch, l.isUnknown = false := by
  intro l hl
  have hc : ∀ d, l ∈ calcLines d → l.isUnknown = false := fun d h => by rw [calcLines_intrinsic d l h]; rfl
  unfold dispatchLines at hl
  repeat' split at hl
  all_goals first | (cases hl; done) | exact hc _ hl | (simp only [List.mem_singleton] at hl; subst hl; rfl)

/-- The line for an unknown opcode `b` at offset `o` of sector `j`. -/
def unknownLine (j o : Nat) (b : UInt8) : DecLine := .unknownCode (4096 / (o - j * 4096)) (j * 4096) (stripDelay b)

theorem getChunk_invalid {p : Profile} {buf : Bytes} {o loc : Nat} {path : DirPath} (h : getChunk p buf o path loc = .ok .invalid) :
    ∃ b, buf[o]? = some b ∧ ¬Spec.BeginsChunk b := by
  unfold getChunk at h
  obtain ⟨b, hb, h⟩ := bind_ok.mp h
  refine ⟨b, idx_ok.mp hb, ?_⟩
  rw [beginsChunk_iff]
  obtain ⟨r, hr, h⟩ := bind_ok.mp h
  cases r with
  | none => exact chunkBody_none.mp hr
  | some body => cases h

theorem getChunk_unknown {p : Profile} {buf : Bytes} {o loc : Nat} (path : DirPath) {b : UInt8} (hb : buf[o]? = some b)
    (hu : ¬Spec.BeginsChunk b) (hl : loc < o) : getChunk p buf o path loc = .ok .invalid := by
  rw [beginsChunk_iff] at hu
  unfold getChunk
  rw [idx_of hb, ok_bind]
  dsimp only
  rw [chunkBody_none.mpr hu, ok_bind]
  dsimp only
  unfold usub
  rw [if_pos (by omega), ok_bind, if_neg (by omega)]
  rfl

/-- What a sector loop does: it says nothing about unknown opcodes, or it stops at one. -/
theorem sectorSaid_cases (p : Profile) (buf : Bytes) (j bound : Nat) : ∀ (fuel off : Nat) (path : DirPath) (st : DState),
    let r := sectorSaid p buf (j * 4096) bound fuel off path st
    ((∀ l ∈ r.1, l.isUnknown = false) ∧ ∀ st', r.2 = .ok (some st') →
      ∃ chs, ReadsTo p buf (j * 4096) bound off path chs ∧ runChunks p st chs = .ok st') ∨
    ∃ ls chs o path' st' b, r = (ls ++ [unknownLine j o b], .error .unwrap) ∧ (∀ l ∈ ls, l.isUnknown = false) ∧
      ReadsInto p buf (j * 4096) bound off path chs o path' ∧ o < bound ∧ runChunks p st chs = .ok st' ∧ buf[o]? = some b ∧
      ¬Spec.BeginsChunk b := by
  intro fuel
  induction fuel with
  | zero => intro off path st; exact .inl ⟨by simp [sectorSaid], by simp [sectorSaid]⟩
  | succ n ih =>
    intro off path st
    rw [sectorSaid]
    by_cases ho : off < bound
    · rw [if_pos ho]
      cases hg : getChunk p buf off path (j * 4096) with
      | error e => exact .inl ⟨by simp, by simp⟩
      | ok d =>
        cases d with
        | invalid =>
          obtain ⟨b, hb, hu⟩ := getChunk_invalid hg
          refine .inr ⟨[], [], off, path, st, b, ?_, by simp, .here, ho, rfl, hb, hu⟩
          unfold unknownLine
          rw [List.getD_eq_getElem?_getD, hb]
          rfl
        | ok ch off' path' =>
          dsimp only
          cases hd : dispatch p st path' ch with
          | error e => exact .inl ⟨dispatchLines_known _ _ _, by simp⟩
          | ok st₁ =>
            dsimp only
            have hch : runChunks p st [ch] = .ok st₁ := by
              rw [runChunks_cons, chunk_path_eq hg, hd]; rfl
            rcases ih off' path' st₁ with ⟨h1, h2⟩ | ⟨ls, chs, o, q, st', b, h1, h2, h3, h4, h5, h6, h7⟩
            · refine .inl ⟨?_, fun st' hr => ?_⟩
              · intro l hl
                rcases List.mem_append.mp hl with hl | hl
                · exact dispatchLines_known _ _ _ l hl
                · exact h1 l hl
              · obtain ⟨chs, h3, h4⟩ := h2 st' hr
                refine ⟨ch :: chs, .cons ho hg h3, ?_⟩
                rw [runChunks_cons, chunk_path_eq hg, hd, ok_bind]; exact h4
            · refine .inr ⟨dispatchLines st path' ch ++ ls, ch :: chs, o, q, st', b, ?_, ?_, .cons ho hg h3, h4, ?_, h6, h7⟩
              · rw [h1]; simp
              · intro l hl
                rcases List.mem_append.mp hl with hl | hl
                · exact dispatchLines_known _ _ _ l hl
                · exact h2 l hl
              · rw [runChunks_cons, chunk_path_eq hg, hd, ok_bind]; exact h5
    · rw [if_neg ho]
      exact .inl ⟨by simp, fun st' h => by cases h; exact ⟨[], .done (by omega), rfl⟩⟩

theorem getSector_bound {buf : Bytes} {start : Nat} {sec : Sector} (h : getSector buf start = .ok sec) : start + 20 ≤ buf.length := by
  unfold getSector at h
  obtain ⟨s, hs, h⟩ := bind_ok.mp h
  obtain ⟨_, _, h⟩ := bind_ok.mp h
  obtain ⟨_, _, h⟩ := bind_ok.mp h
  obtain ⟨_, _, h⟩ := bind_ok.mp h
  obtain ⟨_, _, h⟩ := bind_ok.mp h
  obtain ⟨_, h6, h⟩ := bind_ok.mp h
  obtain ⟨a1, a2, a3⟩ := slice_ok.mp hs
  obtain ⟨b1, b2, b3⟩ := slice_ok.mp h6
  subst a3
  simp at b1
  omega

theorem getSector_link {buf : Bytes} {i : Nat} {sec : Sector} (h : getSector buf (i * 4096) = .ok sec) : sec.next = Spec.nextSector buf i :=
  getSector_next h

theorem fileSaid_cases (p : Profile) (buf : Bytes) (n : Nat) : ∀ (fuel i : Nat) (st : DState),
    let r := fileSaid p buf n fuel i st
    (∀ l ∈ r.1, l.isUnknown = false) ∨
    ∃ ls chs j o st' b, r = (ls ++ [unknownLine j o b], .error .unwrap) ∧ (∀ l ∈ ls, l.isUnknown = false) ∧
      ComesTo p buf n i chs j o ∧ runChunks p st chs = .ok st' ∧ buf[o]? = some b ∧ ¬Spec.BeginsChunk b := by
  intro fuel
  induction fuel with
  | zero => intro i st; exact .inl (by simp [fileSaid])
  | succ m ih =>
    intro i st
    rw [fileSaid]
    by_cases hi : i = 0
    · rw [if_pos hi]; exact .inl (by simp)
    · rw [if_neg hi]
      cases hg : getSector buf (i * 4096) with
      | error e => exact .inl (by simp)
      | ok sec =>
        dsimp only
        have hb := getSector_bound hg
        by_cases hn : n < i
        · rw [if_pos hn]; exact .inl (by simp)
        · rw [if_neg hn]
          have := sectorSaid_cases p buf i (i * 4096 + 4096) m (i * 4096 + 20) [] st
          dsimp only at this
          rcases this with ⟨h1, h2⟩ | ⟨ls, chs, o, q, st', b, h1, h2, h3, h4, h5, h6, h7⟩
          · rcases hs : sectorSaid p buf (i * 4096) (i * 4096 + 4096) m (i * 4096 + 20) [] st with ⟨ls, _ | _ | st₁⟩
            · rw [hs] at h1; exact .inl h1
            · rw [hs] at h1; exact .inl h1
            · rw [hs] at h1 h2
              obtain ⟨chs, h3, h4⟩ := h2 st₁ rfl
              dsimp only
              rw [getSector_link hg]
              rcases ih (Spec.nextSector buf i) st₁ with k1 | ⟨ls', chs', j, o, st', b, k1, k2, k3, k4, k5, k6⟩
              · refine .inl fun l hl => ?_
                rcases List.mem_append.mp hl with hl | hl
                · exact h1 l hl
                · exact k1 l hl
              · refine .inr ⟨ls ++ ls', chs ++ chs', j, o, st', b, ?_, ?_, .next hi (by omega) hb h3 k3, ?_, k5, k6⟩
                · rw [k1]; simp
                · intro l hl
                  rcases List.mem_append.mp hl with hl | hl
                  · exact h1 l hl
                  · exact k2 l hl
                · rw [runChunks_append, h4, ok_bind]; exact k4
          · rw [h1]
            exact .inr ⟨ls, chs, i, o, st', b, rfl, h2, .here hi (by omega) hb h3 h4, h5, h6, h7⟩

/-! Coming to an unknown opcode -/

theorem getChunk_advances {p : Profile} {buf : Bytes} {o o' loc : Nat} {path path' : DirPath} {ch : Chunk}
    (h : getChunk p buf o path loc = .ok (.ok ch o' path')) : o ≤ o' := by
  obtain ⟨b, body, _, hbody, hoff, _⟩ := getChunk_ok h
  rcases progress_body hbody with h1 | ⟨_, h1, _⟩ <;> omega

theorem readsInto_ge {p : Profile} {buf : Bytes} {loc bound o o' : Nat} {path path' : DirPath} {chs : List Chunk}
    (h : ReadsInto p buf loc bound o path chs o' path') : o ≤ o' := by
  induction h with
  | here => exact Nat.le_refl _
  | cons _ hg _ ih => exact Nat.le_trans (getChunk_advances hg) ih

theorem sectorSaid_stops {p : Profile} {buf : Bytes} {j bound off o : Nat} {path path' : DirPath} {chs : List Chunk}
    (h : ReadsInto p buf (j * 4096) bound off path chs o path') (hj : j * 4096 < off) (ho : o < bound) {b : UInt8} (hb : buf[o]? = some b)
    (hu : ¬Spec.BeginsChunk b) : ∀ (fuel : Nat) (st st' : DState), chs.length + 1 ≤ fuel → runChunks p st chs = .ok st' →
    ∃ ls, sectorSaid p buf (j * 4096) bound fuel off path st = (ls ++ [unknownLine j o b], .error .unwrap) := by
  induction h with
  | here =>
    intro fuel st st' hf _
    obtain ⟨m, rfl⟩ : ∃ m, fuel = m + 1 := ⟨fuel - 1, by omega⟩
    refine ⟨[], ?_⟩
    rw [sectorSaid, if_pos ho, getChunk_unknown _ hb hu hj]
    unfold unknownLine
    dsimp only
    rw [List.getD_eq_getElem?_getD, hb]
    rfl
  | @cons o o₁ o' path path₁ path' ch chs ho' hg _ ih =>
    intro fuel st st' hf hr
    obtain ⟨m, rfl⟩ : ∃ m, fuel = m + 1 := ⟨fuel - 1, by omega⟩
    rw [runChunks_cons, chunk_path_eq hg] at hr
    obtain ⟨st₁, h1, h2⟩ := bind_ok.mp hr
    obtain ⟨ls, h3⟩ := ih (by have := getChunk_advances hg; omega) ho hb m st₁ st' (by simp at hf; omega) h2
    refine ⟨dispatchLines st path₁ ch ++ ls, ?_⟩
    rw [sectorSaid, if_pos ho', hg]
    dsimp only
    rw [h1]
    dsimp only
    rw [h3]
    simp

theorem fileSaid_stops {p : Profile} {buf : Bytes} {n i j o : Nat} {chs : List Chunk} (h : ComesTo p buf n i chs j o) {b : UInt8}
    (hb : buf[o]? = some b) (hu : ¬Spec.BeginsChunk b) : ∃ fuel₀, ∀ (fuel : Nat) (st st' : DState), fuel₀ ≤ fuel → runChunks p st chs = .ok st' →
    ∃ ls, fileSaid p buf n fuel i st = (ls ++ [unknownLine j o b], .error .unwrap) := by
  induction h with
  | @here i o chs path h1 h2 h3 h4 h5 =>
    refine ⟨chs.length + 2, fun fuel st st' hf hr => ?_⟩
    obtain ⟨m, rfl⟩ : ∃ m, fuel = m + 1 := ⟨fuel - 1, by omega⟩
    obtain ⟨sec, g1, g2⟩ := getSector_of h3
    obtain ⟨ls, h6⟩ := sectorSaid_stops h4 (by omega) h5 hb hu m st st' (by omega) hr
    refine ⟨ls, ?_⟩
    rw [fileSaid, if_neg h1, g1]
    dsimp only
    rw [if_neg (by omega), h6]
  | @next i j o chs rest h1 h2 h3 h4 _ ih =>
    obtain ⟨fuel₀, ih⟩ := ih hb
    refine ⟨max fuel₀ (chs.length + 1) + 1, fun fuel st st' hf hr => ?_⟩
    obtain ⟨m, rfl⟩ : ∃ m, fuel = m + 1 := ⟨fuel - 1, by omega⟩
    obtain ⟨sec, g1, g2⟩ := getSector_of h3
    rw [runChunks_append] at hr
    obtain ⟨st₁, h5, h6⟩ := bind_ok.mp hr
    have hs := sectorSaid_result p buf (i * 4096) (i * 4096 + 4096) m (i * 4096 + 20) [] st
    rw [sectorLoop_run h4 m st (by omega), h5] at hs
    obtain ⟨ls', h7⟩ := ih m st₁ st' (by omega) h6
    rcases hx : sectorSaid p buf (i * 4096) (i * 4096 + 4096) m (i * 4096 + 20) [] st with ⟨ls, r⟩
    rw [hx] at hs
    dsimp only at hs
    subst hs
    refine ⟨ls ++ ls', ?_⟩
    rw [fileSaid, if_neg h1, g1]
    dsimp only
    rw [if_neg (by omega), hx]
    show ((ls ++ (fileSaid p buf n m sec.next st₁).1, (fileSaid p buf n m sec.next st₁).2) : List DecLine × Res (Option DState)) = _
    rw [show sec.next = Spec.nextSector buf i from g2, h7]
    simp

/-! The lines about the functions in calculations -/

theorem calcLines_item (i : Spec.CalcItem) (hv : i.Valid fmStringEncrypt) (rest : Bytes) :
    calcLines (i.bytes fmStringEncrypt ++ rest) = (if i.unknownFunction then [.intrinsic] else []) ++ calcLines rest := by
  have lit : ∀ (c : UInt8) (s : Str), (fmStringEncrypt s).length ≤ 255 → calcText c = none → c ≠ 0x9c → c ≠ 0xfb → c ≠ 0x10 →
      (c = 0x13 ∨ c = 0x1a) → calcLines (c :: UInt8.ofNat (fmStringEncrypt s).length :: (fmStringEncrypt s ++ rest)) = calcLines rest := by
    intro c s hl h0 h1 h2 h3 h4
    have hn : (UInt8.ofNat (fmStringEncrypt s).length).toNat = (fmStringEncrypt s).length := by
      rw [UInt8.toNat_ofNat']; omega
    rw [calcLines.eq_def]
    simp only [h0]
    rw [if_neg h1, if_neg h2, if_neg h3, if_pos h4]
    rw [hn, if_pos (by simp), List.drop_left' rfl]
  cases i with
  | symbol b t =>
    show calcLines (b :: rest) = _
    rw [calcLines.eq_def]
    simp only [calcText_symbol hv]
    rfl
  | skipped b =>
    obtain ⟨h1, h2⟩ := hv
    show calcLines (b :: rest) = _
    rw [calcLines.eq_def]
    simp only [calcText_none h1]
    simp only [Spec.calcPrefixes, List.mem_cons, List.not_mem_nil, or_false, not_or] at h2
    obtain ⟨a1, a2, a3, a4, a5⟩ := h2
    rw [if_neg a4, if_neg a5, if_neg a1, if_neg (by simp [a2, a3])]
    rfl
  | getArg k =>
    show calcLines (0x9C :: k :: rest) = _
    rw [calcLines.eq_def]
    simp only [show calcText 0x9C = none from rfl]
    rw [if_pos trivial]
    rfl
  | intrinsic k =>
    show calcLines (0xFB :: k :: rest) = _
    rw [calcLines.eq_def]
    simp only [show calcText 0xFB = none from rfl]
    rw [if_neg (by decide), if_pos trivial]
    congr 1
    by_cases hk : k = 3
    · simp [hk, Spec.CalcItem.unknownFunction]
    · simp [hk, Spec.CalcItem.unknownFunction]
  | number before v after =>
    obtain ⟨h1, h2⟩ := hv
    have e : Spec.CalcItem.bytes fmStringEncrypt (.number before v after) ++ rest =
        0x10 :: (before ++ v :: (after ++ rest)) := by simp [Spec.CalcItem.bytes]
    rw [e, calcLines.eq_def]
    simp only [show calcText 0x10 = none from rfl]
    rw [if_neg (by decide), if_neg (by decide), if_pos trivial]
    have e1 : (before ++ v :: (after ++ rest))[8]? = some v := by
      rw [List.getElem?_append_right (by omega), h1]; rfl
    have e2 : (before ++ v :: (after ++ rest)).drop 19 = rest := by
      have : before ++ v :: (after ++ rest) = (before ++ v :: after) ++ rest := by simp
      rw [this, List.drop_left']
      simp; omega
    rw [e1, e2]
    rfl
  | str s => exact lit 0x13 s hv rfl (by decide) (by decide) (by decide) (.inl rfl)
  | var s => exact lit 0x1A s hv rfl (by decide) (by decide) (by decide) (.inr rfl)

theorem calcLines_items (is : List Spec.CalcItem) (hv : ∀ i ∈ is, i.Valid fmStringEncrypt) :
    calcLines (Spec.calcBytes fmStringEncrypt is) = List.replicate (Spec.unknownFunctions is) .intrinsic := by
  induction is with
  | nil => simp [Spec.calcBytes, Spec.unknownFunctions, calcLines]
  | cons i is ih =>
    unfold Spec.calcBytes at ih ⊢
    rw [List.flatMap_cons, calcLines_item i (hv i (by simp)), ih fun j hj => hv j (by simp [hj])]
    unfold Spec.unknownFunctions
    rw [List.countP_cons]
    cases i.unknownFunction
    · simp
    · rw [if_pos rfl, if_pos rfl, List.replicate_succ]; rfl

/-! The lines of a file that is read to its end -/

/-- The lines written while chunks are handled. -/
def saidOf (p : Profile) : DState → List Chunk → List DecLine
  | _, [] => []
  | st, ch :: chs => dispatchLines st ch.path ch ++ match dispatch p st ch.path ch with
    | .ok st' => saidOf p st' chs
    | .error _ => []

theorem saidOf_append {p : Profile} : ∀ (a b : List Chunk) {st st' : DState}, runChunks p st a = .ok st' →
    saidOf p st (a ++ b) = saidOf p st a ++ saidOf p st' b := by
  intro a b
  induction a with
  | nil => intro st st' h; cases h; rfl
  | cons ch a ih =>
    intro st st' h
    rw [runChunks_cons] at h
    obtain ⟨st₁, h1, h2⟩ := bind_ok.mp h
    rw [List.cons_append, saidOf, saidOf, h1]
    dsimp only
    rw [ih h2, List.append_assoc]

theorem sectorSaid_said {p : Profile} {buf : Bytes} {start bound o : Nat} {path : DirPath} {chs : List Chunk}
    (h : ReadsTo p buf start bound o path chs) : ∀ (fuel : Nat) (st : DState) (st' : DState) (ls : List DecLine),
    sectorSaid p buf start bound fuel o path st = (ls, .ok (some st')) → runChunks p st chs = .ok st' ∧ ls = saidOf p st chs := by
  induction h with
  | done hb =>
    intro fuel st st' ls h
    cases fuel with
    | zero => cases h
    | succ m =>
      rw [sectorSaid, if_neg (by omega)] at h
      cases h
      exact ⟨rfl, rfl⟩
  | @cons o o₁ path path₁ ch chs hb hg _ ih =>
    intro fuel st st' ls h
    cases fuel with
    | zero => cases h
    | succ m =>
      rw [sectorSaid, if_pos hb, hg] at h
      dsimp only at h
      cases hd : dispatch p st path₁ ch with
      | error e => rw [hd] at h; cases h
      | ok st₁ =>
        rw [hd] at h
        dsimp only at h
        injection h with h1 h2
        obtain ⟨h3, h4⟩ := ih m st₁ st' _ (Prod.ext rfl h2)
        have hp := chunk_path_eq hg
        rw [runChunks_cons, saidOf, hp, hd, ← h1]
        exact ⟨h3, congrArg (dispatchLines st path₁ ch ++ ·) h4⟩

theorem fileSaid_said {p : Profile} {buf : Bytes} {n i : Nat} {chs : List Chunk} (h : FileReads p buf n i chs) :
    ∀ (fuel : Nat) (st st' : DState) (ls : List DecLine), fileSaid p buf n fuel i st = (ls, .ok (some st')) →
    runChunks p st chs = .ok st' ∧ ls = saidOf p st chs := by
  induction h with
  | done =>
    intro fuel st st' ls h
    cases fuel with
    | zero => cases h
    | succ m =>
      rw [fileSaid, if_pos rfl] at h
      cases h
      exact ⟨rfl, rfl⟩
  | @sector i chs rest h1 h2 h3 h4 _ ih =>
    intro fuel st st' ls h
    cases fuel with
    | zero => cases h
    | succ m =>
      obtain ⟨sec, g1, g2⟩ := getSector_of h3
      rw [fileSaid, if_neg h1, g1] at h
      dsimp only at h
      rw [if_neg (by omega)] at h
      rcases hx : sectorSaid p buf (i * 4096) (i * 4096 + 4096) m (i * 4096 + 20) [] st with ⟨ls₁, _ | _ | st₁⟩
      · rw [hx] at h; cases h
      · rw [hx] at h; cases h
      · rw [hx] at h
        dsimp only at h
        injection h with k1 k2
        obtain ⟨h5, h6⟩ := sectorSaid_said h4 m st st₁ ls₁ hx
        rw [show sec.next = Spec.nextSector buf i from g2] at k1 k2
        obtain ⟨h7, h8⟩ := ih m st₁ st' _ (Prod.ext rfl k2)
        rw [runChunks_append, h5, ok_bind, saidOf_append _ _ h5, ← k1, h6]
        exact ⟨h7, congrArg (saidOf p st chs ++ ·) h8⟩

/-! The chunks of a file -/

/-- The chunks decoded from raw chunks, with others in the root directory. -/
inductive Aligned : List Spec.Raw → List Chunk → Prop
  | nil : Aligned [] []
  | cons {r : Spec.Raw} {ch : Chunk} {raws : List Spec.Raw} {chs : List Chunk} : Match r ch → Aligned raws chs → Aligned (r :: raws) (ch :: chs)
  | skip {ch : Chunk} {raws : List Spec.Raw} {chs : List Chunk} : ch.path = [] → Aligned raws chs → Aligned raws (ch :: chs)

theorem Aligned.append {a b : List Spec.Raw} {c d : List Chunk} (h1 : Aligned a c) (h2 : Aligned b d) : Aligned (a ++ b) (c ++ d) := by
  induction h1 with
  | nil => exact h2
  | cons h _ ih => exact .cons h ih
  | skip h _ ih => exact .skip h ih

theorem aligned_root : ∀ (chs : List Chunk), (∀ ch ∈ chs, ch.path = []) → Aligned [] chs := by
  intro chs
  induction chs with
  | nil => intro _; exact .nil
  | cons ch chs ih => intro h; exact .skip (h ch (by simp)) (ih fun c hc => h c (by simp [hc]))

theorem raw_chunks {p : Profile} {loc : Nat} {path path' : DirPath} {bytes : Bytes} {raws : List Spec.Raw}
    (h : Spec.RawRun path bytes raws path') (pre post : Bytes) :
    ∃ chs, Decodes p (pre ++ (bytes ++ post)) loc pre.length path chs (pre.length + bytes.length) path' ∧ Aligned raws chs := by
  induction h generalizing pre with
  | nil path => exact ⟨[], .nil _ _, .nil⟩
  | @cons path path' b bytes rest w n raws h1 _ ih =>
    obtain ⟨ch, h2, hm⟩ := raw_decodes h1 p pre (rest ++ post) path loc
    obtain ⟨chs, h5, h6⟩ := ih (pre ++ b :: bytes)
    refine ⟨ch :: chs, .cons (o₁ := pre.length + (1 + bytes.length)) (path₁ := Spec.pathAfter b n path) ?_ (by omega) ?_, .cons hm h6⟩
    · rw [← h2]; simp
    · have e1 : pre ++ b :: bytes ++ (rest ++ post) = pre ++ (b :: bytes ++ rest ++ post) := by simp
      have e2 : (pre ++ b :: bytes).length = pre.length + (1 + bytes.length) := by simp; omega
      have e3 : (pre ++ b :: bytes).length + rest.length = pre.length + (b :: bytes ++ rest).length := by simp; omega
      rw [e3, e1, e2] at h5
      exact h5

theorem rawSectors_aligned {p : Profile} {buf : Bytes} {i : Nat} {raws : List Spec.Raw} (h : Spec.RawSectors buf i raws) :
    ∃ chs, FileReads p buf (Spec.nextSector buf 1) i chs ∧ Aligned raws chs := by
  induction h with
  | last => exact ⟨[], .done, .nil⟩
  | @sector i n bytes raws rest hi hn hl hb hf _ ih =>
    obtain ⟨s1, s2, s3⟩ := split_sector hb (by omega)
    obtain ⟨chs, d1, d2⟩ := raw_chunks (p := p) (loc := i * 4096) hf (buf.take (i * 4096 + 20)) (Spec.zeros n ++ buf.drop (i * 4096 + 20 + 4076))
    rw [← s1, s3] at d1
    obtain ⟨chs2, r1, r2⟩ := readsTo_zeros (p := p) (buf := buf) (loc := i * 4096) (bound := i * 4096 + 4096) (by omega) n
      (i * 4096 + 20 + bytes.length) [] (by omega) (fun k hk => by
        rw [s1, ← List.append_assoc, List.getElem?_append_right (by rw [List.length_append, s3]; omega), List.length_append, s3,
          List.getElem?_append_left (by simp [Spec.zeros]; omega)]
        exact List.getElem?_replicate_of_lt (by omega))
    obtain ⟨chs3, f1, f2⟩ := ih
    refine ⟨(chs ++ chs2) ++ chs3, .sector hi hn (by omega) (d1.readsTo (by omega) r1) f1, ?_⟩
    have := (d2.append (aligned_root chs2 fun ch hc => (r2 ch hc).1)).append f2
    rwa [List.append_nil] at this
  | @openSector i n bytes path raws rest hi hn hl hb hf _ ih =>
    obtain ⟨s1, s2, s3⟩ := split_sector hb (by omega)
    obtain ⟨chs, d1, d2⟩ := raw_chunks (p := p) (loc := i * 4096) hf (buf.take (i * 4096 + 20)) (Spec.zeros n ++ buf.drop (i * 4096 + 20 + 4076))
    rw [← s1, s3] at d1
    have r1 := readsTo_padding (p := p) (buf := buf) (loc := i * 4096) (bound := i * 4096 + 4096) (by omega) path ((n + 1) / 2)
      (i * 4096 + 20 + bytes.length) (by omega) (fun k hk => sector_zeros hb (by omega) k (by omega))
    obtain ⟨chs3, f1, f2⟩ := ih
    refine ⟨(chs ++ _) ++ chs3, .sector hi hn (by omega) (d1.readsTo (by omega) r1) f1, (d2.append ?_).append f2⟩
    have hm : Match ⟨path, 0x00, [0], some (.data [])⟩ (zeroChunk path) := ⟨zeroChunk_shape path, rfl, rfl, rfl, fun h => by cases h⟩
    unfold Spec.padding
    generalize (n + 1) / 2 = k
    induction k with
    | zero => exact .nil
    | succ k ih => rw [List.replicate_succ, List.replicate_succ]; exact .cons hm ih

end BurnFm
