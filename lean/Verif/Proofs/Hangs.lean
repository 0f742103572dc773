import Verif.Proofs.Terminates
import Verif.Spec.Links
import Mathlib.Data.Fintype.Pigeonhole

namespace BurnFm

theorem be32_lt (buf : Bytes) (o : Nat) : Spec.be32 buf o < 2 ^ 32 := by
  unfold Spec.be32
  have h0 := (buf.getD o 0).toNat_lt
  have h1 := (buf.getD (o + 1) 0).toNat_lt
  have h2 := (buf.getD (o + 2) 0).toNat_lt
  have h3 := (buf.getD (o + 3) 0).toNat_lt
  omega

theorem linked_trans {buf : Bytes} {i j k : Nat} (h1 : Spec.SectorLinked buf i j) (h2 : Spec.SectorLinked buf j k) : Spec.SectorLinked buf i k := by
  induction h2 with
  | here => exact h1
  | next _ hj ih => exact .next ih hj

theorem chainEnds_of_linked {buf : Bytes} {i j : Nat} (h : Spec.SectorLinked buf i j) (hc : Spec.ChainEnds buf i) : Spec.ChainEnds buf j := by
  induction h with
  | here => exact hc
  | next _ hj ih =>
    cases ih with
    | zero => exact absurd rfl hj
    | next h => exact h

theorem linked_head {buf : Bytes} {m j : Nat} (h : Spec.SectorLinked buf m j) (hj : j ≠ 0) :
    Spec.SectorLinked buf (Spec.nextSector buf m) (Spec.nextSector buf j) := by
  induction h with
  | here => exact .here
  | next h' hj' ih => exact .next (ih hj') hj

theorem linked_zero {buf : Bytes} {j : Nat} (h : Spec.SectorLinked buf 0 j) : j = 0 := by
  induction h with
  | here => rfl
  | next _ hj ih => exact absurd ih hj

theorem chainEnds_no_cycle {buf : Bytes} {i : Nat} (hc : Spec.ChainEnds buf i) (hi : i ≠ 0) :
    ¬ Spec.SectorLinked buf (Spec.nextSector buf i) i := by
  induction hc with
  | zero => exact absurd rfl hi
  | @next i hc ih =>
    intro h
    by_cases hn : Spec.nextSector buf i = 0
    · rw [hn] at h
      exact hi (linked_zero h)
    · exact ih hn (linked_head h hi)

theorem linked_iterate {buf : Bytes} {i : Nat} (h : ¬ Spec.ChainEnds buf i) (n : Nat) :
    Spec.SectorLinked buf i ((Spec.nextSector buf)^[n] i) ∧ ¬ Spec.ChainEnds buf ((Spec.nextSector buf)^[n] i) := by
  induction n with
  | zero => exact ⟨.here, h⟩
  | succ n ih =>
    rw [Function.iterate_succ_apply']
    refine ⟨.next ih.1 ?_, fun hc => ih.2 (.next hc)⟩
    intro h0
    rw [h0] at ih
    exact ih.2 .zero

/-- Links are numbers below 2^32, so a chain that does not end comes back to a sector. -/
theorem revisits_iff (buf : Bytes) (i : Nat) : Spec.Revisits buf i ↔ ¬ Spec.ChainEnds buf i := by
  constructor
  · rintro ⟨j, h1, h2, h3⟩ hc
    exact chainEnds_no_cycle (chainEnds_of_linked h1 hc) h2 h3
  · intro hc
    let f : Nat → Fin (2 ^ 32) := fun n => ⟨(Spec.nextSector buf)^[n + 1] i, by
      rw [Function.iterate_succ_apply']; exact be32_lt _ _⟩
    obtain ⟨a, b, hab, hf⟩ := Finite.exists_ne_map_eq_of_infinite f
    have key : ∀ a b, a < b → f a = f b → Spec.Revisits buf i := by
      intro a b hab hf
      have e : (Spec.nextSector buf)^[a + 1] i = (Spec.nextSector buf)^[b + 1] i := congrArg Fin.val hf
      obtain ⟨h1, h2⟩ := linked_iterate hc (a + 1)
      have hj : (Spec.nextSector buf)^[a + 1] i ≠ 0 := fun h0 => h2 (h0 ▸ .zero)
      refine ⟨_, h1, hj, ?_⟩
      have h3 := (linked_iterate (fun hc' => h2 (.next hc')) (b - a - 1)).1
      rw [← Function.iterate_succ_apply' (Spec.nextSector buf), ← Function.iterate_add_apply,
        show b - a - 1 + (a + 1 + 1) = b + 1 by omega, ← e, Function.iterate_succ_apply'] at h3
      exact h3
    rcases Nat.lt_or_gt_of_ne hab with h | h
    · exact key a b h hf
    · exact key b a h hf.symm

/-- At a bare segment opcode the loop over the chunks of a sector never finishes. -/
theorem sectorLoop_bare {p : Profile} {buf : Bytes} {start bound o : Nat} (ho : o < bound)
    (h1 : buf[o]? = some 0x0F ∨ buf[o]? = some 0xCF) (h2 : buf[o + 1]? ≠ some 0x80) :
    ∀ (fuel : Nat) (path : DirPath) (st st' : DState), sectorLoop p buf start bound fuel o path st ≠ .ok (some st') := by
  intro fuel
  induction fuel with
  | zero => intro path st st' h; cases h
  | succ n ih =>
    intro path st st' h
    rw [sectorLoop, if_pos ho] at h
    cases hg : getChunk p buf o path start with
    | error e => rw [hg] at h; cases h
    | ok d =>
      rw [hg, ok_bind] at h
      cases d with
      | invalid => cases h
      | ok ch off' path' =>
        dsimp only at h
        cases hd : dispatch p st path' ch with
        | error e => rw [hd] at h; cases h
        | ok st₁ =>
          rw [hd, ok_bind] at h
          have : off' = o := by
            obtain ⟨b, body, hb, hbody, rfl, _, _⟩ := getChunk_ok hg
            have hs : stripDelay b = 0x0F := (strip_0F b).mpr (by rw [hb] at h1; simpa using h1)
            rw [hs, show chunkBody buf o 0x0F = some <$> armSegmentE buf o from rfl, some_map_ok] at hbody
            unfold armSegmentE at hbody
            cases hi : idx buf (o + 1) with
            | error e => rw [hi] at hbody; cases hbody
            | ok x =>
              rw [hi, ok_bind, if_neg] at hbody
              · cases hbody; rfl
              · intro hx; exact h2 (by rw [(idx_ok).mp hi, hx])
          rw [this] at h
          exact ih _ _ _ h

theorem sectorLoop_reaches {p : Profile} {buf : Bytes} {start bound s₀ o : Nat} {path : DirPath}
    (hr : Reaches p buf start bound s₀ o path) {fuel : Nat} {st st' : DState}
    (h : sectorLoop p buf start bound fuel s₀ [] st = .ok (some st')) :
    ∃ fuel' st₁, sectorLoop p buf start bound fuel' o path st₁ = .ok (some st') := by
  induction hr with
  | start => exact ⟨_, _, h⟩
  | step _ ho hg ih =>
    obtain ⟨n, st₁, h⟩ := ih
    cases n with
    | zero => cases h
    | succ n =>
      rw [sectorLoop, if_pos ho, hg, ok_bind] at h
      dsimp only at h
      rename_i o₁ path path₁ ch _
      cases hd : dispatch p st₁ path₁ ch with
      | error e => rw [hd] at h; cases h
      | ok st₂ => rw [hd, ok_bind] at h; exact ⟨n, st₂, h⟩

/-- A run over the sectors that finishes followed links to the end marker and met no bare segment opcode. -/
theorem fileLoop_done {p : Profile} {buf : Bytes} {n : Nat} :
    ∀ (fuel i : Nat) (st st' : DState), fileLoop p buf n fuel i st = .ok (some st') →
    Spec.ChainEnds buf i ∧ ∀ j, Spec.SectorLinked buf i j → j ≠ 0 → ¬ Spec.BareSegmentIn p buf j := by
  intro fuel
  induction fuel with
  | zero => intro i st st' h; cases h
  | succ m ih =>
    intro i st st' h
    unfold fileLoop at h
    by_cases hi : i = 0
    · subst hi
      exact ⟨.zero, fun j hj h0 => absurd (linked_zero hj) h0⟩
    · rw [if_neg hi] at h
      dsimp only at h
      cases hg : getSector buf (i * 4096) with
      | error e => rw [hg] at h; cases h
      | ok sec =>
        rw [hg, ok_bind] at h
        split at h
        · cases h
        · cases hl : sectorLoop p buf (i * 4096) (i * 4096 + 4096) m (i * 4096 + 20) [] st with
          | error e => rw [hl] at h; cases h
          | ok o =>
            rw [hl, ok_bind] at h
            cases o with
            | none => cases h
            | some st₁ =>
              dsimp only at h
              rw [getSector_next hg] at h
              obtain ⟨h1, h2⟩ := ih _ _ _ h
              refine ⟨.next h1, fun j hj h0 => ?_⟩
              have : j = i ∨ Spec.SectorLinked buf (Spec.nextSector buf i) j := by
                clear h0
                induction hj with
                | here => exact .inl rfl
                | next _ hj0 ih2 =>
                  right
                  rcases ih2 with rfl | h'
                  · exact .here
                  · exact .next h' hj0
              rcases this with rfl | h'
              · rintro ⟨o, path, hr, ho, hb, hn⟩
                obtain ⟨f', st₂, h3⟩ := sectorLoop_reaches hr hl
                exact sectorLoop_bare ho hb hn f' path st₂ _ h3
              · exact h2 j h' h0

theorem sectorLoop_ends (p : Profile) (buf : Bytes) (start bound s₀ : Nat)
    (hs : ∀ (o : Nat) (path : DirPath), Reaches p buf start bound s₀ o path → o < bound →
      buf[o]? = some 0x0F ∨ buf[o]? = some 0xCF → buf[o + 1]? = some 0x80) :
    ∀ (fuel o : Nat) (path : DirPath) (st : DState), bound ≤ o + fuel → Reaches p buf start bound s₀ o path →
    sectorLoop p buf start bound (fuel + 1) o path st ≠ .ok none := by
  intro fuel
  induction fuel with
  | zero =>
    intro o path st hf hr h
    unfold sectorLoop at h
    rw [if_neg (by omega)] at h
    cases h
  | succ n ih =>
    intro o path st hf hr h
    rw [sectorLoop] at h
    split at h
    · rename_i hlt
      cases hg : getChunk p buf o path start with
      | error e => rw [hg] at h; cases h
      | ok d =>
        rw [hg, ok_bind] at h
        cases d with
        | invalid => cases h
        | ok ch off' path' =>
          dsimp only at h
          cases hd : dispatch p st path' ch with
          | error e => rw [hd] at h; cases h
          | ok st' =>
            rw [hd, ok_bind] at h
            have : o < off' := by
              obtain ⟨b, body, hb, hbody, rfl, _, _⟩ := getChunk_ok hg
              rcases progress_body hbody with h1 | ⟨h1, h2, h3⟩
              · exact h1
              · exact absurd (hs o path hr hlt (by rcases (strip_0F b).mp h1 with rfl | rfl <;> simp [hb])) h2
            exact ih off' path' st' (by omega) (.step hr hlt hg) h
    · cases h

theorem fileLoop_ends (p : Profile) (buf : Bytes) (n : Nat) {i : Nat} (hc : Spec.ChainEnds buf i) :
    (∀ j, Spec.SectorLinked buf i j → j ≠ 0 → ¬ Spec.BareSegmentIn p buf j) →
    ∃ fuel, ∀ st, fileLoop p buf n fuel i st ≠ .ok none := by
  induction hc with
  | zero => exact fun _ => ⟨1, fun st h => by unfold fileLoop at h; cases h⟩
  | @next i _ ih =>
    intro hs
    by_cases hi : i = 0
    · exact ⟨1, fun st h => by unfold fileLoop at h; rw [if_pos hi] at h; cases h⟩
    obtain ⟨fuel, ih⟩ := ih fun j hj => hs j (linked_trans (.next .here hi) hj)
    refine ⟨max fuel 4097 + 1, fun st h => ?_⟩
    unfold fileLoop at h
    rw [if_neg hi] at h
    dsimp only at h
    cases hg : getSector buf (i * 4096) with
    | error e => rw [hg] at h; cases h
    | ok sec =>
      rw [hg, ok_bind] at h
      split at h
      · cases h
      · cases hl : sectorLoop p buf (i * 4096) (i * 4096 + 4096) (max fuel 4097) (i * 4096 + 20) [] st with
        | error e => rw [hl] at h; cases h
        | ok o =>
          rw [hl, ok_bind] at h
          cases o with
          | none =>
            obtain ⟨m, hm⟩ : ∃ m, max fuel 4097 = m + 1 := ⟨max fuel 4097 - 1, by omega⟩
            rw [hm] at hl
            refine sectorLoop_ends p buf _ _ _ (fun o path hr ho hb => ?_) m _ _ _ (by omega) .start hl
            by_contra hn
            exact hs i .here hi ⟨o, path, hr, ho, hb, hn⟩
          | some st' =>
            dsimp only at h
            rw [getSector_next hg] at h
            have h2 := ih st'
            have h3 := fileLoop_mono (p := p) (buf := buf) (n := n) (fuel := fuel) (i := Spec.be32 buf (i * 4096 + 8)) (st := st')
              rfl h2 (max fuel 4097) (by omega)
            rw [h3] at h
            exact h2 h

end BurnFm
