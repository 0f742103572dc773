import Verif.Proofs.Raw
import Verif.Props.DbChar
import Verif.Props.Encoding

/-! Reading data sources. -/

namespace BurnFm
open Spec (SourceDef LocationDef PathPiece SourceNote)

theorem findMarker_first (A rest : Bytes) (h : ¬[65, 50] <:+: A) : findMarker (A ++ 65 :: 50 :: rest) = some A.length := by
  induction A with
  | nil => simp [findMarker]
  | cons a A ih =>
    have h' : ¬[65, 50] <:+: A := fun hh => h (hh.trans (List.suffix_cons a A).isInfix)
    have ih := ih h'
    cases A with
    | nil =>
      simp only [List.cons_append, List.nil_append]
      unfold findMarker
      rw [if_neg (by rintro ⟨_, h2⟩; exact absurd h2 (by decide))]
      simp [findMarker]
    | cons b B =>
      simp only [List.cons_append] at ih ⊢
      unfold findMarker
      rw [if_neg, ih]
      · rfl
      · rintro ⟨rfl, rfl⟩
        exact h ⟨[], B, rfl⟩

theorem encrypt_append (s t : Str) : fmStringEncrypt (s ++ t) = fmStringEncrypt s ++ fmStringEncrypt t := by
  unfold fmStringEncrypt
  simp [utf8, List.flatMap_append]

theorem path_decoded (ps : List PathPiece) (h : ∀ x ∈ ps, x.Ok fmStringEncrypt) :
    (ps.flatMap (PathPiece.bytes fmStringEncrypt)).flatMap pathSubst = fmStringEncrypt (ps.flatMap (·.meaning)) := by
  induction ps with
  | nil => rfl
  | cons x ps ih =>
    rw [List.flatMap_cons, List.flatMap_cons, List.flatMap_append, ih fun y hy => h y (by simp [hy]), encrypt_append]
    congr 1
    have hx := h x (by simp)
    cases x with
    | text s =>
      show (fmStringEncrypt s).flatMap pathSubst = _
      have hx : ∀ b ∈ fmStringEncrypt s, b ≠ 50 ∧ b ≠ 65 ∧ b ≠ 218 ∧ b ≠ 219 := hx
      show _ = fmStringEncrypt s
      generalize fmStringEncrypt s = l at hx
      induction l with
      | nil => rfl
      | cons b l ih2 =>
        obtain ⟨h1, h2, h3, h4⟩ := hx b (by simp)
        rw [List.flatMap_cons, ih2 fun c hc => hx c (by simp [hc])]
        unfold pathSubst
        rw [if_neg h1, if_neg h2, if_neg h3, if_neg h4]
        rfl
    | colon => rfl
    | slash => rfl
    | up => rfl

theorem idx_mid {l h post : Bytes} {b : UInt8} {i : Nat} (hl : l = h ++ (b :: post)) (hi : h.length = i) : idx l i = .ok b := by
  subst hl; subst hi
  rw [idx_ok, List.getElem?_append_right (Nat.le_refl _), Nat.sub_self]
  rfl

theorem location_path (p : Profile) (l : LocationDef) (m : Str) (h1 : l.head.length = 5)
    (h2 : (l.path.flatMap (PathPiece.bytes fmStringEncrypt)).length < 256) (h3 : (fmStringEncrypt l.filename).length < 256)
    (hpath : (l.path.flatMap (PathPiece.bytes fmStringEncrypt)).flatMap pathSubst = fmStringEncrypt m)
    (h5 : ¬[65, 50] <:+: l.head.drop 4 ++ fmStringEncrypt l.kind ++ [UInt8.ofNat (l.path.flatMap (PathPiece.bytes fmStringEncrypt)).length]) :
    sourceFromBytes p (l.bytes fmStringEncrypt) = .ok { sourceType := l.kind, path := m, filename := l.filename } := by
  obtain ⟨head, kind, path, filename⟩ := l
  dsimp only at h1 h2 h3 hpath h5
  obtain ⟨a, b, c, d, x, rfl⟩ : ∃ a b c d x, head = [a, b, c, d, x] := by
    match head, h1 with
    | [a, b, c, d, x], _ => exact ⟨a, b, c, d, x, rfl⟩
  unfold LocationDef.bytes
  dsimp only
  have hk := Props.string_roundtrip kind
  have hp := Props.string_roundtrip m
  have hfn := Props.string_roundtrip filename
  rw [← hpath] at hp
  generalize hP : path.flatMap (PathPiece.bytes fmStringEncrypt) = P at *
  generalize hK : fmStringEncrypt kind = K at *
  generalize hF : fmStringEncrypt filename = F at *
  have hplen : (UInt8.ofNat P.length).toNat = P.length := by rw [UInt8.toNat_ofNat']; omega
  have hflen : (UInt8.ofNat F.length).toNat = F.length := by rw [UInt8.toNat_ofNat']; omega
  generalize hpl : UInt8.ofNat P.length = pl at *
  generalize hfl : UInt8.ofNat F.length = fl at *
  have hm : findMarker (x :: K ++ [pl] ++ 65 :: 50 :: (P ++ fl :: F)) = some (K.length + 2) := by
    rw [findMarker_first _ _ (by simpa using h5)]
    simp
  unfold sourceFromBytes
  rw [slice_mid (h := []) (d := [a, b, c, d]) (post := x :: K ++ [pl] ++ 65 :: 50 :: (P ++ fl :: F)) (i := 0) (j := 4) (by simp) rfl rfl, ok_bind,
    slice_mid (h := [a, b, c, d]) (d := x :: K ++ [pl] ++ 65 :: 50 :: (P ++ fl :: F)) (post := []) (i := 4) (by simp) rfl (by simp; omega), ok_bind, hm]
  have hu : usub p ((some (K.length + 2)).getD 0) 1 = .ok (K.length + 1) := by
    unfold usub
    rw [if_pos (by simp)]
    rfl
  rw [hu, ok_bind, idx_mid (h := x :: K) (b := pl) (post := 65 :: 50 :: (P ++ fl :: F)) (by simp) (by simp), ok_bind, hplen,
    slice_mid (h := x :: K ++ [pl, 65, 50]) (d := P) (post := fl :: F) (by simp) (by simp) (by simp), ok_bind]
  dsimp only
  rw [idx_mid (h := x :: K ++ [pl, 65, 50] ++ P) (b := fl) (post := F) (by simp) (by simp; omega), ok_bind, hflen,
    slice_mid (h := x :: K ++ [pl, 65, 50] ++ P ++ [fl]) (d := F) (post := []) (by simp) (by simp; omega) (by simp), ok_bind,
    slice_mid (h := [x]) (d := K) (post := pl :: 65 :: 50 :: (P ++ fl :: F)) (i := 1) (by simp) rfl (Nat.add_comm _ _), ok_bind, hk, hp, hfn]
  rfl

theorem location_decoded (p : Profile) (l : LocationDef) (h : l.Ok fmStringEncrypt) :
    sourceFromBytes p (l.bytes fmStringEncrypt) = .ok l.location :=
  location_path p l _ h.head h.path h.filename (path_decoded l.path h.pieces) h.marker

/-! Runs -/

/-- The state after the names `ns` have been read and the sources `ds`. -/
def sourceState (ns : List Str) (ds : HMap FDataSource) : DState := { file := { dataSources := ds }, sources := ns }

def encodeName (s : Str) : Bytes := encodeText (s ++ ['\x00'])

theorem run_names {p : Profile} (ss : List SourceDef) (hn : ∀ s ∈ ss, ∀ c ∈ s.name, Spec.storable c) : ∀ ns,
    runNotes p (sourceState ns []) (ss.map fun s => .name (encodeName s.name)) = .ok (sourceState (ns ++ ss.map (·.name)) []) := by
  induction ss with
  | nil => intro ns; simp [runNotes]; rfl
  | cons s ss ih =>
    intro ns
    rw [List.map_cons, runNotes_cons]
    unfold noteStep
    dsimp only
    unfold encodeName
    rw [Props.decode_encode_storable s.name (hn s (by simp)), ok_bind]
    have := ih (fun s hs => hn s (by simp [hs])) (ns ++ [s.name])
    rw [show (ns ++ [s.name]) ++ ss.map (·.name) = ns ++ (s :: ss).map (·.name) by simp] at this
    exact this

theorem modify_newest {α : Type} (m : HMap α) (k : Nat) (v : α) (f : α → α) (h : ∀ e ∈ m, e.1 ≠ k) :
    HMap.modify (m ++ [(k, v)]) k f = m ++ [(k, f v)] := by
  unfold HMap.modify
  rw [List.map_append]
  congr 1
  · conv => rhs; rw [← List.map_id m]
    refine List.map_congr_left fun e he => ?_
    simp [h e he]
  · simp

theorem run_source_dirs {p : Profile} (ss : List SourceDef) : ∀ (done : List SourceDef), (done ++ ss).Pairwise (·.id ≠ ·.id) →
    (∀ s ∈ ss, ∀ l, s.location = some l → l.Ok fmStringEncrypt) →
    runNotes p (sourceState (ss.map (·.name)) (done.map fun s => (s.id.toNat, s.source))) (ss.flatMap (·.notes fmStringEncrypt)) =
      .ok (sourceState [] ((done ++ ss).map fun s => (s.id.toNat, s.source))) := by
  induction ss with
  | nil => intro done _ _; simp [runNotes]; rfl
  | cons s ss ih =>
    intro done hids hloc
    have ih := ih (done ++ [s]) (by simpa using hids) (fun s hs => hloc s (by simp [hs]))
    have hnew : ∀ e ∈ done.map (fun s => (s.id.toNat, s.source)), e.1 ≠ s.id.toNat := by
      intro e he
      obtain ⟨t, ht, rfl⟩ := List.mem_map.mp he
      have := (List.pairwise_append.mp hids).2.2 t ht s (by simp)
      intro hh
      exact this (UInt8.toNat_inj.mp hh)
    rw [List.flatMap_cons, runNotes_append]
    have key : runNotes p (sourceState ((s :: ss).map (·.name)) (done.map fun s => (s.id.toNat, s.source))) (s.notes fmStringEncrypt) =
        .ok (sourceState (ss.map (·.name)) ((done ++ [s]).map fun s => (s.id.toNat, s.source))) := by
      unfold SourceDef.notes
      rw [runNotes_cons]
      have e1 : noteStep p (sourceState ((s :: ss).map (·.name)) (done.map fun s => (s.id.toNat, s.source))) (.enter [32, 5, s.id.toNat] [s.id]) =
          .ok (sourceState (ss.map (·.name)) ((done.map fun s => (s.id.toNat, s.source)) ++ [(s.id.toNat, { name := s.name })])) := by
        unfold noteStep
        dsimp only [sourceState, List.map_cons]
        rw [show getInt [s.id] = s.id.toNat from rfl]
        simp only [List.map_cons]
        rw [HMap.insert_new]
        unfold HMap.contains
        rw [List.any_eq_false]
        intro e he
        simpa using hnew e he
      rw [e1, ok_bind, runNotes_append]
      generalize hD : (done.map fun s => (s.id.toNat, s.source)) = D at hnew
      have e2 : runNotes p (sourceState (ss.map (·.name)) (D ++ [(s.id.toNat, { name := s.name })]))
          ((s.location.map fun l => SourceNote.location s.id.toNat (l.bytes fmStringEncrypt)).toList) =
          .ok (sourceState (ss.map (·.name)) (D ++ [(s.id.toNat, { name := s.name, location := (s.location.map (·.location)).getD {} })])) := by
        cases hl : s.location with
        | none => rfl
        | some l =>
          show runNotes p _ [_] = _
          rw [runNotes_cons]
          unfold noteStep
          dsimp only
          rw [location_decoded p l (hloc s (by simp) l hl), ok_bind]
          show Except.ok (sourceState _ (HMap.modify _ _ _)) = _
          unfold sourceState
          dsimp only
          rw [modify_newest _ _ _ _ hnew]
          rfl
      rw [e2, ok_bind]
      have e3 : runNotes p (sourceState (ss.map (·.name)) (D ++ [(s.id.toNat, { name := s.name, location := (s.location.map (·.location)).getD {} })]))
          ((s.user.map fun u => SourceNote.user s.id.toNat (fmStringEncrypt u)).toList) =
          .ok (sourceState (ss.map (·.name)) (D ++ [(s.id.toNat, s.source)])) := by
        cases hu : s.user with
        | none => unfold SourceDef.source; rw [hu]; rfl
        | some u =>
          show runNotes p _ [_] = _
          rw [runNotes_cons]
          unfold noteStep
          dsimp only
          rw [Props.string_roundtrip, ok_bind]
          show Except.ok (sourceState _ (HMap.modify _ _ _)) = _
          unfold sourceState
          dsimp only
          rw [modify_newest _ _ _ _ hnew]
          unfold SourceDef.source
          rw [hu]
          rfl
      rw [e3, ← hD]
      simp
    rw [key, ok_bind]
    have e : done ++ [s] ++ ss = done ++ s :: ss := by simp
    rw [e] at ih
    exact ih

/-- The data sources of a well-formed description are read. -/
theorem run_sources {p : Profile} {ss : List SourceDef} (h : Spec.SourcesOk fmStringEncrypt ss) :
    runNotes p {} (Spec.sourceNotes fmStringEncrypt encodeName ss) = .ok (sourceState [] (ss.map fun s => (s.id.toNat, s.source))) := by
  unfold Spec.sourceNotes
  rw [runNotes_append, show ({} : DState) = sourceState [] [] from rfl, run_names ss h.names [], ok_bind]
  exact run_source_dirs ss [] h.ids h.locations

end BurnFm
