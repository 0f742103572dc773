import Verif.Spec.Provenance
import Verif.Proofs.Raw

/-! Where data sources come from. -/

namespace BurnFm
open Spec

/-- The text of a name. -/
def nameText (b : Bytes) : Str := ((decodeBytes b).toOption).getD []

/-- The location in some bytes. -/
def locationText (p : Profile) (b : Bytes) : SourceLocation := ((sourceFromBytes p b).toOption).getD {}

/-- A data source after some more notes. -/
def updatedSource (p : Profile) (k : Nat) (ns : List SourceNote) (s : FDataSource) : FDataSource :=
  { s with location := ((lastLocation k ns).map (locationText p)).getD s.location
           createdByUser := ((lastUser k ns).map fmStringDecrypt).getD s.createdByUser }

theorem lastLocation_cons (k : Nat) (n : SourceNote) (ns : List SourceNote) :
    lastLocation k (n :: ns) = (lastLocation k ns).or (lastLocation k [n]) := by
  unfold lastLocation
  rw [show n :: ns = [n] ++ ns from rfl, List.filterMap_append, List.getLast?_append]

theorem lastUser_cons (k : Nat) (n : SourceNote) (ns : List SourceNote) :
    lastUser k (n :: ns) = (lastUser k ns).or (lastUser k [n]) := by
  unfold lastUser
  rw [show n :: ns = [n] ++ ns from rfl, List.filterMap_append, List.getLast?_append]

theorem updated_cons (p : Profile) (k : Nat) (n : SourceNote) (ns : List SourceNote) (s : FDataSource) :
    updatedSource p k (n :: ns) s = updatedSource p k ns (updatedSource p k [n] s) := by
  unfold updatedSource
  rw [lastLocation_cons, lastUser_cons]
  cases lastLocation k ns <;> cases lastUser k ns <;> simp

theorem run_sources_said {p : Profile} {k : Nat} (ns : List SourceNote) : ∀ {names : List Bytes} {D D' : DState},
    D.sources = names.map nameText → runNotes p D ns = .ok D' →
    D'.file.dataSources.get k = match ((sourceEntries getInt names ns).filter (·.number == k)).getLast? with
      | some e => some (updatedSource p k e.after { name := nameText e.name })
      | none => (D.file.dataSources.get k).map (updatedSource p k ns) := by
  induction ns with
  | nil =>
    intro names D D' _ h
    cases h
    cases hg : D.file.dataSources.get k <;> simp [sourceEntries, updatedSource, lastLocation, lastUser]
  | cons n ns ih =>
    intro names D D' hq h
    rw [runNotes_cons] at h
    obtain ⟨u, h1, h2⟩ := bind_ok.mp h
    have idle : updatedSource p k [n] = id → ((D.file.dataSources.get k).map (updatedSource p k ns)) =
        (D.file.dataSources.get k).map (updatedSource p k (n :: ns)) := by
      intro hid
      congr 1
      funext s
      rw [updated_cons, hid]
      rfl
    cases n with
    | name b =>
      unfold noteStep at h1
      obtain ⟨t, ht, h1⟩ := bind_ok.mp h1
      cases h1
      rw [ih (names := names ++ [b]) (by simp [hq, nameText, ht, Except.toOption]) h2]
      rw [sourceEntries, ← idle (by funext s; simp [updatedSource, lastLocation, lastUser])]
    | enter path d =>
      have hid : updatedSource p k [.enter path d] = id := by funext s; simp [updatedSource, lastLocation, lastUser]
      cases names with
      | nil =>
        unfold noteStep at h1
        rw [hq] at h1
        cases h1
        rw [ih (names := []) hq h2, sourceEntries, ← idle hid]
      | cons b rest =>
        unfold noteStep at h1
        rw [hq] at h1
        cases h1
        rw [ih (names := rest) rfl h2, sourceEntries]
        dsimp only
        by_cases hk : getInt d = k
        · subst hk
          rw [List.filter_cons_of_pos (by simp), HMap.get_insert, if_pos rfl]
          cases hl : ((sourceEntries getInt rest ns).filter (·.number == getInt d)).getLast? with
          | none =>
            have : (sourceEntries getInt rest ns).filter (·.number == getInt d) = [] := List.getLast?_eq_none_iff.mp hl
            rw [this]
            rfl
          | some e => rw [List.getLast?_cons, hl]; rfl
        · rw [List.filter_cons_of_neg (by simpa using hk), HMap.get_insert, if_neg (fun h => hk h.symm), idle hid]
    | location id b =>
      unfold noteStep at h1
      obtain ⟨l, hl, h1⟩ := bind_ok.mp h1
      cases h1
      rw [ih (names := names) (by exact hq) h2, sourceEntries]
      dsimp only
      rw [HMap.get_modify]
      by_cases hk : k = id
      · subst hk
        rw [if_pos rfl]
        split
        · rfl
        · rw [Option.map_map]
          congr 1
          funext s
          rw [updated_cons]
          simp [updatedSource, lastLocation, lastUser, locationText, hl, Except.toOption]
      · rw [if_neg hk, idle]
        funext s
        have : ¬ id = k := fun h => hk h.symm
        simp [updatedSource, lastLocation, lastUser, this]
    | user id b =>
      unfold noteStep at h1
      cases h1
      rw [ih (names := names) (by exact hq) h2, sourceEntries]
      dsimp only
      rw [HMap.get_modify]
      by_cases hk : k = id
      · subst hk
        rw [if_pos rfl]
        split
        · rfl
        · rw [Option.map_map]
          congr 1
          funext s
          rw [updated_cons]
          simp [updatedSource, lastLocation, lastUser]
      · rw [if_neg hk, idle]
        funext s
        have : ¬ id = k := fun h => hk h.symm
        simp [updatedSource, lastLocation, lastUser, this]

end BurnFm
