import Verif.Proofs.SourceProvenance
import Verif.Props.Sources

/-! Property C114 for data sources: where each comes from. The files have any content in any order. -/

namespace BurnFm.Props
open Spec

/-- C114, data sources: data source `k` exists exactly if a directory with number `k`, at or below that of a data source, is entered
while a name is left. It has the name it took when that last happened, and the last location and user given since. -/
theorem source_provenance (p : Profile) (buf : Bytes) (raws : List Raw) (hf : RawFileOf buf raws) (fuel : Nat) (f : FmpFile)
    (h : decompile p buf fuel = .ok (some f)) (k : Nat) :
    f.dataSources.get k = sourceSaid getInt (fun b => (decodeBytes b).toOption.getD []) fmStringDecrypt
      (fun b => (sourceFromBytes p b).toOption.getD {}) (raws.filterMap Raw.note) k := by
  obtain ⟨T, G, L, S, D, g, rfl, _, _, _, _, h5, _⟩ := raw_project hf h
  have := run_sources_said (p := p) (k := k) _ (names := []) rfl h5
  change D.file.dataSources.get k = _
  rw [this]
  unfold sourceSaid
  split <;> rename_i he <;> rw [he] <;> rfl

/-! Data sources in a muddle: a user before the directory is entered, directory 1 entered twice, a name between, and directory 9
when no name is left. -/

def muddledSources : List Item :=
  [.push 32, .push 1, .push 1, .data (encodeName t!"stock"), .data (encodeName t!"prices"), .pop, .pop,
   .push 5, .push 1, .kv 130 (exampleLocation.bytes fmStringEncrypt), .pop,
   .push 2, .kv 130 (exampleLocation.bytes fmStringEncrypt), .pop, .pop,
   .push 1, .push 1, .data (encodeName t!"people"), .pop, .pop,
   .push 5, .push 1, .pop, .push 9, .pop, .pop, .pop]

set_option maxRecDepth 20000 in
/-- It meets the hypotheses; the theorem says that source 1 has its second name and no location, 2 its location, and 9 is missing. -/
example (p : Profile) : ∃ buf raws, RawFileOf buf raws ∧ ∃ fuel f, decompile p buf fuel = .ok (some f) ∧
    f.dataSources.get 1 = some { name := t!"people" } ∧
    f.dataSources.get 2 = some { name := t!"prices", location := ⟨t!"file", t!":data/../", t!"stock"⟩ } ∧ f.dataSources.get 9 = none := by
  have hf := itemFile_raw muddledSources (by decide) (by decide) (by decide)
  obtain ⟨fuel, h⟩ := raw_run (p := p) (T := {}) (G := {}) (L := {}) (S := {}) (f := {})
    (D := sourceState [] [(1, { name := t!"people" }), (2, { name := t!"prices", location := ⟨t!"file", t!":data/../", t!"stock"⟩ })]) hf
    (by rfl) (by rfl) (by rfl) (by rfl) (by cases p <;> rfl) (by rfl)
  refine ⟨_, _, hf, fuel, _, h fuel (Nat.le_refl _), ?_⟩
  have hs := source_provenance p _ _ hf fuel _ (h fuel (Nat.le_refl _))
  refine ⟨(hs 1).trans ?_, (hs 2).trans ?_, (hs 9).trans ?_⟩ <;> cases p <;> rfl

end BurnFm.Props
