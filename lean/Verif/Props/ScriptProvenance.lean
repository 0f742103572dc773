import Verif.Proofs.ScriptProvenanceRun
import Verif.Props.Provenance

/-! Properties C76 and C77 for files with any content in any order: where the steps of a decompiled script come from. -/

namespace BurnFm.Props
open Spec

/-- C76: the steps of a script, their opcodes and numbers, are those the file says, in whatever pieces and order. -/
theorem script_steps_provenance (p : Profile) (buf : Bytes) (evs : List Event) (hf : FileOf buf evs) (fuel : Nat) (f : FmpFile)
    (h : decompile p buf fuel = .ok (some f)) (k : Nat) (sc : FScript) (hk : f.scripts.get k = some sc) :
    sc.instructions.map (fun s => (s.opcode, s.index)) =
      (scriptSaid fmStringDecrypt (stepOf instructionMap getPathInt) evs k).map fun s => (s.opcode, s.index) := by
  obtain ⟨T, G, L, S, g, ds, rfl, _, _, _, h4, h5⟩ := file_project hf h
  rw [show stepOf instructionMap getPathInt = readStep from rfl, ← scriptSaid_filter, assembled_steps h4 h5 hk]
  unfold scriptSaid
  rw [List.map_append, List.map_append]
  congr 1
  exact run_core _ h4

/-- C76, C77: with the scripts they call and with all their parameters, in order. Partial: no two steps of the script have the
same number, see `same_number_refuted`. -/
theorem script_parameters_provenance_partial (p : Profile) (buf : Bytes) (evs : List Event) (hf : FileOf buf evs) (fuel : Nat) (f : FmpFile)
    (h : decompile p buf fuel = .ok (some f)) (k : Nat) (sc : FScript) (hk : f.scripts.get k = some sc)
    (hn : ((scriptSaid fmStringDecrypt (stepOf instructionMap getPathInt) evs k).map (·.index)).Nodup) :
    sc.instructions = (scriptSaid fmStringDecrypt (stepOf instructionMap getPathInt) evs k).map
      (withParameters fmStringDecrypt (fun b => (decompileCalculation b).toOption) evs k) := by
  obtain ⟨T, G, L, S, g, ds, rfl, _, _, _, h4, h5⟩ := file_project hf h
  rw [show stepOf instructionMap getPathInt = readStep from rfl, ← scriptSaid_filter] at hn ⊢
  rw [show withParameters fmStringDecrypt (fun b => (decompileCalculation b).toOption) evs k = addParams evs k from rfl, ← addParams_filter,
    assembled_steps h4 h5 hk]
  unfold scriptSaid at hn ⊢
  rw [List.map_append, List.nodup_append] at hn
  obtain ⟨q1, q2⟩ := run_params _ h4 hn.1
  rw [List.map_append, q1]
  congr 1
  refine (List.map_id _).symm.trans (List.map_congr_left fun s hs => ?_)
  exact ((addParams_local q2).idle s fun hm => hn.2.2 _ hm _ (List.mem_map_of_mem hs) rfl).symm

/-! A script in many pieces: two properties with a name between them, long data inserted in front, a parameter between the
pieces, three segments, one of them twice. -/

def piecesItems : List Item :=
  [.push 17, .push 1, .push 7, .push 1, .kv 16 (fmStringEncrypt t!"a"), .pop, .pop, .pop,
   .push 5, .push 1, .kv 4 (exampleRecord 1 141 ++ exampleRecord 7 1), .push 5, .push 1, .push 128, .kv 1 (fmStringEncrypt t!"n"), .pop, .pop, .pop, .pop,
   .pop, .push 1, .push 7, .push 1, .kv 16 (fmStringEncrypt t!"b"), .pop, .pop, .pop, .push 5, .push 1, .kv 4 (exampleRecord 8 1),
   .push 4, .segment 2 ((exampleRecord 9 141).drop 9), .segment 1 [7, 7], .segment 1 ((exampleRecord 9 141).take 9), .segment 3 [1, 2], .pop,
   .segment 4 (exampleRecord 0 141),
   .push 5, .push 0, .push 128, .kv 1 (fmStringEncrypt t!"z"), .pop, .pop, .push 1, .push 128, .push 5, .kv 5 (fmStringEncrypt t!"v"), .pop, .pop, .pop, .pop,
   .pop, .pop, .pop]

set_option maxRecDepth 40000 in
theorem pieces_file : FileOf (itemFile piecesItems) (itemEvents [] piecesItems) :=
  itemFile_spec _ (by decide) (by decide) (by decide)

/-- The script when all chunks have been read, and its segments. -/
def piecesState : DState :=
  { file := { scripts := [(1, ⟨t!"b", [], [⟨.setVariable, 0, [t!"z"]⟩, ⟨.setVariable, 1, [t!"n", t!"v"]⟩, ⟨.performScript, 7, [t!"a"]⟩,
      ⟨.performScript, 8, [t!"b"]⟩]⟩)] }
    segments := [(1, [(2, (exampleRecord 9 141).drop 9), (1, (exampleRecord 9 141).take 9), (3, [1, 2])])] }

set_option maxRecDepth 40000 in
theorem pieces_decompile (p : Profile) : ∃ fuel f sc, decompile p (itemFile piecesItems) fuel = .ok (some f) ∧ f.scripts.get 1 = some sc := by
  have h1 : runEvents p {} ((itemEvents [] piecesItems).filter aboutScripts) = .ok piecesState := by
    rw [← runP_eq]; cases p <;> decide +kernel
  have h2 : sortByKey [(2, (exampleRecord 9 141).drop 9), (1, (exampleRecord 9 141).take 9), (3, [1, 2])] =
      [(1, (exampleRecord 9 141).take 9), (2, (exampleRecord 9 141).drop 9), (3, [1, 2])] :=
    sortByKey_eq (List.Perm.swap _ _ _) (by decide)
  have h3 : assembleScripts piecesState = .ok (piecesState.setSteps 1 ((stepsIn 1 piecesState) ++ [⟨.setVariable, 9, []⟩])).file := by
    unfold assembleScripts
    rw [show piecesState.segments = [(1, [(2, (exampleRecord 9 141).drop 9), (1, (exampleRecord 9 141).take 9), (3, [1, 2])])] from rfl,
      List.foldlM_cons]
    unfold assembleScript
    rw [h2, chunks28_pieces _ _ rfl]
    rfl
  obtain ⟨fuel, h⟩ := file_run (p := p) pieces_file (by decide) (T := {}) (G := {}) (L := {}) rfl rfl rfl h1 h3
  exact ⟨fuel, _, _, h fuel (Nat.le_refl _), rfl⟩

set_option maxRecDepth 40000 in
example (p : Profile) : ∃ fuel f sc, decompile p (itemFile piecesItems) fuel = .ok (some f) ∧ f.scripts.get 1 = some sc ∧
    sc.instructions = [⟨.setVariable, 0, [t!"z"]⟩, ⟨.setVariable, 1, [t!"n", t!"v"]⟩, ⟨.performScript, 7, [t!"a"]⟩,
      ⟨.performScript, 8, [t!"b"]⟩, ⟨.setVariable, 9, []⟩] := by
  obtain ⟨fuel, f, sc, h1, h2⟩ := pieces_decompile p
  refine ⟨fuel, f, sc, h1, h2, ?_⟩
  rw [script_parameters_provenance_partial p _ _ pieces_file _ _ h1 1 sc h2 (by decide +kernel)]
  decide +kernel

/-! ### Equal numbers -/

def twinItems : List Item :=
  [.push 17, .push 1, .push 7, .push 1, .kv 16 (fmStringEncrypt t!"a"), .pop, .pop, .pop,
   .push 5, .push 1, .kv 4 (exampleRecord 1 141 ++ exampleRecord 1 141), .push 5, .push 1, .push 128, .kv 1 (fmStringEncrypt t!"n"), .pop, .pop, .pop, .pop,
   .pop, .pop]

set_option maxRecDepth 40000 in
/-- C77 without distinct numbers is false: of two steps with the same number only the first gets the parameters. -/
theorem same_number_refuted (p : Profile) : ∃ buf evs fuel f sc, FileOf buf evs ∧ decompile p buf fuel = .ok (some f) ∧
    f.scripts.get 1 = some sc ∧ sc.instructions = [⟨.setVariable, 1, [t!"n"]⟩, ⟨.setVariable, 1, []⟩] ∧
    (scriptSaid fmStringDecrypt (stepOf instructionMap getPathInt) evs 1).map
      (withParameters fmStringDecrypt (fun b => (decompileCalculation b).toOption) evs 1) =
      [⟨.setVariable, 1, [t!"n"]⟩, ⟨.setVariable, 1, [t!"n"]⟩] := by
  have hf : FileOf (itemFile twinItems) (itemEvents [] twinItems) := itemFile_spec _ (by decide) (by decide) (by decide)
  have h1 : runEvents p {} ((itemEvents [] twinItems).filter aboutScripts) =
      .ok { file := { scripts := [(1, ⟨t!"a", [], [⟨.setVariable, 1, [t!"n"]⟩, ⟨.setVariable, 1, []⟩]⟩)] } } := by
    rw [← runP_eq]; cases p <;> decide +kernel
  obtain ⟨fuel, h⟩ := file_run (p := p) hf (by decide) (T := {}) (G := {}) (L := {}) rfl rfl rfl h1 rfl
  exact ⟨_, _, fuel, _, _, hf, h fuel (Nat.le_refl _), rfl, rfl, by decide +kernel⟩

end BurnFm.Props
