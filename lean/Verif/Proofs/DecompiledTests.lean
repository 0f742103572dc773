import Verif.Spec.DecompiledTests
import Verif.Proofs.VmData
import Verif.Proofs.GraphFold
import Verif.Proofs.Generate
import Verif.Proofs.Main

/-! The interpreter does not look at the numbers of steps; the database of a well-formed file can be generated. -/

namespace BurnFm
open Spec

variable {ev : Calculator} {p : Profile} {scripts : HMap FScript}

/-- A step without its number. -/
def unnum (s : ScriptStep) : ScriptStep := { s with index := 0 }

/-- Scripts without the numbers of their steps. -/
def unnumScripts (scripts : HMap FScript) : HMap FScript :=
  scripts.map fun e => (e.1, { e.2 with instructions := e.2.instructions.map unnum })

theorem effect_unnum (d : Nat) (s : ScriptStep) (w : World) : effect ev p d (unnum s) w = effect ev p d s w := rfl

theorem seek_unnum (stop : Instruction → Bool) (code : List ScriptStep) (i : Nat) :
    seek stop (code.map unnum) i = seek stop code i := by
  unfold seek
  congr 1
  rw [← List.map_drop]
  generalize code.drop i = l
  induction l with
  | nil => rfl
  | cons s l ih =>
    rw [List.map_cons, List.takeWhile_cons, List.takeWhile_cons]
    show List.length (if (!stop s.opcode) = true then _ else _) = _
    split
    · simp [ih]
    · rfl

theorem getLastD_unnum (code : List ScriptStep) (s : ScriptStep) (i : Nat) :
    ((code.map unnum).getLastD (unnum s)).switch i = (code.getLastD s).switch i := by
  induction code generalizing s with
  | nil => rfl
  | cons a l ih => simp only [List.map_cons, List.getLastD_cons]; exact ih a

theorem exec_unnum (vm : Vm) (name : Str) (ip : Nat) (below : List (Str × Nat)) (code : List ScriptStep) (s : ScriptStep) :
    vm.exec ev p (unnumScripts scripts) name ip below (code.map unnum) (unnum s) =
      vm.exec ev p scripts name ip below code s := by
  have hany : ∀ callee, (unnumScripts scripts).any (fun e => e.2.name == callee) = scripts.any (fun e => e.2.name == callee) := by
    intro callee
    unfold unnumScripts
    rw [List.any_map]
    rfl
  have hafter : afterLoop (code.map unnum) ip = afterLoop code ip := by
    unfold afterLoop
    rw [seek_unnum, List.length_map]
  have hsw : ∀ i, (unnum s).switch i = s.switch i := fun _ => rfl
  have hsl : (unnum s).switches = s.switches := rfl
  have hop : (unnum s).opcode = s.opcode := rfl
  unfold Vm.exec
  simp only [hop, hsw, hsl, hany, hafter, seek_unnum, List.length_map, effect_unnum]
  cases ho : s.opcode
  case elseIf =>
    dsimp only
    split
    · rfl
    · by_cases hb : vm.branchTaken = true
      · simp only [hb, if_true, getLastD_unnum]
      · simp only [hb]
        rfl
  all_goals rfl

theorem find_unnum (name : Str) :
    (unnumScripts scripts).find? (fun e => e.2.name == name) =
      (scripts.find? (fun e => e.2.name == name)).map fun e => (e.1, { e.2 with instructions := e.2.instructions.map unnum }) := by
  unfold unnumScripts
  rw [List.find?_map]
  rfl

theorem script_unnum (vm : Vm) (name : Str) (below : List (Str × Nat)) (hb : below ≠ []) :
    (vm.script (unnumScripts scripts) name below).instructions = (vm.script scripts name below).instructions.map unnum := by
  unfold Vm.script
  have : below.isEmpty = false := by simpa using hb
  rw [this, find_unnum]
  cases scripts.find? (fun e => e.2.name == name) <;> rfl

theorem exec_callees (vm : Vm) (name : Str) (ip : Nat) (below : List (Str × Nat)) (code : List ScriptStep) (s : ScriptStep) :
    vm.exec ev p (unnumScripts scripts) name ip below code s = vm.exec ev p scripts name ip below code s := by
  have hany : ∀ callee, (unnumScripts scripts).any (fun e => e.2.name == callee) = scripts.any (fun e => e.2.name == callee) := by
    intro callee
    unfold unnumScripts
    rw [List.any_map]
    rfl
  unfold Vm.exec
  simp only [hany]

theorem step_unnum (vm : Vm) : vm.step ev p (unnumScripts scripts) = vm.step ev p scripts := by
  unfold Vm.step
  cases hf : vm.frames with
  | nil => rfl
  | cons fr below =>
    obtain ⟨name, ip⟩ := fr
    dsimp only
    by_cases hb : below = []
    · subst hb
      rw [show vm.script (unnumScripts scripts) name [] = vm.script scripts name [] from rfl]
      cases (vm.script scripts name []).instructions[ip]? with
      | none => rfl
      | some s => exact exec_callees ..
    · rw [script_unnum vm name below hb, List.getElem?_map]
      cases (vm.script scripts name below).instructions[ip]? with
      | none => rfl
      | some s => exact exec_unnum ..

theorem run_unnum (n : Nat) (vm : Vm) : vm.run ev p (unnumScripts scripts) n = vm.run ev p scripts n := by
  induction n generalizing vm with
  | zero => rfl
  | succ n ih =>
    unfold Vm.run
    rw [step_unnum vm]
    split
    · cases hs : vm.step ev p scripts with
      | error e => rfl
      | ok vm' => exact ih vm'
    · rfl

theorem runTests_unnum (n : Nat) (ts : List FTest) (vm : Vm) :
    vm.runTests ev p (unnumScripts scripts) n ts = vm.runTests ev p scripts n ts := by
  induction ts generalizing vm with
  | nil => rfl
  | cons t ts ih =>
    unfold Vm.runTests
    rw [run_unnum n (vm.loadTest t)]
    cases (vm.loadTest t).run ev p scripts n with
    | error e => rfl
    | ok vm' =>
      simp only [ev_ok_bind]
      rw [ih]

/-! Generation -/

theorem zipIdx_numbers {α β : Type} (f : α × Nat → Nat × β) (hf : ∀ x, (f x).1 = x.2 + 1) (l : List α) (k : Nat) :
    ((l.zipIdx k).map f).map (·.1) = List.range' (k + 1) l.length := by
  induction l generalizing k with
  | nil => rfl
  | cons a l ih =>
    rw [List.zipIdx_cons, List.map_cons, List.map_cons, ih, hf]
    rfl

theorem occurrencesOf_keys (os : List OccurrenceDef) : (occurrencesOf os).map (·.1) = List.range' 1 os.length :=
  zipIdx_numbers _ (fun _ => rfl) os 0

theorem relationshipsOf_keys (os : List OccurrenceDef) (cs : List CriterionDef) :
    (relationshipsOf os cs).map (·.1) = List.range' 1 (linkedPairs os).length :=
  zipIdx_numbers _ (fun _ => rfl) _ 0

theorem relationshipOf_tables (cs : List CriterionDef) (r : Nat) (pair : Nat × Nat) :
    (relationshipOf cs r pair).table1 = pair.1 ∧ (relationshipOf cs r pair).table2 = pair.2 := by
  unfold relationshipOf
  split <;> exact ⟨rfl, rfl⟩

/-- The links of a well-formed file lead to its occurrences. -/
theorem wellFormed_rels {d : FileDef} {enc : Str → Bytes} (h : d.WellFormed enc) :
    ∀ e ∈ d.file.relationships, e.2.table1 ∈ d.file.tableOccurrences.map (·.1) ∧ e.2.table2 ∈ d.file.tableOccurrences.map (·.1) := by
  intro e he
  show _ ∈ (occurrencesOf d.occurrences).map (·.1) ∧ _ ∈ (occurrencesOf d.occurrences).map (·.1)
  rw [occurrencesOf_keys]
  have he' : e ∈ relationshipsOf d.occurrences d.criteria := he
  unfold relationshipsOf at he'
  obtain ⟨⟨⟨i, j⟩, r⟩, hm, rfl⟩ := List.mem_map.mp he'
  have hm' := List.mem_zipIdx hm
  have hp : (i, j) ∈ linkedPairs d.occurrences := by
    rw [hm'.2.2]; exact List.getElem_mem _
  obtain ⟨h1, h2, o, h3, h4⟩ := (mem_linkedPairs _ _ _).mp hp
  obtain ⟨o', h5, h6, -⟩ := h.graph.symmetric (i - 1) o h3 j h4
  have l1 := (List.getElem?_eq_some_iff.mp h3).1
  have l2 := (List.getElem?_eq_some_iff.mp h6).1
  rw [(relationshipOf_tables _ _ _).1, (relationshipOf_tables _ _ _).2]
  constructor <;> rw [List.mem_range'_1] <;> dsimp only <;> omega

theorem pairwise_nodup {α : Type} {l : List α} {f : α → Nat} (h : l.Pairwise (fun a b => f a ≠ f b)) : (l.map f).Nodup :=
  List.Pairwise.map f (fun _ _ h => h) h

theorem wellFormed_ids {d : FileDef} {enc : Str → Bytes} (h : d.WellFormed enc) : DistinctIds d.file where
  tables := by
    show ((d.tables.map fun t => (t.id, t.table)).map (·.1)).Nodup
    rw [List.map_map]
    exact pairwise_nodup (h.tables.1.imp fun h => h.1)
  fields := by
    intro e he
    obtain ⟨t, ht, rfl⟩ := List.mem_map.mp he
    show ((t.fields.map fun f => (f.id, f.field)).map (·.1)).Nodup
    rw [List.map_map]
    exact pairwise_nodup (h.tables.2 t ht).1
  occs := by
    show ((occurrencesOf d.occurrences).map (·.1)).Nodup
    rw [occurrencesOf_keys]
    exact List.nodup_range'

theorem wellFormed_generates {d : FileDef} {enc : Str → Bytes} (h : d.WellFormed enc) : ∃ vm, Vm.generate d.file = .ok vm := by
  obtain ⟨db, hdb, -⟩ := generate_ok d.file (wellFormed_ids h) fun e he =>
    ⟨le_maxKey _ (wellFormed_rels h e he).1, le_maxKey _ (wellFormed_rels h e he).2⟩
  unfold Vm.generate
  rw [hdb]
  exact ⟨_, rfl⟩

/-- The file the program works on. -/
theorem merge_described {d : FileDef} {enc : Str → Bytes} (h : d.WellFormed enc) (T : List FTest) :
    ({ tests := T } : FmpFile).merge d.file = { d.file with tests := T, dataSources := [] } := by
  have hs : ((d.scripts.map fun s => (s.id, s.script d.scripts)).map (·.1)).Nodup := by
    rw [List.map_map]; exact pairwise_nodup h.scripts.ids
  have hl : ((d.layouts.map fun l => (l.id, l.layout)).map (·.1)).Nodup := by
    rw [List.map_map]; exact pairwise_nodup h.layouts.ids
  have hr : ((relationshipsOf d.occurrences d.criteria).map (·.1)).Nodup := by
    rw [relationshipsOf_keys]; exact List.nodup_range'
  unfold FmpFile.merge
  dsimp only
  rw [extend_nil d.file.tables (wellFormed_ids h).tables, extend_nil d.file.tableOccurrences (wellFormed_ids h).occs,
    extend_nil d.file.relationships hr, extend_nil d.file.scripts hs, extend_nil d.file.layouts hl]
  show FmpFile.mk .. = FmpFile.mk ..
  simp [FileDef.file, HMap.extend]

/-- The scripts as the interpreter finds them. -/
theorem linked_described {d : FileDef} {env : Str → Option Prog} (hm : MeantBy d env) (hn : NoCalls env) :
    Linked (unnumScripts d.file.scripts) env := by
  intro name q hq
  obtain ⟨s, hs, hc⟩ := hm name q hq
  refine ⟨(s.id, { s.script d.scripts with instructions := (s.script d.scripts).instructions.map unnum }), ?_, ?_⟩
  · rw [find_unnum]
    show Option.map _ (List.find? _ (d.scripts.map fun s => (s.id, s.script d.scripts))) = _
    rw [List.find?_map]
    show Option.map _ (Option.map _ (List.find? (fun s => s.name == name) d.scripts)) = _
    rw [hs]
    rfl
  · rw [← hc]
    show (s.steps.map (StepDef.step d.scripts)).map unnum = _
    rw [List.map_map]
    refine List.map_congr_left fun t ht => ?_
    have : t.op ≠ .performScript := by
      have := hn name q hq (t.meaning d.scripts) (by rw [← hc]; exact List.mem_map.mpr ⟨t, ht, rfl⟩)
      exact this
    show ScriptStep.mk _ _ _ = ScriptStep.mk _ _ _
    simp [StepDef.step, this]

end BurnFm
