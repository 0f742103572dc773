import Verif.Proofs.Ev
import Verif.Proofs.Base
import Verif.Model.Main

/-! The release build does what the debug build does, unless arithmetic overflows in the debug build. -/

namespace BurnFm

/-- `a` stopped at an overflow, or is what `b` is. -/
def LeO {α : Type} (a b : Res α) : Prop := a = .error .overflow ∨ a = b

theorem LeO.rfl {α : Type} {a : Res α} : LeO a a := .inr _root_.rfl

theorem LeO.bind {α β : Type} {a b : Res α} {k k' : α → Res β} (h : LeO a b) (hk : ∀ x, LeO (k x) (k' x)) :
    LeO (a >>= k) (b >>= k') := by
  rcases h with h | h
  · subst h; exact .inl _root_.rfl
  · subst h
    cases a with
    | error e => exact .inr _root_.rfl
    | ok x => exact hk x

theorem LeO.foldlM {α β : Type} {k k' : β → α → Res β} (hk : ∀ b x, LeO (k b x) (k' b x)) :
    ∀ (l : List α) (b : β), LeO (l.foldlM k b) (l.foldlM k' b)
  | [], _ => LeO.rfl
  | x :: l, b => by
    rw [List.foldlM_cons, List.foldlM_cons]
    exact LeO.bind (hk b x) (fun b => LeO.foldlM hk l b)

theorem usub_leO (a b : Nat) : LeO (usub .debug a b) (usub .release a b) := by
  unfold usub
  split
  · exact LeO.rfl
  · exact .inl _root_.rfl

theorem putIntLoop_leO (n : Nat) : ∀ (res : Bytes) (i : Nat), LeO (putIntLoop .debug n res i) (putIntLoop .release n res i) := by
  induction n using Nat.strongRecOn with
  | _ n ih =>
    intro res i
    rw [putIntLoop, putIntLoop]
    split
    · dsimp only
      split
      · exact LeO.bind (usub_leO _ _) (fun j => ih _ (by omega) _ _)
      · exact LeO.rfl
    · exact LeO.rfl

theorem putInt_leO (n : Nat) : LeO (putInt .debug n) (putInt .release n) := putIntLoop_leO n _ _

theorem appendBlank_leO (s : Asm) : LeO (appendBlank .debug s) (appendBlank .release s) :=
  LeO.bind (usub_leO _ _) (fun _ => LeO.rfl)

theorem tableDir_leO (id : Nat) : LeO (tableDir .debug id) (tableDir .release id) := by
  unfold tableDir
  dsimp only
  split
  · exact LeO.rfl
  · exact .inl _root_.rfl

theorem emitTableMetadata_leO (f : FmpFile) (s : Asm) :
    LeO (emitTableMetadata .debug f s) (emitTableMetadata .release f s) := by
  unfold emitTableMetadata
  repeat' first
    | with_reducible exact LeO.rfl
    | exact putInt_leO _
    | exact tableDir_leO _
    | refine LeO.bind ?_ (fun _ => ?_)
    | refine LeO.foldlM (fun _ _ => ?_) _ _

theorem emitRelationshipData_leO (f : FmpFile) (s : Asm) :
    LeO (emitRelationshipData .debug f s) (emitRelationshipData .release f s) := by
  unfold emitRelationshipData
  repeat' first
    | with_reducible exact LeO.rfl
    | exact putInt_leO _
    | refine LeO.bind ?_ (fun _ => ?_)
    | refine LeO.foldlM (fun _ _ => ?_) _ _

theorem emitSections_leO (f : FmpFile) (s : Asm) : LeO (emitSections .debug f s) (emitSections .release f s) := by
  unfold emitSections
  repeat' first
    | with_reducible exact LeO.rfl
    | exact emitTableMetadata_leO f _
    | exact emitRelationshipData_leO f _
    | refine LeO.bind ?_ (fun _ => ?_)

theorem assemble_leO (f : FmpFile) : LeO (assemble .debug f) (assemble .release f) := by
  unfold assemble
  repeat' first
    | with_reducible exact LeO.rfl
    | exact appendBlank_leO _
    | exact emitSections_leO f _
    | refine LeO.bind ?_ (fun _ => ?_)

theorem sourceFromBytes_leO (b : Bytes) : LeO (sourceFromBytes .debug b) (sourceFromBytes .release b) := by
  unfold sourceFromBytes
  exact LeO.bind LeO.rfl (fun _ => LeO.bind LeO.rfl (fun _ => LeO.bind (usub_leO _ _) (fun _ => LeO.rfl)))

theorem dispatch_leO (st : DState) (path : DirPath) (ch : Chunk) :
    LeO (dispatch .debug st path ch) (dispatch .release st path ch) := by
  unfold dispatch
  split <;> try exact LeO.rfl
  · unfold armJoin
    split
    · repeat' first
        | with_reducible exact LeO.rfl
        | exact usub_leO _ _
        | refine LeO.bind ?_ (fun _ => ?_)
    · exact LeO.rfl
  · unfold armLayout
    split
    · exact LeO.rfl
    · split
      · repeat' first
          | with_reducible exact LeO.rfl
          | exact usub_leO _ _
          | refine LeO.bind ?_ (fun _ => ?_)
      · exact LeO.rfl
  · unfold armTableMeta
    split
    · split
      · exact LeO.rfl
      · exact LeO.bind (usub_leO _ _) (fun _ => LeO.rfl)
    · split
      · exact LeO.bind (usub_leO _ _) (fun _ => LeO.rfl)
      · exact LeO.rfl
  · unfold armSource
    split
    · exact LeO.rfl
    · split
      · refine LeO.bind LeO.rfl (fun k => ?_)
        split
        · refine LeO.bind LeO.rfl (fun d => ?_)
          split
          · exact LeO.bind (sourceFromBytes_leO d) (fun _ => LeO.rfl)
          · exact LeO.rfl
        · exact LeO.rfl
      · exact LeO.rfl

theorem getChunk_leO (code : Bytes) (o : Nat) (path : DirPath) (loc : Nat) :
    LeO (getChunk .debug code o path loc) (getChunk .release code o path loc) := by
  unfold getChunk
  refine LeO.bind LeO.rfl (fun b => LeO.bind LeO.rfl (fun body => ?_))
  split
  · exact LeO.bind (usub_leO _ _) (fun _ => LeO.rfl)
  · exact LeO.rfl

theorem sectorLoop_leO (buf : Bytes) (start bound : Nat) : ∀ (fuel off : Nat) (path : DirPath) (st : DState),
    LeO (sectorLoop .debug buf start bound fuel off path st) (sectorLoop .release buf start bound fuel off path st)
  | 0, _, _, _ => LeO.rfl
  | fuel + 1, off, path, st => by
    rw [sectorLoop, sectorLoop]
    split
    · refine LeO.bind (getChunk_leO _ _ _ _) (fun d => ?_)
      split
      · exact LeO.rfl
      · exact LeO.bind (dispatch_leO _ _ _) (fun st' => sectorLoop_leO buf start bound fuel _ _ st')
    · exact LeO.rfl

theorem fileLoop_leO (buf : Bytes) (n : Nat) : ∀ (fuel i : Nat) (st : DState),
    LeO (fileLoop .debug buf n fuel i st) (fileLoop .release buf n fuel i st)
  | 0, _, _ => LeO.rfl
  | fuel + 1, i, st => by
    rw [fileLoop, fileLoop]
    split
    · exact LeO.rfl
    · refine LeO.bind LeO.rfl (fun sec => ?_)
      split
      · exact LeO.rfl
      · refine LeO.bind (sectorLoop_leO _ _ _ _ _ _ _) (fun o => ?_)
        split
        · exact LeO.rfl
        · exact fileLoop_leO buf n fuel _ _

theorem decompile_leO (buf : Bytes) (fuel : Nat) : LeO (decompile .debug buf fuel) (decompile .release buf fuel) := by
  unfold decompile
  exact LeO.bind LeO.rfl (fun _ => LeO.bind (fileLoop_leO _ _ _ _ _) (fun _ => LeO.rfl))

section
variable [Rt]

theorem burnLex_leO : ∀ (code : Str) (m : BurnLexMode) (buf : Str) (acc : List BurnTok),
    LeO (burnLex .debug m buf acc code) (burnLex .release m buf acc code)
  | [], m, buf, acc => by cases m <;> unfold burnLex <;> exact LeO.rfl
  | c :: rest, m, buf, acc => by
    have ih := burnLex_leO rest
    unfold burnLex
    cases m <;> dsimp only
    all_goals repeat' first
      | exact ih _ _ _
      | with_reducible exact LeO.rfl
      | exact usub_leO _ _
      | refine LeO.bind ?_ (fun _ => ?_)
      | split

theorem compileBurn_leO (code : Str) : LeO (compileBurn .debug code) (compileBurn .release code) := by
  unfold compileBurn lexBurn
  exact LeO.bind (burnLex_leO code _ _ _) (fun _ => LeO.rfl)

theorem givenTests_leO : ∀ (texts : List Str) (file : FmpFile),
    LeO (givenTests .debug texts file) (givenTests .release texts file)
  | [], _ => LeO.rfl
  | text :: rest, file => by
    rw [givenTests, givenTests]
    exact LeO.bind (compileBurn_leO text) (fun tmp => givenTests_leO rest _)

end

theorem createRecord_leO (db : Database) : LeO (db.createRecord .debug) (db.createRecord .release) := by
  unfold Database.createRecord
  repeat' first
    | with_reducible exact LeO.rfl
    | exact usub_leO _ _
    | refine LeO.bind ?_ (fun _ => ?_)

theorem moveRecord_leO (db : Database) (val : Str) : LeO (moveRecord .debug db val) (moveRecord .release db val) := by
  unfold moveRecord Database.gotoRecord Database.gotoNext Database.gotoLast
  repeat' first
    | with_reducible exact LeO.rfl
    | exact usub_leO _ _
    | refine LeO.bind ?_ (fun _ => ?_)
    | split

/-- The same for computations with bounded recursion. -/
def LeOE {α : Type} (a b : Ev α) : Prop := a = .error (.panic .overflow) ∨ a = b

theorem LeOE.rfl {α : Type} {a : Ev α} : LeOE a a := .inr _root_.rfl

theorem LeOE.lift {α : Type} {a b : Res α} (h : LeO a b) : LeOE (liftR a) (liftR b) := by
  rcases h with h | h
  · exact .inl (by rw [h, liftR])
  · exact .inr (by rw [h])

theorem LeOE.bind {α β : Type} {a b : Ev α} {k k' : α → Ev β} (h : LeOE a b) (hk : ∀ x, LeOE (k x) (k' x)) :
    LeOE (a >>= k) (b >>= k') := by
  rcases h with h | h
  · subst h; exact .inl _root_.rfl
  · subst h
    cases a with
    | error e => exact .inr _root_.rfl
    | ok x => exact hk x

theorem effect_leO (ev : Calculator) (d : Nat) (s : ScriptStep) (w : World) :
    LeOE (effect ev .debug d s w) (effect ev .release d s w) := by
  unfold effect
  split <;> try exact LeOE.rfl
  · refine LeOE.bind LeOE.rfl (fun _ => LeOE.bind LeOE.rfl (fun val => ?_))
    split
    · exact LeOE.rfl
    · exact LeOE.bind LeOE.rfl (fun _ => LeOE.bind (.lift (moveRecord_leO _ _)) (fun _ => LeOE.rfl))
  · exact LeOE.bind (.lift (createRecord_leO _)) (fun _ => LeOE.rfl)

theorem exec_leO (ev : Calculator) (scripts : HMap FScript) (vm : Vm) (name : Str) (ip : Nat)
    (below : List (Str × Nat)) (code : List ScriptStep) (s : ScriptStep) :
    LeOE (vm.exec ev .debug scripts name ip below code s) (vm.exec ev .release scripts name ip below code s) := by
  unfold Vm.exec
  dsimp only
  split <;> try exact LeOE.rfl
  · split
    · refine LeOE.bind LeOE.rfl (fun _ => LeOE.bind LeOE.rfl (fun val => LeOE.bind LeOE.rfl (fun _ =>
        LeOE.bind LeOE.rfl (fun _ => ?_))))
      split
      · exact LeOE.rfl
      · exact LeOE.bind LeOE.rfl (fun _ => LeOE.bind (.lift (moveRecord_leO _ _)) (fun _ => LeOE.rfl))
    · exact LeOE.bind (effect_leO ..) (fun _ => LeOE.rfl)
  · exact LeOE.bind (effect_leO ..) (fun _ => LeOE.rfl)

theorem step_leO (ev : Calculator) (scripts : HMap FScript) (vm : Vm) :
    LeOE (vm.step ev .debug scripts) (vm.step ev .release scripts) := by
  unfold Vm.step
  split
  · exact LeOE.rfl
  · dsimp only
    split
    · exact LeOE.rfl
    · exact exec_leO ..

theorem run_leO (ev : Calculator) (scripts : HMap FScript) : ∀ (n : Nat) (vm : Vm),
    LeOE (vm.run ev .debug scripts n) (vm.run ev .release scripts n)
  | 0, vm => by rw [Vm.run, Vm.run]; exact LeOE.rfl
  | n + 1, vm => by
    rw [Vm.run, Vm.run]
    split
    · exact LeOE.bind (step_leO ..) (fun u => run_leO ev scripts n u)
    · exact LeOE.rfl

theorem runTests_leO (ev : Calculator) (scripts : HMap FScript) (n : Nat) : ∀ (ts : List FTest) (vm : Vm),
    LeOE (vm.runTests ev .debug scripts n ts) (vm.runTests ev .release scripts n ts)
  | [], _ => LeOE.rfl
  | t :: ts, vm => by
    rw [Vm.runTests, Vm.runTests]
    exact LeOE.bind (run_leO ..) (fun u => LeOE.bind (runTests_leO ev scripts n ts u) (fun _ => LeOE.rfl))

theorem testFile_leO (ev : Calculator) (n : Nat) (file : FmpFile) :
    LeOE (testFile ev .debug n file) (testFile ev .release n file) := by
  unfold testFile Vm.runTestsWithCleanup
  exact LeOE.bind LeOE.rfl (fun vm => LeOE.bind (LeOE.bind (runTests_leO ..) (fun _ => LeOE.rfl)) (fun _ => LeOE.rfl))

/-- The second trace is the first, or continues it where it stopped at an overflow. -/
def TraceLeO {α : Type} (a b : Trace α) : Prop := a = b ∨ a.2 = .error (.panic .overflow) ∧ a.1 <+: b.1

theorem TraceLeO.rfl {α : Type} {a : Trace α} : TraceLeO a a := .inl _root_.rfl

theorem TraceLeO.quiet {α : Type} {a b : Ev α} (h : LeOE a b) : TraceLeO (Trace.quiet a) (Trace.quiet b) := by
  rcases h with h | h
  · exact .inr ⟨h, List.nil_prefix⟩
  · exact .inl (by rw [h])

theorem TraceLeO.andThen {α β : Type} {a b : Trace α} {k k' : α → Trace β} (h : TraceLeO a b)
    (hk : ∀ x, TraceLeO (k x) (k' x)) : TraceLeO (a.andThen k) (b.andThen k') := by
  rcases h with h | ⟨h, hp⟩
  · subst h
    unfold Trace.andThen
    split
    · rename_i x _
      rcases hk x with e | ⟨e, hp⟩
      · exact .inl (by rw [e])
      · exact .inr ⟨e, (List.prefix_append_right_inj _).mpr hp⟩
    · exact .inl _root_.rfl
  · refine .inr ?_
    rw [show a.andThen k = (a.1, .error (.panic .overflow)) by unfold Trace.andThen; rw [h]]
    refine ⟨_root_.rfl, hp.trans ?_⟩
    unfold Trace.andThen
    split
    · exact List.prefix_append _ _
    · exact List.prefix_refl _

theorem maybeTest_leO (ev : Calculator) (n : Nat) (noTesting : Bool) (file : FmpFile) :
    TraceLeO (maybeTest ev .debug n noTesting file) (maybeTest ev .release n noTesting file) := by
  unfold maybeTest
  split
  · rcases testFile_leO ev n file with e | e
    · rw [e]; exact .inr ⟨_root_.rfl, List.nil_prefix⟩
    · rw [e]; exact TraceLeO.rfl
  · exact TraceLeO.rfl

section
variable [Rt]

theorem compileInputs_leO (ev : Calculator) (n : Nat) (noTesting : Bool) : ∀ (inputs : List (Str × Str)) (file : FmpFile),
    TraceLeO (compileInputs ev .debug n noTesting inputs file) (compileInputs ev .release n noTesting inputs file)
  | [], _ => TraceLeO.rfl
  | (name, text) :: rest, file => by
    rw [compileInputs, compileInputs]
    refine TraceLeO.andThen ?_ (fun file => compileInputs_leO ev n noTesting rest file)
    unfold compileInput
    exact TraceLeO.andThen (TraceLeO.quiet (.lift (LeO.bind (compileBurn_leO text) (fun _ => LeO.rfl)))) (fun file =>
      TraceLeO.andThen (maybeTest_leO ..) (fun _ => TraceLeO.andThen (TraceLeO.quiet (.lift (assemble_leO _)))
        (fun _ => TraceLeO.rfl)))

end

theorem decompileInputs_leO (ev : Calculator) (n : Nat) (noTesting : Bool) : ∀ (inputs : List Bytes) (file : FmpFile),
    TraceLeO (decompileInputs ev .debug n noTesting inputs file) (decompileInputs ev .release n noTesting inputs file)
  | [], _ => TraceLeO.rfl
  | buf :: rest, file => by
    rw [decompileInputs, decompileInputs]
    refine TraceLeO.andThen ?_ (fun file => decompileInputs_leO ev n noTesting rest file)
    unfold decompileInput
    refine TraceLeO.andThen (TraceLeO.quiet ?_) (fun file => TraceLeO.andThen (maybeTest_leO ..) (fun _ => TraceLeO.rfl))
    rcases decompile_leO buf n with h | h
    · rw [h]; exact .inl rfl
    · rw [h]; exact LeOE.rfl

theorem mainProgram_leO [Rt] (ev : Calculator) (n : Nat) (args : Args) :
    TraceLeO (mainProgram ev .debug n args) (mainProgram ev .release n args) := by
  unfold mainProgram
  refine TraceLeO.andThen (TraceLeO.quiet (.lift (givenTests_leO _ _))) (fun file => ?_)
  split
  · exact compileInputs_leO ..
  · exact decompileInputs_leO ..

end BurnFm
