import Verif.Proofs.DecompiledTests
import Verif.Proofs.Burn
import Verif.Props.FileContents
import Verif.Props.Script
import Verif.Props.StoredCalc
import Verif.Props.Main
import Verif.Proofs.Counting
import Verif.Proofs.CalcNotes
import Verif.Props.CalcNotes
import Verif.Proofs.VmEval
import Verif.Proofs.Fuel
import Verif.Spec.ToyRuntime

/-! C133: tests that call the scripts of a stored file. -/

namespace BurnFm.Props
open Spec

theorem testBodies [Rt] (ds : List Decl) (P : Prog → Prop) (hP : ∀ q ∈ ds.filterMap Decl.testBody?, P q) :
    List.Forall₂ (fun (t : FTest) q => t.script.instructions = q.code ∧ P q) (ds.filterMap Decl.test?) (ds.filterMap Decl.testBody?) := by
  induction ds with
  | nil => exact .nil
  | cons d ds ih =>
    cases d
    case test n b =>
      have h := hP b.body (by simp [Decl.testBody?])
      rw [List.filterMap_cons, List.filterMap_cons]
      exact .cons ⟨rfl, h⟩ (ih fun q hq => hP q (by rw [List.filterMap_cons]; exact List.mem_cons_of_mem _ hq))
    all_goals exact ih fun q hq => hP q (by simpa [Decl.testBody?] using hq)

theorem main_decompile [Rt] {ev : Calculator} {p : Profile} {n : Nat} {buf : Bytes} {text : Str} {f : FmpFile}
    (h : givenTests p [text] {} = .ok f) :
    mainProgram ev p n ⟨.decompile [buf], [text], false⟩ = decompileInputs ev p n false [buf] f := by
  unfold mainProgram
  dsimp only
  rw [h]
  rfl

/-- C133 (partial): the program is given a file that describes tables, occurrences, relationships, layouts and scripts, and
the text of a program with tests. It shows certain verdicts exactly if executing the tests one after the other, in the
database generated for the file, each called script as it is stored, ends with these verdicts. Missing: stored scripts that
call others, see `stored_call_panics`, `decompiled_tests_refuted`; tests and scripts that are not orderly, see
`script_runs_as_written_partial`. -/
theorem decompiled_tests_partial [Rt] (ev : Calculator) (p : Profile) (buf : Bytes) (raws : List Spec.Raw) (d : FileDef)
    (hf : Spec.RawFileOf buf raws) (hd : Spec.Describes fmStringEncrypt encodeName raws d) (hw : d.WellFormed fmStringEncrypt)
    (ds : List Decl) (ts : List BurnTok) (text : Str) (h : ProgramToks ds ts) (hs : BurnText ts text)
    (hne : ds.filterMap Decl.testBody? ≠ []) (env : Str → Option Prog) (hm : MeantBy d env) (hn : NoCalls env)
    (ok : Bool → Taken → Taken → Str → Prop) (hok : OrderlyScripts ev env ok)
    (hq : ∀ q ∈ ds.filterMap Decl.testBody?, Orderly ev ok true none .free (some false) q (some false)) :
    ∃ vm, Vm.generate d.file = .ok vm ∧ ∀ vs,
      (∃ n last, mainProgram ev p n ⟨.decompile [buf], [text], false⟩ = ([.tested vs], .ok last)) ↔
        RunsTests ev p env (ds.filterMap Decl.testBody?) vm.world vs := by
  obtain ⟨vm, hvm⟩ := wellFormed_generates hw
  refine ⟨vm, hvm, fun vs => ?_⟩
  have hfresh : vm.frames = [] ∧ vm.branchTaken = false ∧ vm.world.failed = false := by
    unfold Vm.generate at hvm
    obtain ⟨db, -, hvm⟩ := ev_bind_ok.mp hvm
    cases hvm
    exact ⟨rfl, rfl, rfl⟩
  let T := ds.filterMap Decl.test?
  have hT : T ≠ [] := by
    intro he
    apply hne
    have : T.length = 0 := by rw [he]; rfl
    rw [← List.length_eq_zero_iff, ← this]
    exact (testBodies ds (fun _ => True) (fun _ _ => trivial)).length_eq.symm
  have hrun : ∀ vs', (∃ n last, vm.runTests ev p d.file.scripts n T = .ok (vs', last)) ↔
      RunsTests ev p env (ds.filterMap Decl.testBody?) vm.world vs' := by
    intro vs'
    rw [← structured_verdicts_partial ev p _ env ok (linked_described hm hn) hok (some false) T _ (testBodies ds _ hq) vm
      hfresh.1 (by intro x hx; cases hx; exact hfresh.2.1) hfresh.2.2 vs']
    simp only [runTests_unnum]
  rw [← hrun]
  have hgen : Vm.generate { d.file with tests := T, dataSources := [] } = .ok vm := hvm
  have hgiven : givenTests p [text] {} = .ok { tests := T } := by
    unfold givenTests givenTests
    rw [compile_program p h hs, ok_bind, file_tests]
    rfl
  obtain ⟨fuel₀, hdec⟩ := file_recovered_partial p buf raws d hf hd hw
  constructor
  · rintro ⟨n, last, hr⟩
    unfold mainProgram at hr
    dsimp only at hr
    rw [hgiven] at hr
    obtain ⟨f1, as1, as2, h1, h2, he⟩ := Trace.andThen_ok hr
    cases h1
    unfold decompileInputs at h2
    obtain ⟨f2, as3, as4, h3, h4, rfl⟩ := Trace.andThen_ok h2
    cases h4
    obtain ⟨g, d1, rfl, d3⟩ := decompileInput_ok h3
    have hg : g = d.file := by
      have := decompile_mono d1 (by simp) (max n fuel₀) (Nat.le_max_left _ _)
      rw [hdec _ (Nat.le_max_right _ _)] at this
      cases this; rfl
    subst hg
    rw [merge_described hw] at d3
    rcases d3 with ⟨h5 | h5, -⟩ | ⟨-, vs', h5, h6⟩
    · cases h5
    · exact absurd h5 hT
    · simp only [h6, List.append_nil, List.nil_append, List.cons.injEq, Action.tested.injEq, and_true] at he
      subst he
      obtain ⟨vm', last', h7, h8⟩ := h5
      rw [hgen] at h7; cases h7
      exact ⟨n, last', h8⟩
  · rintro ⟨n, last, hr⟩
    refine ⟨max n fuel₀, { d.file with tests := T, dataSources := [] }, ?_⟩
    have hv : testFile ev p (max n fuel₀) { d.file with tests := T, dataSources := [] } = .ok vs :=
      testFile_ok.mpr ⟨vm, last, hgen, runTests_mono (Nat.le_max_left _ _) hr⟩
    have h3 : decompileInput ev p (max n fuel₀) false { tests := T } buf =
        ([.tested vs], .ok { d.file with tests := T, dataSources := [] }) := by
      unfold decompileInput
      rw [hdec _ (Nat.le_max_right _ _)]
      dsimp only
      rw [merge_described hw]
      refine Trace.andThen_pair (as := []) rfl (Trace.andThen_pair (a := ()) (as := [.tested vs]) ?_ rfl)
      unfold maybeTest
      rw [if_pos (by simp [hT]), hv]
    have h4 : decompileInputs ev p (max n fuel₀) false [buf] { tests := T } =
        ([.tested vs], .ok { d.file with tests := T, dataSources := [] }) := by
      rw [decompileInputs, h3, Trace.andThen_of_ok]
      rfl
    rw [main_decompile hgiven]
    exact h4

/-- C133: a stored step that calls a script shows the bare name of that script. When a test gets to it, the name is read as a
variable: if there is none with this name, the program panics. -/
theorem stored_call_panics [Rt] (p : Profile) (scripts : HMap FScript) (ss : List StoredScript) (t : StepDef)
    (ht : t.op = .performScript) (hn : IsName (nameOf ss t.callee)) (u : Vm) (name : Str) (ip : Nat) (below : List (Str × Nat))
    (hfr : u.frames = (name, ip) :: below) (hc : (u.script scripts name below).instructions[ip]? = some (t.step ss))
    (hvars : below.length < u.world.vars.length)
    (hu : ∀ m, u.world.vars[below.length]? = some m → SMap.get m (nameOf ss t.callee) = none) (fuel : Nat) (hf : 20 ≤ fuel) :
    u.step (fun env => evalCalc env fuel) p scripts = .error (.panic .unwrap) := by
  have hev : evalCalc ⟨u.world.db, below.length + 1, u.world.vars⟩ fuel (nameOf ss t.callee) = .ok [] := by
    have h1 := calc_text_evaluates [(nameOf ss t.callee, ⟨.identifier, nameOf ss t.callee⟩)]
      (by intro w hw; rw [List.mem_singleton] at hw; subst hw; exact isName_word hn) (.variable (nameOf ss t.callee))
      (.ofConcat (.ofExpr (.ofTerm (.ofFactor (.variable (isName_varName hn).1))))) ⟨u.world.db, below.length + 1, u.world.vars⟩ fuel (by simpa using hf)
    have h2 := undefined_variable_named ⟨u.world.db, below.length + 1, u.world.vars⟩
      ⟨below.length, _, rfl, List.getElem?_eq_getElem hvars⟩ (nameOf ss t.callee) (isName_varName hn)
      (by
        show (u.world.vars[below.length]?).bind _ = none
        rw [List.getElem?_eq_getElem hvars]
        exact hu _ (List.getElem?_eq_getElem hvars)) fuel (by omega)
    have h3 := evalNodeN_snd ⟨u.world.db, below.length + 1, u.world.vars⟩ fuel (.variable (nameOf ss t.callee))
    rw [h2] at h3
    simpa [spaced, ← h3] using h1
  unfold Vm.step
  rw [hfr]
  dsimp only
  rw [hc]
  dsimp only
  unfold Vm.exec
  have ho : (t.step ss).opcode = .performScript := ht
  have hsw : (t.step ss).switch 0 = .ok (nameOf ss t.callee) := by
    simp [StepDef.step, ht, ScriptStep.switch, idx, liftR]
  simp only [ho, hsw]
  show (World.eval _ _ _ _ >>= _) = _
  unfold World.eval
  dsimp only
  rw [hev]
  rfl

/-! ### Example -/

section Example
attribute [local instance] toyRt

/-- Script `b` enters find mode, script `a` calls script `b`. -/
def callingScripts : List StoredScript :=
  [⟨1, t!"b", [⟨exampleRecord 1 22, .enterFindMode, 1, 1, []⟩], .inline⟩,
   ⟨2, t!"a", [⟨exampleRecord 1 1, .performScript, 1, 1, []⟩], .inline⟩]

def callingFile : FileDef := { scripts := callingScripts }

def callingItems : List Item :=
  [.push 17, .push 1, .push 7, .push 1, .kv 16 (fmStringEncrypt t!"b"), .pop, .push 2, .kv 16 (fmStringEncrypt t!"a"), .pop, .pop, .pop,
   .push 5, .push 1, .kv 4 (exampleRecord 1 22), .pop, .push 2, .kv 4 (exampleRecord 1 1), .pop, .pop, .pop]

set_option maxRecDepth 20000 in
theorem callingFile_ok : Spec.RawFileOf (itemFile callingItems) (itemRaws [] callingItems) ∧
    Spec.Describes fmStringEncrypt encodeName (itemRaws [] callingItems) callingFile ∧ callingFile.WellFormed fmStringEncrypt := by
  refine ⟨itemFile_raw _ (by decide) (by decide) (by decide), ⟨by rfl, by rfl, by rfl, by rfl, by rfl⟩, ⟨?_, ?_, ?_, ?_, ?_⟩⟩
  · exact ⟨by simp [callingFile], by simp [callingFile]⟩
  · exact ⟨by decide, by decide, by decide, by simp [callingFile], by decide⟩
  · exact ⟨by simp [callingFile], by simp [callingFile]⟩
  · refine ⟨by simp [callingFile, callingScripts], ?_, ?_⟩
    · intro s hs t ht
      simp [callingFile, callingScripts] at hs
      rcases hs with rfl | rfl
      all_goals
        simp at ht
        subst ht
        exact ⟨rfl, rfl, by decide, Or.inl ⟨rfl, rfl⟩, rfl, fun _ => ⟨_, List.mem_cons_self, rfl⟩, by simp⟩
    · intro s hs
      simp [callingFile, callingScripts] at hs
      rcases hs with rfl | rfl <;> simp [StoredScript.CodeOk]
  · exact ⟨by simp [callingFile], by simp [callingFile], by simp [callingFile]⟩

/-- A test that calls a script with a one-letter name. -/
def callProg (c : Char) : Prog := .step ⟨.performScript, 0, [['"', c, '"']]⟩ .nil

def callDecls (c : Char) : List Decl := [.test t!"T" ⟨t!"t", [t!""], callProg c⟩]

def callToks (c : Char) : List BurnTok :=
  [⟨.test, []⟩, ⟨.identifier, t!"T"⟩, ⟨.colon, []⟩, ⟨.script, []⟩, ⟨.colon, []⟩, ⟨.openSquare, []⟩,
   ⟨.script, t!"define t() { perform_script(\"" ++ c :: t!"\"); }"⟩, ⟨.closeSquare, []⟩, ⟨.comma, []⟩, ⟨.end, []⟩, ⟨.test, []⟩,
   ⟨.semiColon, []⟩]

def callText (c : Char) : Str :=
  t!"test T:\n script: [ define t() { perform_script(\"" ++ c :: t!"\"); }],\nend test;\n"

theorem callToks_ok {c : Char} (hc : c = 'a' ∨ c = 'b') : ProgramToks (callDecls c) (callToks c) := by
  have hb : BlockToks [⟨t!"t", [t!""], callProg c⟩] [⟨.colon, []⟩, ⟨.openSquare, []⟩,
      ⟨.script, t!"define t() { perform_script(\"" ++ c :: t!"\"); }"⟩, ⟨.closeSquare, []⟩] := by
    refine .block (ts := [tDefine, tName t!"t", tArg t!"", tOpen, tName t!"perform_script", tArg ['"', c, '"'], tSemi, tClose]) ?_ ?_
    · refine .keyword (w := t!"define") (ty := .define) (by decide) (by decide) (.space rfl ?_)
      refine .name (w := t!"t") (by decide) (by decide) (by decide) (by decide) (by decide) ?_
      refine .args (as := [(0, t!"")]) (by decide) ?_ (.space rfl (.open (.space rfl ?_)))
      · intro a ha
        rw [List.mem_singleton] at ha
        subst ha; exact argText_of_chars _ (by decide) (by decide) (by decide)
      refine .name (w := t!"perform_script") (by decide) (by decide) (by decide) (by decide) (by decide) ?_
      refine .args (as := [(0, ['"', c, '"'])]) (by simp) ?_ (.semi (.space rfl (.close .nil)))
      intro a ha
      rw [List.mem_singleton] at ha
      subst ha
      rcases hc with rfl | rfl <;> exact argText_of_chars _ (by decide) (by decide) (by decide)
    · exact .cons (d := ⟨t!"t", [t!""], callProg c⟩) (ds := []) (ts := [])
        (.step (name := t!"perform_script") (args := [['"', c, '"']]) rfl .nil) .nil
  exact .cons (ts := callToks c) (.test hb (.inr rfl)) .nil

theorem callText_ok {c : Char} (hc : c = 'a' ∨ c = 'b') : BurnText (callToks c) (callText c) := by
  refine .keyword (w := t!"test") (ty := .test) (by decide) (by decide) (.space rfl ?_)
  refine .name (w := t!"T") (by decide) (by decide) (by decide) (by decide) (by decide) (by decide) ?_
  refine .mark (c := ':') (ty := .colon) (by decide) (.space rfl (.space rfl ?_))
  refine .keyword (w := t!"script") (ty := .script) (by decide) (by decide) ?_
  refine .mark (c := ':') (ty := .colon) (by decide) (.space rfl ?_)
  refine .block (q := t!" define t() { perform_script(\"" ++ c :: t!"\"); }") (by rcases hc with rfl | rfl <;> decide) ?_
  refine .mark (c := ',') (ty := .comma) (by decide) (.space rfl ?_)
  refine .keyword (w := t!"end") (ty := .end) (by decide) (by decide) (.space rfl ?_)
  refine .keyword (w := t!"test") (ty := .test) (by decide) (by decide) ?_
  exact .mark (c := ';') (ty := .semiColon) (by decide) (.space rfl .nil)

/-- The scripts of the file as they are meant. -/
def storedEnv (name : Str) : Option Prog :=
  if name = t!"a" then some (callProg 'b') else if name = t!"b" then some (.step (instr .enterFindMode []) .nil) else none

theorem storedEnv_meant : MeantBy callingFile storedEnv := by
  intro name q hq
  unfold storedEnv at hq
  split at hq
  · rename_i h; subst h; cases hq; exact ⟨_, rfl, rfl⟩
  · split at hq
    · rename_i h; subst h; cases hq; exact ⟨_, rfl, rfl⟩
    · cases hq

/-- The program's calculator. -/
abbrev realCalc : Calculator := fun env => evalCalc env 40

/-- The names of the two scripts. -/
def storedOk (_ : Bool) (a a' : Taken) (name : Str) : Prop := (name = t!"a" ∨ name = t!"b") ∧ a.Le a'

theorem call_name {c : Char} (hc : c = 'a' ∨ c = 'b') (d : Nat) (w : World) (name : Str) :
    CallsIn realCalc d ⟨.performScript, 0, [['"', c, '"']]⟩ w name ↔ name = [c] := by
  have he : w.eval realCalc d ['"', c, '"'] = .ok ['"', c, '"'] :=
    evalCalc_string (s := [c]) (by rcases hc with rfl | rfl <;> decide) ⟨c, by simp, by rcases hc with rfl | rfl <;> decide⟩ _ (by decide)
  have hs : stripQuotes ['"', c, '"'] = .ok [c] := by rfl
  constructor
  · rintro ⟨-, x, v, h1, h2, h3⟩
    cases h1
    rw [he] at h2; cases h2
    rw [hs] at h3; cases h3
    rfl
  · rintro rfl
    exact ⟨rfl, _, _, rfl, he, hs⟩

theorem callProg_orderly {c : Char} (hc : c = 'a' ∨ c = 'b') (ok : Bool → Taken → Taken → Str → Prop) (l : Bool) (a a' : Taken)
    (hok : ok l a a [c]) (hle : a.Le a') : Orderly realCalc ok l none .free a (callProg c) a' := by
  refine .call rfl (fun name ⟨d, w, h⟩ => ?_) (.nil hle)
  rw [(call_name hc d w name).mp h]
  exact hok

theorem storedEnv_orderly : OrderlyScripts realCalc storedEnv storedOk := by
  rintro l a a' name ⟨rfl | rfl, hle⟩
  · exact ⟨_, rfl, callProg_orderly (.inr rfl) _ l a a' ⟨.inr rfl, .inr rfl⟩ hle⟩
  · exact ⟨_, rfl, .step (by decide) (.nil hle)⟩

/-- C133 as stated is false: script `a` of the file calls script `b`, which enters find mode. As stored, a test that calls `a`
succeeds; the program panics and shows no verdict. -/
theorem decompiled_tests_refuted (p : Profile) : ∃ buf raws d ds ts text env ok vm, Spec.RawFileOf buf raws ∧
    Spec.Describes fmStringEncrypt encodeName raws d ∧ d.WellFormed fmStringEncrypt ∧ ProgramToks ds ts ∧ BurnText ts text ∧
    ds.filterMap Decl.testBody? ≠ [] ∧ MeantBy d env ∧ OrderlyScripts realCalc env ok ∧
    (∀ q ∈ ds.filterMap Decl.testBody?, Orderly realCalc ok true none .free (some false) q (some false)) ∧
    Vm.generate d.file = .ok vm ∧ RunsTests realCalc p env (ds.filterMap Decl.testBody?) vm.world [true] ∧
    ∃ n, mainProgram realCalc p n ⟨.decompile [buf], [text], false⟩ = ([], .error (.panic .unwrap)) := by
  obtain ⟨h1, h2, h3⟩ := callingFile_ok
  have hm : callProg 'a' ∈ (callDecls 'a').filterMap Decl.testBody? := by simp [callDecls, Decl.testBody?]
  obtain ⟨vm, hvm⟩ := wellFormed_generates h3
  refine ⟨_, _, _, callDecls 'a', callToks 'a', callText 'a', storedEnv, storedOk, vm, h1, h2, h3, callToks_ok (.inl rfl),
    callText_ok (.inl rfl), List.ne_nil_of_mem hm, storedEnv_meant, storedEnv_orderly, ?_, hvm, ?_, ?_⟩
  · intro q hq
    have : q = callProg 'a' := by simpa [callDecls, Decl.testBody?] using hq
    subst this
    exact callProg_orderly (.inl rfl) _ _ _ _ ⟨.inl rfl, .inr rfl⟩ (.inr rfl)
  · refine .pass (q := callProg 'a') (qs := []) (.call ((call_name (.inl rfl) _ _ _).mpr rfl) rfl (.call ((call_name (.inr rfl) _ _ _).mpr rfl)
      rfl (.step (by decide) rfl ?_ .nil) .nil) .nil) .nil
    unfold Vm.generate at hvm
    obtain ⟨db, -, hvm⟩ := ev_bind_ok.mp hvm
    cases hvm
    rfl
  · obtain ⟨fuel₀, hdec⟩ := file_recovered_partial p _ _ _ h1 h2 h3
    refine ⟨fuel₀ + 10, ?_⟩
    have ht : testFile realCalc p 10 { callingFile.file with tests := (callDecls 'a').filterMap Decl.test?, dataSources := [] } =
        .error (.panic .unwrap) := by
      cases p <;> decide +kernel
    have ht' : testFile realCalc p (fuel₀ + 10) { callingFile.file with tests := (callDecls 'a').filterMap Decl.test?, dataSources := [] } =
        .error (.panic .unwrap) := by
      rcases testFile_leF (ev := realCalc) (ev' := realCalc) (fun _ _ => LeF.rfl) p (Nat.le_add_left 10 fuel₀)
        { callingFile.file with tests := (callDecls 'a').filterMap Decl.test?, dataSources := [] } with h | h
      · rw [ht] at h; cases h
      · rw [← h, ht]
    have hgiven : givenTests p [callText 'a'] {} = .ok { tests := (callDecls 'a').filterMap Decl.test? } := by
      unfold givenTests givenTests
      rw [compile_program p (callToks_ok (.inl rfl)) (callText_ok (.inl rfl)), ok_bind, file_tests]
      rfl
    have h5 : decompileInputs realCalc p (fuel₀ + 10) false [itemFile callingItems] { tests := (callDecls 'a').filterMap Decl.test? } =
        ([], .error (.panic .unwrap)) := by
      rw [decompileInputs]
      unfold decompileInput
      rw [hdec _ (Nat.le_add_right _ _)]
      dsimp only
      rw [merge_described h3]
      unfold Trace.quiet
      rw [Trace.andThen_of_ok]
      unfold maybeTest
      rw [if_pos (by decide), ht']
      rfl
    rw [main_decompile hgiven]
    exact h5

/-- The script `b` alone. -/
def calledEnv (name : Str) : Option Prog := if name = t!"b" then some (.step (instr .enterFindMode []) .nil) else none

/-- The hypotheses of `decompiled_tests_partial`: a test that calls script `b` succeeds. -/
example (p : Profile) : ∃ n last,
    mainProgram realCalc p n ⟨.decompile [itemFile callingItems], [callText 'b'], false⟩ = ([.tested [true]], .ok last) := by
  obtain ⟨h1, h2, h3⟩ := callingFile_ok
  have hm : callProg 'b' ∈ (callDecls 'b').filterMap Decl.testBody? := by simp [callDecls, Decl.testBody?]
  obtain ⟨vm, hvm, h⟩ := decompiled_tests_partial realCalc p _ _ _ h1 h2 h3 (callDecls 'b') _ _ (callToks_ok (.inr rfl))
    (callText_ok (.inr rfl)) (List.ne_nil_of_mem hm) calledEnv
    (by
      intro name q hq
      unfold calledEnv at hq
      split at hq
      · rename_i h; subst h; cases hq; exact ⟨_, rfl, rfl⟩
      · cases hq)
    (by
      intro name q hq s hs
      unfold calledEnv at hq
      split at hq
      · cases hq
        have : s = instr .enterFindMode [] := by simpa [Prog.code] using hs
        subst this
        decide
      · cases hq)
    (fun _ a a' name => name = t!"b" ∧ a.Le a')
    (by
      rintro l a a' name ⟨rfl, hle⟩
      exact ⟨_, rfl, .step (by decide) (.nil hle)⟩)
    (by
      intro q hq
      have : q = callProg 'b' := by simpa [callDecls, Decl.testBody?] using hq
      subst this
      exact callProg_orderly (.inr rfl) _ _ _ _ ⟨rfl, .inr rfl⟩ (.inr rfl))
  refine (h [true]).mpr (.pass (q := callProg 'b') (qs := []) (.call ((call_name (.inr rfl) _ _ _).mpr rfl) rfl
    (.step (by decide) rfl ?_ .nil) .nil) .nil)
  unfold Vm.generate at hvm
  obtain ⟨db, -, hvm⟩ := ev_bind_ok.mp hvm
  cases hvm
  rfl

/-- The hypotheses of `stored_call_panics`: the test has called `a`. -/
example (p : Profile) : Vm.step realCalc p callingFile.file.scripts
    { test := {}, frames := [(t!"a", 0), (t!"t", 1)], world := { vars := [[], []] } } = .error (.panic .unwrap) :=
  stored_call_panics p _ callingScripts ⟨exampleRecord 1 1, .performScript, 1, 1, []⟩ rfl
    ⟨by decide, by decide +kernel, 'b', [], rfl, rfl⟩ _ t!"a" 0 [(t!"t", 1)] rfl rfl (by decide) (by rintro m hm; cases hm; rfl) 40 (by decide)

end Example

end BurnFm.Props
