import Verif.Proofs.CalcParser
import Verif.Proofs.Decompiler
import Verif.Model.Main
import Mathlib.Data.List.Forall2

/-! More fuel only turns an unfinished computation into a finished one: evaluation, steps, runs, the program. -/

namespace BurnFm

/-- The outcomes of the second calculator extend those of the first. -/
def CalcLe (ev ev' : Calculator) : Prop := ∀ env s, LeF (ev env s) (ev' env s)

theorem operandVal_mono (env : CalcEnv) : ∀ (f : Nat) (s : Str), LeF (operandVal env f s) (operandVal env (f + 1) s)
  | 0, _ => LeF.fuel
  | f + 1, s => by
    rw [operandVal, operandVal]
    split
    · exact LeF.rfl
    · split
      · exact LeF.rfl
      · split
        · exact LeF.bind LeF.rfl (fun v => operandVal_mono env f v)
        · split
          · exact LeF.rfl
          · refine LeF.bind LeF.rfl (fun vars => ?_)
            split
            · exact LeF.rfl
            · exact operandVal_mono env f _

section
variable [Rt]

theorem minOrder_mono (env : CalcEnv) (f : Nat) (x y : Str) : LeF (minOrder env f x y) (minOrder env (f + 1) x y) := by
  unfold minOrder
  exact LeF.bind (operandVal_mono env f x) (fun _ => LeF.bind (operandVal_mono env f y) (fun _ => LeF.rfl))

theorem foldlM_leF {α β : Type} {k k' : β → Ev α → Ev β} (hk : ∀ b x x', LeF x x' → LeF (k b x) (k' b x')) :
    ∀ {l l' : List (Ev α)}, List.Forall₂ LeF l l' → ∀ b, LeF (l.foldlM k b) (l'.foldlM k' b) := by
  intro l l' h
  induction h with
  | nil => intro b; exact LeF.rfl
  | cons h _ ih =>
    intro b
    rw [List.foldlM_cons, List.foldlM_cons]
    exact LeF.bind (hk b _ _ h) (fun b => ih b)

theorem idx_leF {α : Type} {l l' : List (Ev α)} (h : List.Forall₂ LeF l l') (i : Nat) {β : Type} {k : Ev α → Ev β}
    {k' : Ev α → Ev β} (hk : ∀ x x', LeF x x' → LeF (k x) (k' x')) :
    LeF (liftR (idx l i) >>= k) (liftR (idx l' i) >>= k') := by
  induction h generalizing i with
  | nil => exact LeF.rfl
  | cons h _ ih =>
    cases i with
    | zero => exact hk _ _ h
    | succ i =>
      have := ih i
      simpa [idx] using this

theorem callFunction_mono (env : CalcEnv) (f : Nat) (name : Str) {args args' : List (Ev Str)}
    (h : List.Forall₂ LeF args args') : LeF (callFunction env f name args) (callFunction env (f + 1) name args') := by
  unfold callFunction
  split
  · exact idx_leF h 0 (fun a a' ha => LeF.bind ha (fun _ => LeF.rfl))
  split
  · exact idx_leF h 0 (fun a a' ha => LeF.bind ha (fun _ => LeF.rfl))
  split
  · exact idx_leF h 0 (fun a a' ha => LeF.bind ha (fun _ => idx_leF h 1 (fun b b' hb => LeF.bind hb (fun _ => LeF.rfl))))
  split
  · exact idx_leF h 0 (fun a a' ha => LeF.bind ha (fun _ => LeF.rfl))
  split
  · cases h with
    | nil => exact LeF.rfl
    | cons h1 h2 =>
      refine LeF.bind h1 (fun v => foldlM_leF ?_ h2 v)
      intro best b b' hb
      exact LeF.bind hb (fun w => LeF.bind (minOrder_mono env f best w) (fun _ => LeF.rfl))
  split
  · exact idx_leF h 0 (fun a a' _ => LeF.rfl)
  · exact LeF.rfl

mutual

theorem evalNode_mono (env : CalcEnv) (f : Nat) : ∀ e : Node Rt.F, LeF (evalNode env f e) (evalNode env (f + 1) e)
  | .binary l op r => by
    rw [evalNode, evalNode]
    exact LeF.bind (evalNode_mono env f l) (fun _ => LeF.bind (evalNode_mono env f r) (fun _ =>
      LeF.bind (operandVal_mono env f _) (fun _ => LeF.bind (operandVal_mono env f _) (fun _ => LeF.rfl))))
  | .concatenation l r => by
    rw [evalNode, evalNode]
    exact LeF.bind (evalNode_mono env f l) (fun _ => LeF.bind (evalNode_mono env f r) (fun _ => LeF.rfl))
  | .comparison l op r => by
    rw [evalNode, evalNode]
    split
    · exact LeF.bind (evalNode_mono env f l) (fun _ => LeF.bind (evalNode_mono env f r) (fun _ => LeF.rfl))
    · exact LeF.rfl
  | .call name args => by
    rw [evalNode, evalNode]
    exact callFunction_mono env f name (evalArgs_mono env f args)
  | .number x => by rw [evalNode, evalNode]; exact LeF.rfl
  | .variable name => by
    rw [evalNode, evalNode]
    exact LeF.bind (operandVal_mono env f _) (fun _ => LeF.rfl)
  | .field name => by
    rw [evalNode, evalNode]
    exact LeF.bind (operandVal_mono env f _) (fun _ => LeF.rfl)
  | .stringLiteral s => by rw [evalNode, evalNode]; exact LeF.rfl

theorem evalArgs_mono (env : CalcEnv) (f : Nat) : ∀ as : List (Node Rt.F),
    List.Forall₂ LeF (evalArgs env f as) (evalArgs env (f + 1) as)
  | [] => by rw [evalArgs, evalArgs]; exact .nil
  | a :: as => by rw [evalArgs, evalArgs]; exact .cons (evalNode_mono env f a) (evalArgs_mono env f as)

end

theorem evalCalc_mono {f g : Nat} (h : f ≤ g) : CalcLe (fun env => evalCalc env f) (fun env => evalCalc env g) := by
  intro env s
  show LeF (evalCalc env f s) (evalCalc env g s)
  unfold evalCalc
  exact LeF.bind LeF.rfl (fun ts => LeF.bind (parseCalc_mono ts h) (fun ast =>
    mono_le (x := fun f => evalNode env f ast) (fun f => evalNode_mono env f ast) h))

end

theorem eval_leF {ev ev' : Calculator} (h : CalcLe ev ev') (w : World) (d : Nat) (s : Str) :
    LeF (w.eval ev d s) (w.eval ev' d s) := h _ _

theorem effect_leF {ev ev' : Calculator} (h : CalcLe ev ev') (p : Profile) (d : Nat) (s : ScriptStep) (w : World) :
    LeF (effect ev p d s w) (effect ev' p d s w) := by
  unfold effect
  split <;> first
    | exact LeF.rfl
    | exact LeF.bind LeF.rfl (fun _ => LeF.bind (eval_leF h _ _ _) (fun _ => LeF.rfl))
    | exact LeF.bind LeF.rfl (fun _ => LeF.bind LeF.rfl (fun _ => LeF.bind (eval_leF h _ _ _) (fun _ => LeF.rfl)))

theorem exec_leF {ev ev' : Calculator} (h : CalcLe ev ev') (p : Profile) (scripts : HMap FScript) (vm : Vm) (name : Str)
    (ip : Nat) (below : List (Str × Nat)) (code : List ScriptStep) (s : ScriptStep) :
    LeF (vm.exec ev p scripts name ip below code s) (vm.exec ev' p scripts name ip below code s) := by
  unfold Vm.exec
  dsimp only
  split
  · exact LeF.bind LeF.rfl (fun _ => LeF.bind (eval_leF h _ _ _) (fun _ => LeF.rfl))
  · split
    · exact LeF.bind LeF.rfl (fun _ => LeF.bind (eval_leF h _ _ _) (fun _ => LeF.bind LeF.rfl (fun _ =>
        LeF.bind (eval_leF h _ _ _) (fun _ => LeF.rfl))))
    · exact LeF.bind (effect_leF h _ _ _ _) (fun _ => LeF.rfl)
  · exact LeF.rfl
  · exact LeF.bind LeF.rfl (fun _ => LeF.bind (eval_leF h _ _ _) (fun _ => LeF.rfl))
  · split
    · exact LeF.rfl
    · exact LeF.bind LeF.rfl (fun _ => LeF.bind (eval_leF h _ _ _) (fun _ => LeF.rfl))
  · exact LeF.rfl
  · exact LeF.rfl
  · exact LeF.rfl
  · exact LeF.bind LeF.rfl (fun _ => LeF.bind (eval_leF h _ _ _) (fun _ => LeF.rfl))
  · exact LeF.bind (effect_leF h _ _ _ _) (fun _ => LeF.rfl)

theorem step_leF {ev ev' : Calculator} (h : CalcLe ev ev') (p : Profile) (scripts : HMap FScript) (vm : Vm) :
    LeF (vm.step ev p scripts) (vm.step ev' p scripts) := by
  unfold Vm.step
  split
  · exact LeF.rfl
  · dsimp only
    split
    · exact LeF.rfl
    · exact exec_leF h ..

theorem run_leF {ev ev' : Calculator} (h : CalcLe ev ev') (p : Profile) (scripts : HMap FScript) :
    ∀ {n m : Nat}, n ≤ m → ∀ vm : Vm, LeF (vm.run ev p scripts n) (vm.run ev' p scripts m)
  | 0, m, _, vm => by
    rw [Vm.run]
    split
    · exact LeF.fuel
    · rename_i hr
      cases m <;> rw [Vm.run, if_neg hr] <;> exact LeF.rfl
  | n + 1, 0, hm, _ => absurd hm (by omega)
  | n + 1, m + 1, hm, vm => by
    rw [Vm.run, Vm.run]
    split
    · exact LeF.bind (step_leF h p scripts vm) (fun u => run_leF h p scripts (by omega) u)
    · exact LeF.rfl

theorem runTests_leF {ev ev' : Calculator} (h : CalcLe ev ev') (p : Profile) (scripts : HMap FScript) {n m : Nat}
    (hm : n ≤ m) : ∀ (ts : List FTest) (vm : Vm), LeF (vm.runTests ev p scripts n ts) (vm.runTests ev' p scripts m ts)
  | [], _ => LeF.rfl
  | t :: ts, vm => by
    rw [Vm.runTests, Vm.runTests]
    exact LeF.bind (run_leF h p scripts hm _) (fun u => LeF.bind (runTests_leF h p scripts hm ts u) (fun _ => LeF.rfl))

theorem testFile_leF {ev ev' : Calculator} (h : CalcLe ev ev') (p : Profile) {n m : Nat} (hm : n ≤ m) (file : FmpFile) :
    LeF (testFile ev p n file) (testFile ev' p m file) := by
  unfold testFile Vm.runTestsWithCleanup
  exact LeF.bind LeF.rfl (fun vm => LeF.bind (LeF.bind (runTests_leF h p _ hm _ _) (fun _ => LeF.rfl)) (fun _ => LeF.rfl))

/-- The second trace is the first, or continues it if it is unfinished. -/
def TraceLe {α : Type} (a b : Trace α) : Prop := a = b ∨ a.2 = .error .fuel ∧ a.1 <+: b.1

theorem TraceLe.rfl {α : Type} {a : Trace α} : TraceLe a a := .inl _root_.rfl

theorem TraceLe.quiet {α : Type} {a b : Ev α} (h : LeF a b) : TraceLe (Trace.quiet a) (Trace.quiet b) := by
  rcases h with h | h
  · exact .inr ⟨h, List.nil_prefix⟩
  · exact .inl (by rw [h])

theorem TraceLe.andThen {α β : Type} {a b : Trace α} {k k' : α → Trace β} (h : TraceLe a b)
    (hk : ∀ x, TraceLe (k x) (k' x)) : TraceLe (a.andThen k) (b.andThen k') := by
  rcases h with h | ⟨h, hp⟩
  · subst h
    unfold Trace.andThen
    split
    · rename_i x _
      rcases hk x with e | ⟨e, hp⟩
      · exact .inl (by rw [e])
      · exact .inr ⟨e, (List.prefix_append_right_inj _).mpr hp⟩
    · exact .inl _root_.rfl
  · refine .inr ?_
    rw [show a.andThen k = (a.1, .error .fuel) by unfold Trace.andThen; rw [h]]
    refine ⟨_root_.rfl, hp.trans ?_⟩
    unfold Trace.andThen
    split
    · exact List.prefix_append _ _
    · exact List.prefix_refl _

theorem maybeTest_le {ev ev' : Calculator} (h : CalcLe ev ev') (p : Profile) {n m : Nat} (hm : n ≤ m) (noTesting : Bool)
    (file : FmpFile) : TraceLe (maybeTest ev p n noTesting file) (maybeTest ev' p m noTesting file) := by
  unfold maybeTest
  split
  · rcases testFile_leF h p hm file with e | e
    · rw [e]; exact .inr ⟨_root_.rfl, List.nil_prefix⟩
    · rw [e]; exact TraceLe.rfl
  · exact TraceLe.rfl

section
variable [Rt]

theorem compileInputs_le {ev ev' : Calculator} (h : CalcLe ev ev') (p : Profile) {n m : Nat} (hm : n ≤ m)
    (noTesting : Bool) : ∀ (inputs : List (Str × Str)) (file : FmpFile),
    TraceLe (compileInputs ev p n noTesting inputs file) (compileInputs ev' p m noTesting inputs file)
  | [], _ => TraceLe.rfl
  | (name, text) :: rest, file => by
    rw [compileInputs, compileInputs]
    refine TraceLe.andThen ?_ (fun file => compileInputs_le h p hm noTesting rest file)
    unfold compileInput
    exact TraceLe.andThen TraceLe.rfl (fun file => TraceLe.andThen (maybeTest_le h p hm noTesting file)
      (fun _ => TraceLe.rfl))

end

theorem decompileInputs_le {ev ev' : Calculator} (h : CalcLe ev ev') (p : Profile) {n m : Nat} (hm : n ≤ m)
    (noTesting : Bool) : ∀ (inputs : List Bytes) (file : FmpFile),
    TraceLe (decompileInputs ev p n noTesting inputs file) (decompileInputs ev' p m noTesting inputs file)
  | [], _ => TraceLe.rfl
  | buf :: rest, file => by
    rw [decompileInputs, decompileInputs]
    refine TraceLe.andThen ?_ (fun file => decompileInputs_le h p hm noTesting rest file)
    unfold decompileInput
    refine TraceLe.andThen (TraceLe.quiet ?_) (fun file => TraceLe.andThen (maybeTest_le h p hm noTesting file)
      (fun _ => TraceLe.rfl))
    by_cases hd : decompile p buf n = .ok none
    · rw [hd]; exact LeF.fuel
    · rw [decompile_mono rfl hd m hm]; exact LeF.rfl

theorem mainProgram_le [Rt] {ev ev' : Calculator} (h : CalcLe ev ev') (p : Profile) {n m : Nat} (hm : n ≤ m) (args : Args) :
    TraceLe (mainProgram ev p n args) (mainProgram ev' p m args) := by
  unfold mainProgram
  refine TraceLe.andThen TraceLe.rfl (fun file => ?_)
  split
  · exact compileInputs_le h p hm _ _ _
  · exact decompileInputs_le h p hm _ _ _

end BurnFm
