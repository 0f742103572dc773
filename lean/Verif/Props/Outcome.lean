import Verif.Spec.Outcome
import Verif.Proofs.Fuel
import Verif.Proofs.Builds
import Verif.Props.Main

/-! C106: every invocation has one outcome. C107: the release build does what the debug build does. -/

namespace BurnFm.Props
open Spec

section
variable [Rt]

theorem upTo_le (p : Profile) (args : Args) {f g n m : Nat} (hf : f ≤ g) (hn : n ≤ m) :
    TraceLe (upTo p args f n) (upTo p args g m) := mainProgram_le (evalCalc_mono hf) p hn args

/-- C106: an outcome that is reached within some limits is reached within all larger ones. -/
theorem outcome_stable (p : Profile) (args : Args) (actions : List Action) (r : Res FmpFile) (fuel n : Nat)
    (h : upTo p args fuel n = (actions, liftR r)) (fuel' n' : Nat) (hf : fuel ≤ fuel') (hn : n ≤ n') :
    upTo p args fuel' n' = (actions, liftR r) := by
  rcases upTo_le p args hf hn with e | ⟨e, _⟩
  · rw [← e, h]
  · rw [h] at e; exact absurd e (liftR_ne_fuel r)

/-- C106: an invocation has at most one outcome. -/
theorem outcome_unique (p : Profile) (args : Args) (as as' : List Action) (r r' : Res FmpFile)
    (h : EndsAs p args as r) (h' : EndsAs p args as' r') : as = as' ∧ r = r' := by
  obtain ⟨f, n, h⟩ := h
  obtain ⟨f', n', h'⟩ := h'
  have e := outcome_stable p args as r f n h (f + f') (n + n') (by omega) (by omega)
  have e' := outcome_stable p args as' r' f' n' h' (f + f') (n + n') (by omega) (by omega)
  rw [e] at e'
  injection e' with e1 e2
  refine ⟨e1, ?_⟩
  cases r <;> cases r' <;> simp_all [liftR]

/-- C106: an invocation has an outcome if and only if it does not run forever. -/
theorem outcome_or_diverges (p : Profile) (args : Args) : (∃ as r, EndsAs p args as r) ↔ ¬ Diverges p args := by
  constructor
  · rintro ⟨as, r, f, n, h⟩ hd
    have := hd f n
    rw [h] at this
    exact liftR_ne_fuel r this
  · intro h
    unfold Diverges at h
    simp only [Classical.not_forall] at h
    obtain ⟨f, n, h⟩ := h
    rcases hu : upTo p args f n with ⟨as, x⟩
    rw [hu] at h
    match x, h, hu with
    | .ok a, _, hu => exact ⟨as, .ok a, f, n, hu⟩
    | .error (.panic e), _, hu => exact ⟨as, .error e, f, n, hu⟩
    | .error .fuel, h, _ => exact absurd rfl h

/-- C106: what was done within some limits is not taken back: it is the beginning of what is done within larger ones. -/
theorem actions_grow (p : Profile) (args : Args) (fuel fuel' n n' : Nat) (hf : fuel ≤ fuel') (hn : n ≤ n') :
    (upTo p args fuel n).1 <+: (upTo p args fuel' n').1 := by
  rcases upTo_le p args hf hn with e | ⟨_, e⟩
  · rw [e]; exact List.prefix_refl _
  · exact e

/-- C106: also a single calculation has at most one outcome. -/
theorem calculation_outcome_unique (env : CalcEnv) (s : Str) (f g : Nat) (r r' : Res Str)
    (h : evalCalc env f s = liftR r) (h' : evalCalc env g s = liftR r') : r = r' := by
  have e1 := LeF.eq (evalCalc_mono (Nat.le_add_right f g) env s) (by show evalCalc env f s ≠ _; rw [h]; exact liftR_ne_fuel r)
  have e2 := LeF.eq (evalCalc_mono (Nat.le_add_left g f) env s) (by show evalCalc env g s ≠ _; rw [h']; exact liftR_ne_fuel r')
  have e : liftR r = liftR r' := by rw [← h, ← h']; exact e1.trans e2.symm
  clear e1 e2 h h'
  cases r <;> cases r' <;> simp_all [liftR]

theorem upTo_leO (args : Args) (f n : Nat) : TraceLeO (upTo .debug args f n) (upTo .release args f n) :=
  mainProgram_leO _ n args

/-- C107: unless arithmetic overflows in the debug build, the release build does the same and ends in the same way, also
with the same panic. -/
theorem release_like_debug (args : Args) (as : List Action) (r : Res FmpFile) (h : EndsAs .debug args as r)
    (hr : r ≠ .error .overflow) : EndsAs .release args as r := by
  obtain ⟨f, n, h⟩ := h
  refine ⟨f, n, ?_⟩
  rcases upTo_leO args f n with e | ⟨e, _⟩
  · rw [← e, h]
  · rw [h] at e
    refine absurd ?_ hr
    cases r with
    | ok a => cases e
    | error x => injection e with e; injection e with e; rw [e]

/-- C107: where arithmetic overflows in the debug build, the release build has done the same up to this point. -/
theorem release_after_overflow (args : Args) (as as' : List Action) (r' : Res FmpFile)
    (h : EndsAs .debug args as (.error .overflow)) (h' : EndsAs .release args as' r') : as <+: as' := by
  obtain ⟨f, n, h⟩ := h
  obtain ⟨f', n', h'⟩ := h'
  have e := outcome_stable _ args as _ f n h (f + f') (n + n') (by omega) (by omega)
  have e' := outcome_stable _ args as' r' f' n' h' (f + f') (n + n') (by omega) (by omega)
  rcases upTo_leO args (f + f') (n + n') with x | ⟨_, x⟩
  · rw [e, e'] at x; injection x with x1 x2; rw [x1]; exact List.prefix_refl _
  · rw [e, e'] at x; exact x

/-- C107: if the debug build runs forever, so does the release build. -/
theorem release_diverges (args : Args) (h : Diverges .debug args) : Diverges .release args := by
  intro f n
  have hd := h f n
  rcases upTo_leO args f n with e | ⟨e, _⟩
  · rw [← e]; exact hd
  · rw [e] at hd; injection hd with hd; cases hd

end

/-! ### Examples -/

section Example
attribute [local instance] toyRt

/-- Two input files: the outcome of `example_run`. -/
example : ∃ as last, as ≠ [] ∧
    EndsAs .release ⟨.compile [(t!"a.burn", testText), (t!"b.burn", testText)], [], false⟩ as (.ok last) := by
  obtain ⟨b₁, b₂, last, h⟩ := example_run (fun env => evalCalc env 9) .debug
  exact ⟨_, last, by simp, release_like_debug _ _ _ ⟨9, 5, h⟩ (by simp)⟩

/-- A file with a test that goes to the last record of a table without records. -/
def lastOfNone : FmpFile :=
  { tables := [(1, { name := t!"a" })], tableOccurrences := [(1, { name := t!"a", tableActual := 1 })],
    tests := [{ name := t!"T", script := { name := t!"t", instructions :=
      [{ opcode := .goToRecordRequestPage, index := 0, switches := [t!"\"last\""] }] } }] }

set_option maxRecDepth 20000 in
/-- C107 is false without its hypothesis: the debug build panics in a test which passes in the release build. -/
theorem builds_differ : testFile (fun env => evalCalc env 9) .debug 5 lastOfNone = .error (.panic .overflow) ∧
    testFile (fun env => evalCalc env 9) .release 5 lastOfNone = .ok [true] := by
  constructor <;> decide +kernel

/-- … and a program text on which the two builds panic differently. -/
theorem builds_panic_differently :
    EndsAs .debug ⟨.compile [(t!"a.burn", t!"(")], [], true⟩ [] (.error .overflow) ∧
    EndsAs .release ⟨.compile [(t!"a.burn", t!"(")], [], true⟩ [] (.error .index) :=
  ⟨⟨0, 0, rfl⟩, ⟨0, 0, rfl⟩⟩

end Example

end BurnFm.Props
