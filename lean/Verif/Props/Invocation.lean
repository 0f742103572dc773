import Verif.Proofs.Invocation
import Verif.Props.Outcome

/-! Property C152: what an invocation of the program does. -/

namespace BurnFm.Props
open Spec

section
variable [Rt]

/-- C152: an invocation does certain actions and ends without a crash exactly if the specification says so. -/
theorem invocation_exact (p : Profile) (args : Args) (as : List Action) (last : FmpFile) :
    EndsAs p args as (.ok last) ↔ InvocationDoes p args as last := by
  obtain ⟨op, test, noTesting⟩ := args
  constructor
  · rintro ⟨fuel, n, h⟩
    obtain ⟨given, h1, h2⟩ := main_ok (show mainProgram _ p n ⟨op, test, noTesting⟩ = (as, .ok last) from h)
    refine ⟨given, h1, ?_⟩
    cases op with
    | compile inputs => exact compiles_true h2
    | decompile inputs => exact decompiles_true h2
  · rintro ⟨given, h1, h2⟩
    cases op with
    | compile inputs =>
      obtain ⟨N, hN⟩ := compiles_found h2
      exact ⟨N, N, (main_given h1 _ N).trans (hN N N (Nat.le_refl N) (Nat.le_refl N))⟩
    | decompile inputs =>
      obtain ⟨N, hN⟩ := decompiles_found h2
      exact ⟨N, N, (main_given h1 _ N).trans (hN N N (Nat.le_refl N) (Nat.le_refl N))⟩

/-- C152: so the specification allows at most one sequence of actions. -/
theorem invocation_does_unique (p : Profile) (args : Args) (as as' : List Action) (last last' : FmpFile)
    (h : InvocationDoes p args as last) (h' : InvocationDoes p args as' last') : as = as' ∧ last = last' := by
  obtain ⟨h1, h2⟩ := outcome_unique p args as as' (.ok last) (.ok last') ((invocation_exact p args as last).mpr h)
    ((invocation_exact p args as' last').mpr h')
  exact ⟨h1, Except.ok.inj h2⟩

/-- C152: and if it allows none, the invocation crashes or never ends. -/
theorem invocation_fails_iff (p : Profile) (args : Args) :
    (∀ as last, ¬InvocationDoes p args as last) ↔ (∃ as c, EndsAs p args as (.error c)) ∨ Diverges p args := by
  constructor
  · intro h
    by_cases hd : Diverges p args
    · exact .inr hd
    · obtain ⟨as, r, hr⟩ := (outcome_or_diverges p args).mpr hd
      cases r with
      | error c => exact .inl ⟨as, c, hr⟩
      | ok last => exact absurd ((invocation_exact p args as last).mp hr) (h as last)
  · rintro (⟨as, c, hc⟩ | hd) as' last h
    · have := (outcome_unique p args as as' _ _ hc ((invocation_exact p args as' last).mpr h)).2
      cases this
    · exact (outcome_or_diverges p args).mp ⟨as', _, (invocation_exact p args as' last).mpr h⟩ hd

end

section Example
attribute [local instance] toyRt

attribute [local irreducible] mainProgram in
/-- Two input files, each with a test that passes. -/
example (p : Profile) : ∃ b₁ b₂ last, InvocationDoes p ⟨.compile [(t!"a.burn", testText), (t!"b.burn", testText)], [], false⟩
    [.tested [true], .wrote t!"a.fmp12" b₁, .tested [true, true], .wrote t!"b.fmp12" b₂] last := by
  obtain ⟨b₁, b₂, last, h⟩ := example_run (fun env => evalCalc env 9) p
  exact ⟨b₁, b₂, last, (invocation_exact p _ _ last).mp ⟨9, 5, by unfold upTo; exact h⟩⟩

end Example

end BurnFm.Props
