import Verif.Proofs.InvocationCrash
import Verif.Props.Invocation
import Verif.Props.Terminates

/-! Property C154: exactly which invocations crash or go on forever, and what they have done by then. -/

namespace BurnFm.Props
open Spec

section
variable [Rt]

/-- C154: an invocation crashes after the actions `as` exactly if the specification says so. -/
theorem invocation_crash_exact (p : Profile) (args : Args) (as : List Action) :
    (∃ c, EndsAs p args as (.error c)) ↔ InvocationCrashes p args as := by
  obtain ⟨op, test, noTesting⟩ := args
  constructor
  · rintro ⟨c, fuel, n, h⟩
    replace h : mainProgram (fun env => evalCalc env fuel) p n ⟨op, test, noTesting⟩ = (as, .error (.panic c)) := h
    by_cases hg : ∃ given, Compiled p test given
    · obtain ⟨given, hg⟩ := hg
      rw [main_given hg] at h
      refine .inr ⟨given, hg, ?_⟩
      cases op with
      | compile inputs => exact compile_crash_true h
      | decompile inputs => exact decompile_crash_true h
    · obtain ⟨c', hc⟩ := main_not_given (noTesting := noTesting) (fun given hx => hg ⟨given, hx⟩) (fun env => evalCalc env fuel) n (op := op)
      rw [hc] at h
      cases h
      exact .inl ⟨fun given hx => hg ⟨given, hx⟩, rfl⟩
  · rintro (⟨hg, rfl⟩ | ⟨given, hg, h⟩)
    · obtain ⟨c, hc⟩ := main_not_given (noTesting := noTesting) hg (fun env => evalCalc env 0) 0 (op := op)
      exact ⟨c, 0, 0, hc⟩
    · cases op with
      | compile inputs =>
        obtain ⟨N, hN⟩ := compile_crash_found h
        obtain ⟨c, hc⟩ := hN N N (Nat.le_refl _) (Nat.le_refl _)
        exact ⟨c, N, N, (main_given hg _ _).trans hc⟩
      | decompile inputs =>
        obtain ⟨N, hN⟩ := decompile_crash_found h
        obtain ⟨c, hc⟩ := hN N N (Nat.le_refl _) (Nat.le_refl _)
        exact ⟨c, N, N, (main_given hg _ _).trans hc⟩

/-- C154: the actions before the crash are determined, and an invocation that crashes does not end as C152 says. -/
theorem invocation_crash_unique (p : Profile) (args : Args) (as : List Action) (h : InvocationCrashes p args as) :
    (∀ as', InvocationCrashes p args as' → as' = as) ∧ ∀ as' last, ¬InvocationDoes p args as' last := by
  obtain ⟨c, hc⟩ := (invocation_crash_exact p args as).mpr h
  constructor
  · intro as' h'
    obtain ⟨c', hc'⟩ := (invocation_crash_exact p args as').mpr h'
    exact (outcome_unique p args as' as _ _ hc' hc).1
  · intro as' last h'
    have := (outcome_unique p args as' as _ _ ((invocation_exact p args as' last).mpr h') hc).2
    cases this

/-- C154: an invocation never ends exactly if it neither ends as C152 says nor crashes. -/
theorem invocation_endless_iff (p : Profile) (args : Args) :
    Diverges p args ↔ (∀ as last, ¬InvocationDoes p args as last) ∧ ∀ as, ¬InvocationCrashes p args as := by
  rw [← not_iff_not, ← outcome_or_diverges]
  constructor
  · rintro ⟨as, r, h⟩ ⟨h1, h2⟩
    cases r with
    | ok last => exact h1 as last ((invocation_exact p args as last).mp h)
    | error c => exact h2 as ((invocation_crash_exact p args as).mp ⟨c, h⟩)
  · intro h
    by_contra hn
    refine h ⟨fun as last hd => hn ⟨as, _, (invocation_exact p args as last).mpr hd⟩, fun as hc => ?_⟩
    obtain ⟨c, hc⟩ := (invocation_crash_exact p args as).mpr hc
    exact hn ⟨as, _, hc⟩

/-- C154: for every invocation the specification gives an end, a crash or that it goes on forever. -/
theorem invocation_three (p : Profile) (args : Args) :
    (∃ as last, InvocationDoes p args as last) ∨ (∃ as, InvocationCrashes p args as) ∨ ∃ as, InvocationHangs p args as := by
  obtain ⟨op, test, noTesting⟩ := args
  by_cases hg : ∃ given, Compiled p test given
  · obtain ⟨given, hg⟩ := hg
    cases op with
    | compile inputs =>
      rcases compile_three p noTesting inputs { tests := given.flatMap (·.tests) } with ⟨as, last, h⟩ | ⟨as, h⟩ | ⟨as, h⟩
      · exact .inl ⟨as, last, given, hg, h⟩
      · exact .inr (.inl ⟨as, .inr ⟨given, hg, h⟩⟩)
      · exact .inr (.inr ⟨as, given, hg, h⟩)
    | decompile inputs =>
      rcases decompile_three p noTesting inputs { tests := given.flatMap (·.tests) } with ⟨as, last, h⟩ | ⟨as, h⟩ | ⟨as, h⟩
      · exact .inl ⟨as, last, given, hg, h⟩
      · exact .inr (.inl ⟨as, .inr ⟨given, hg, h⟩⟩)
      · exact .inr (.inr ⟨as, given, hg, h⟩)
  · exact .inr (.inl ⟨[], .inl ⟨fun given h => hg ⟨given, h⟩, rfl⟩⟩)

/-- C154: an invocation never ends, and does the actions `as` and no more, exactly if the specification says so. -/
theorem invocation_hang_exact (p : Profile) (args : Args) (as : List Action) :
    (Diverges p args ∧ ∃ N, ∀ fuel n, N ≤ fuel → N ≤ n → (upTo p args fuel n).1 = as) ↔ InvocationHangs p args as := by
  have found : ∀ as, InvocationHangs p args as → ∃ N, ∀ fuel n, N ≤ fuel → N ≤ n → upTo p args fuel n = (as, .error .fuel) := by
    intro as h
    obtain ⟨op, test, noTesting⟩ := args
    obtain ⟨given, hg, h⟩ := h
    cases op with
    | compile inputs =>
      obtain ⟨N, hN⟩ := compile_hang_found h
      exact ⟨N, fun fuel n h1 h2 => (main_given hg _ _).trans (hN fuel n h1 h2)⟩
    | decompile inputs =>
      obtain ⟨N, hN⟩ := decompile_hang_found h
      exact ⟨N, fun fuel n h1 h2 => (main_given hg _ _).trans (hN fuel n h1 h2)⟩
  constructor
  · rintro ⟨hd, N, hN⟩
    obtain ⟨h1, h2⟩ := (invocation_endless_iff p args).mp hd
    rcases invocation_three p args with ⟨as', last, h⟩ | ⟨as', h⟩ | ⟨as', h⟩
    · exact absurd h (h1 as' last)
    · exact absurd h (h2 as')
    · obtain ⟨M, hM⟩ := found as' h
      have e := hN (max N M) (max N M) (by omega) (by omega)
      rw [hM _ _ (by omega) (by omega)] at e
      cases e
      exact h
  · intro h
    obtain ⟨N, hN⟩ := found as h
    refine ⟨?_, N, fun fuel n h1 h2 => by rw [hN fuel n h1 h2]⟩
    by_contra hd
    obtain ⟨as', r, f, m, hr⟩ := (outcome_or_diverges p args).mpr hd
    have e := outcome_stable p args as' r f m hr (max f (max m N)) (max f (max m N)) (by omega) (by omega)
    rw [hN _ _ (by omega) (by omega)] at e
    cases r <;> cases e

end

section Example
attribute [local instance] toyRt

attribute [local irreducible] mainProgram in
/-- The first input file is tested and written, then the second one, which has a wrong name, crashes the program. -/
example (p : Profile) : ∃ b, InvocationCrashes p ⟨.compile [(t!"a.burn", testText), (t!"b", testText)], [], false⟩
    [.tested [true], .wrote t!"a.fmp12" b] := by
  obtain ⟨b₁, b₂, last, h⟩ := example_run (fun env => evalCalc env 9) p
  obtain ⟨given, hg, h⟩ := (invocation_exact p _ _ last).mp ⟨9, 5, by unfold upTo; exact h⟩
  refine ⟨b₁, .inr ⟨given, hg, ?_⟩⟩
  dsimp only at h ⊢
  generalize hi : [(t!"a.burn", testText), (t!"b.burn", testText)] = inputs at h
  generalize ha : [Action.tested [true], .wrote t!"a.fmp12" b₁, .tested [true, true], .wrote t!"b.fmp12" b₂] = as at h
  cases h with
  | nil => cases hi
  | @input _ tmp _ _ base text rest shown as content h1 h2 h3 h4 h5 =>
    injection hi with hi _
    injection hi with hn ht
    have hb : base = t!"a" := List.append_cancel_right (bs := t!".burn") hn.symm
    subst hb ht
    rcases h3 with ⟨_, rfl⟩ | ⟨k1, k2, start, v, vs, k3, k4, rfl⟩
    · cases ha
    · injection ha with ha1 ha
      injection ha1 with ha1
      injection ha with ha2 _
      injection ha2 with _ ha2
      subst ha1 ha2
      refine CompilingCrashes.later (base := t!"a") (shown := [.tested [true]]) (as := []) h1 h2
        (.inr ⟨k1, k2, start, v, _, k3, k4, rfl⟩) h4 (.name fun base e => ?_)
      have := congrArg List.length e
      simp at this

/-- Reading a file with a sector linked to itself goes on forever; the next input file is never reached. -/
example (p : Profile) (next : Bytes) : ∃ buf, InvocationHangs p ⟨.decompile [buf, next], [], false⟩ [] := by
  obtain ⟨buf, _, h⟩ := decompile_terminates_refuted.1
  exact ⟨buf, [], .nil, .bytes (h p)⟩

end Example

end BurnFm.Props
