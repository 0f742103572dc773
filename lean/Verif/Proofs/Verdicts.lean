import Verif.Spec.Verdicts
import Verif.Props.StepDoes
import Verif.Props.CalcWords
import Verif.Proofs.Fuel
import Verif.Props.Outcome

/-! Runs with the values of calculations as the calculation language gives them. -/

namespace BurnFm
open Spec

/-- If the parameters that a step looks at keep their values, the step does the same. -/
theorem step_does_mono {ev ev' : Calculator} {p : Profile} {scripts : HMap FScript} {u v : Vm} {s : ScriptStep}
    (h0 : ∀ x, HasValue ev u s 0 x → HasValue ev' u s 0 x) (h1 : ∀ x, HasValue ev u s 1 x → HasValue ev' u s 1 x)
    (hl : ∀ y x, (running scripts u).getLast? = some y → HasValue ev u y 0 x → HasValue ev' u y 0 x)
    (h : StepDoes ev p scripts u s v) : StepDoes ev' p scripts u s v := by
  unfold StepDoes at h ⊢
  split at h
  · obtain ⟨t, u', a, b⟩ := h; exact ⟨t, u', h0 _ a, b⟩
  · obtain ⟨t, a, b⟩ := h; exact ⟨t, h0 _ a, b⟩
  · rcases h with h | ⟨a, b, ⟨y, x, c, d⟩, e⟩ | ⟨a, x, b, c⟩
    · exact .inl h
    · exact .inr (.inl ⟨a, b, ⟨y, x, c, hl y x c d⟩, e⟩)
    · exact .inr (.inr ⟨a, x, h0 _ b, c⟩)
  · exact h
  · exact h
  · exact h
  · exact h
  · obtain ⟨t, a, b⟩ := h; exact ⟨t, h0 _ a, b⟩
  · obtain ⟨t, a, b, c⟩ := h
    exact ⟨t, h0 _ a, fun hlen => by obtain ⟨x, hx⟩ := b hlen; exact ⟨x, h1 _ hx⟩, c⟩
  · obtain ⟨w, h, e⟩ := h
    refine ⟨w, ?_, e⟩
    unfold DataDoes at h ⊢
    split at h
    · obtain ⟨t, a, b⟩ := h; exact ⟨t, h0 _ a, b⟩
    · exact h
    · exact h
    · exact h
    · obtain ⟨n, x, m, a, b, c⟩ := h; exact ⟨n, x, m, a, h1 _ b, c⟩
    · obtain ⟨n, x, a, b, c⟩ := h; exact ⟨n, x, a, h1 _ b, c⟩
    · exact h
    · obtain ⟨x, a, b⟩ := h; exact ⟨x, h0 _ a, b⟩
    · obtain ⟨c, x, a, b, d⟩ := h; exact ⟨c, x, a, h0 _ b, d⟩
    · exact h

variable [Rt]

theorem text_means_unique {env : CalcEnv} {s v v' : Str} (h : TextMeans env s v) (h' : TextMeans env s v') : v = v' := by
  obtain ⟨f, hf⟩ := (Props.text_means_exact env s v).mpr h
  obtain ⟨g, hg⟩ := (Props.text_means_exact env s v').mpr h'
  have := Props.calculation_outcome_unique env s f g (.ok v) (.ok v') hf hg
  exact Except.ok.inj this

theorem trueCalc_iff {env : CalcEnv} {s v : Str} : trueCalc env s = .ok v ↔ TextMeans env s v := by
  unfold trueCalc
  split
  · rename_i h
    constructor
    · intro e; cases e; exact h.choose_spec
    · intro hv; rw [text_means_unique h.choose_spec hv]
  · rename_i h
    constructor
    · intro e; split at e <;> cases e
    · intro hv; exact absurd ⟨v, hv⟩ h

/-- A value is found with enough rounds. -/
theorem value_found (u : Vm) (s : ScriptStep) (i : Nat) :
    ∃ N, ∀ fuel, N ≤ fuel → ∀ x, HasValue trueCalc u s i x → HasValue (fun env => evalCalc env fuel) u s i x := by
  by_cases h : ∃ x, HasValue trueCalc u s i x
  · obtain ⟨x, c, hc, hx⟩ := h
    have hx' := hx
    unfold World.eval at hx'
    rw [trueCalc_iff] at hx'
    obtain ⟨N, hN⟩ := (Props.text_means_exact _ c x).mpr hx'
    refine ⟨N, fun fuel hf y hy => ?_⟩
    obtain ⟨c', hc', hy⟩ := hy
    rw [hc] at hc'; cases hc'
    rw [hx] at hy; cases hy
    refine ⟨c, hc, ?_⟩
    unfold World.eval
    have := evalCalc_mono hf ⟨u.world.db, u.frames.length, u.world.vars⟩ c
    rw [← LeF.eq this (by show evalCalc _ N c ≠ _; rw [hN]; simp)]
    exact hN
  · exact ⟨0, fun _ _ x hx => absurd ⟨x, hx⟩ h⟩

/-- A value that is found is the value. -/
theorem value_true {u : Vm} {s : ScriptStep} {i fuel : Nat} {x : Str} (h : HasValue (fun env => evalCalc env fuel) u s i x) :
    HasValue trueCalc u s i x := by
  obtain ⟨c, hc, hx⟩ := h
  exact ⟨c, hc, trueCalc_iff.mpr ((Props.text_means_exact _ c x).mp ⟨fuel, hx⟩)⟩

theorem step_found {p : Profile} {scripts : HMap FScript} {u v : Vm} {s : ScriptStep}
    (h : StepDoes trueCalc p scripts u s v) :
    ∃ N, ∀ fuel, N ≤ fuel → StepDoes (fun env => evalCalc env fuel) p scripts u s v := by
  obtain ⟨a, ha⟩ := value_found u s 0
  obtain ⟨b, hb⟩ := value_found u s 1
  have hc : ∃ N, ∀ fuel, N ≤ fuel → ∀ y x, (running scripts u).getLast? = some y → HasValue trueCalc u y 0 x →
      HasValue (fun env => evalCalc env fuel) u y 0 x := by
    cases hl : (running scripts u).getLast? with
    | none => exact ⟨0, fun _ _ y x hy => by cases hy⟩
    | some z =>
      obtain ⟨N, hN⟩ := value_found u z 0
      exact ⟨N, fun fuel hf y x hy => by cases hy; exact hN fuel hf x⟩
  obtain ⟨c, hc⟩ := hc
  refine ⟨max a (max b c), fun fuel hf => ?_⟩
  exact step_does_mono (ha fuel (by omega)) (hb fuel (by omega)) (hc fuel (by omega)) h

theorem run_found {p : Profile} {scripts : HMap FScript} {u v : Vm} (h : RunOf trueCalc p scripts u v) :
    ∃ N, ∀ fuel, N ≤ fuel → RunOf (fun env => evalCalc env fuel) p scripts u v := by
  induction h with
  | failed h => exact ⟨0, fun _ _ => .failed h⟩
  | finished h => exact ⟨0, fun _ _ => .finished h⟩
  | step hf hs hd _ ih =>
    obtain ⟨a, ha⟩ := step_found hd
    obtain ⟨b, hb⟩ := ih
    exact ⟨max a b, fun fuel hm => .step hf hs (ha fuel (by omega)) (hb fuel (by omega))⟩
  | «return» hf hfr hs _ ih =>
    obtain ⟨b, hb⟩ := ih
    exact ⟨b, fun fuel hm => .return hf hfr hs (hb fuel hm)⟩

theorem run_true {p : Profile} {scripts : HMap FScript} {u v : Vm} {fuel : Nat}
    (h : RunOf (fun env => evalCalc env fuel) p scripts u v) : RunOf trueCalc p scripts u v := by
  induction h with
  | failed h => exact .failed h
  | finished h => exact .finished h
  | step hf hs hd _ ih =>
    exact .step hf hs (step_does_mono (fun _ => value_true) (fun _ => value_true) (fun _ _ _ => value_true) hd) ih
  | «return» hf hfr hs _ ih => exact .return hf hfr hs ih

theorem tests_found {p : Profile} {scripts : HMap FScript} {ts : List FTest} {u v : Vm} {vs : List Bool}
    (h : TestsGive trueCalc p scripts ts u vs v) :
    ∃ N, ∀ fuel, N ≤ fuel → TestsGive (fun env => evalCalc env fuel) p scripts ts u vs v := by
  induction h with
  | done => exact ⟨0, fun _ _ => .done⟩
  | test h1 _ ih =>
    obtain ⟨a, ha⟩ := run_found h1
    obtain ⟨b, hb⟩ := ih
    exact ⟨max a b, fun fuel hm => .test (ha fuel (by omega)) (hb fuel (by omega))⟩

theorem tests_true {p : Profile} {scripts : HMap FScript} {ts : List FTest} {u v : Vm} {vs : List Bool} {fuel : Nat}
    (h : TestsGive (fun env => evalCalc env fuel) p scripts ts u vs v) : TestsGive trueCalc p scripts ts u vs v := by
  induction h with
  | done => exact .done
  | test h1 _ ih => exact .test (run_true h1) ih

end BurnFm
