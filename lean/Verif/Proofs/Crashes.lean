import Verif.Spec.Crashes
import Verif.Proofs.Endings
import Verif.Proofs.Crash
import Verif.Props.Termination
import Verif.Props.Endings

/-! When steps crash and when they never end. -/

namespace BurnFm
open Spec

/-- The result is that the time is over. -/
def Fu {α : Type} (x : Ev α) : Prop := x = .error .fuel

theorem fu_pure {α : Type} (a : α) : ¬Fu (pure a : Ev α) := by intro h; cases h

theorem fu_liftR {α : Type} (x : Res α) : ¬Fu (liftR x) := by cases x <;> (intro h; cases h)

theorem fu_bind {α β : Type} {x : Ev α} {f : α → Ev β} : Fu (x >>= f) ↔ Fu x ∨ ∃ a, x = .ok a ∧ Fu (f a) := by
  cases x with
  | error e =>
    constructor
    · intro h; cases h; exact .inl rfl
    · rintro (h | ⟨a, h, -⟩)
      · cases h; rfl
      · cases h
  | ok a =>
    constructor
    · intro h; exact .inr ⟨a, rfl, h⟩
    · rintro (h | ⟨b, hb, h⟩)
      · cases h
      · cases hb; exact h

theorem fu_quiet {α β : Type} {x : Res α} {f : α → Ev β} (h : ∀ a, ¬Fu (f a)) : ¬Fu (liftR x >>= f) := by
  rw [fu_bind]
  rintro (h' | ⟨a, -, h'⟩)
  · exact fu_liftR _ h'
  · exact h a h'

theorem fu_value {ev : Calculator} {u : Vm} {s : ScriptStep} {i d : Nat} (hd : d = u.frames.length) {β : Type}
    (k : Str → Ev β) :
    Fu (s.switch i >>= fun c => u.world.eval ev d c >>= k) ↔ NeverValued ev u s i ∨ ∃ v, HasValue ev u s i v ∧ Fu (k v) := by
  subst hd
  unfold NeverValued HasValue ScriptStep.switch
  rw [fu_bind]
  simp only [fu_liftR, false_or, liftR_ok, idx_ok, fu_bind]
  constructor
  · rintro ⟨c, hc, h | ⟨v, hv, h⟩⟩
    · exact .inl ⟨c, hc, h⟩
    · exact .inr ⟨v, ⟨c, hc, hv⟩, h⟩
  · rintro (⟨c, hc, h⟩ | ⟨v, ⟨c, hc, hv⟩, h⟩)
    · exact ⟨c, hc, .inl h⟩
    · exact ⟨c, hc, .inr ⟨v, hv, h⟩⟩

/-- If what follows ends, evaluating is what does not. -/
theorem fu_value_only {ev : Calculator} {u : Vm} {s : ScriptStep} {i d : Nat} (hd : d = u.frames.length) {β : Type}
    (k : Str → Ev β) (hk : ∀ v, ¬Fu (k v)) :
    Fu (s.switch i >>= fun c => u.world.eval ev d c >>= k) ↔ NeverValued ev u s i := by
  rw [fu_value hd]
  constructor
  · rintro (h | ⟨v, -, h⟩)
    · exact h
    · exact absurd h (hk v)
  · exact .inl

section
variable {ev : Calculator} {p : Profile} {scripts : HMap FScript}

theorem fu_ite {α : Type} {c : Prop} [Decidable c] {x y : Ev α} (hx : ¬Fu x) (hy : ¬Fu y) : ¬Fu (if c then x else y) := by
  split <;> assumption

theorem second_never {u : Vm} {s : ScriptStep} {d : Nat} (hd : d = u.frames.length) {β : Type} (k : Str → Str → Ev β)
    (hk : ∀ a v, ¬Fu (k a v)) :
    Fu (s.switch 0 >>= fun a => s.switch 1 >>= fun c => u.world.eval ev d c >>= k a) ↔ NeverValued ev u s 1 := by
  rw [fu_bind]
  constructor
  · rintro (h | ⟨a, -, h⟩)
    · exact absurd h (fu_liftR _)
    · exact (fu_value_only hd (k a) (hk a)).mp h
  · intro h
    obtain ⟨c, hc, -⟩ := id h
    have h0 : 0 < s.switches.length := by have := (List.getElem?_eq_some_iff.mp hc).1; omega
    refine .inr ⟨s.switches[0], ?_, (fu_value_only hd (k _) (hk _)).mpr h⟩
    unfold ScriptStep.switch
    rw [liftR_ok, idx_ok]
    exact List.getElem?_eq_getElem h0

/-- The steps without effect on the position. -/
theorem fu_effect {u : Vm} {s : ScriptStep} {d : Nat} (hd : d = u.frames.length)
    (h2 : s.opcode = .goToRecordRequestPage → ¬1 < s.switches.length)
    (hn : s.opcode ≠ .performScript ∧ s.opcode ≠ .if ∧ s.opcode ≠ .exitLoopIf) :
    Fu (effect ev p d s u.world) ↔ ∃ i, calculations s = [i] ∧ NeverValued ev u s i := by
  unfold effect calculations
  cases hop : s.opcode
  case goToLayout =>
    dsimp only
    rw [fu_value_only hd _ (fun v => fu_quiet fun a => by split <;> exact fu_pure _)]
    simp
  case goToRecordRequestPage =>
    dsimp only
    rw [fu_value_only hd _ (fun v => fu_ite (fu_pure _) (fu_quiet fun a => fu_quiet fun b => fu_pure _)), if_neg (h2 hop)]
    simp
  case setVariable =>
    dsimp only
    rw [second_never hd _ (fun a v => fu_quiet fun a => fu_pure _)]
    simp
  case setField =>
    dsimp only
    rw [second_never hd _ (fun a v => fu_ite (fu_pure _) (fu_quiet fun a => fu_quiet fun b => fu_quiet fun c => fu_quiet fun d => fu_pure _))]
    simp
  case showCustomDialog =>
    dsimp only
    rw [fu_value_only hd _ (fun v => fu_pure _)]
    simp
  case assert =>
    dsimp only
    rw [fu_bind]
    constructor
    · rintro (h | ⟨c, hc, h⟩)
      · exact absurd h (fu_liftR _)
      · rw [fu_bind] at h
        rcases h with h | ⟨v, -, h⟩
        · refine ⟨0, rfl, c, ?_, hd ▸ h⟩
          unfold ScriptStep.switch at hc
          rw [liftR_ok, idx_ok] at hc
          exact hc
        · exact absurd h (fu_ite (fu_pure _) (fu_pure _))
    · rintro ⟨i, hi, c, hc, h⟩
      cases hi
      refine .inr ⟨c, ?_, fu_bind.mpr (.inl (hd ▸ h))⟩
      unfold ScriptStep.switch
      rw [liftR_ok, idx_ok]
      exact hc
  case performScript => exact absurd hop hn.1
  case «if» => exact absurd hop hn.2.1
  case exitLoopIf => exact absurd hop hn.2.2
  all_goals
    dsimp only
    first
      | exact iff_of_false (fu_pure _) (by simp)
      | exact iff_of_false (fu_quiet fun a => fu_pure _) (by simp)

/-- A step that is no `else_if` and evaluates one parameter never ends if that does not. -/
theorem hang_one {u : Vm} {s : ScriptStep} {i : Nat} (ho : s.opcode ≠ .elseIf) (hc : calculations s = [i]) :
    HangReason ev scripts u s ↔ NeverValued ev u s i := by
  constructor
  · intro h
    cases h with
    | value j hj h _ => rw [hc] at hj; simp at hj; subst hj; exact h
    | condition h => exact absurd h ho
    | noEndIf x h => exact absurd h ho
  · intro h
    refine .value i (by rw [hc]; simp) h ?_
    intro j hj hlt
    rw [hc] at hj; simp at hj; omega

theorem hang_none {u : Vm} {s : ScriptStep} (ho : s.opcode ≠ .elseIf) (hc : calculations s = []) : ¬HangReason ev scripts u s := by
  intro h
  cases h with
  | value j hj h _ => rw [hc] at hj; simp at hj
  | condition h => exact absurd h ho
  | noEndIf x h => exact absurd h ho

theorem hang_two {u : Vm} {s : ScriptStep} (ho : s.opcode ≠ .elseIf) (hc : calculations s = [0, 1]) :
    HangReason ev scripts u s ↔ NeverValued ev u s 0 ∨ ∃ v, HasValue ev u s 0 v ∧ NeverValued ev u s 1 := by
  constructor
  · intro h
    cases h with
    | value j hj h hl =>
      rw [hc] at hj hl; simp at hj
      rcases hj with rfl | rfl
      · exact .inl h
      · obtain ⟨v, hv⟩ := hl 0 (by simp) (by omega)
        exact .inr ⟨v, hv, h⟩
    | condition h => exact absurd h ho
    | noEndIf x h => exact absurd h ho
  · rintro (h | ⟨v, hv, h⟩)
    · exact .value 0 (by rw [hc]; simp) h (by intro j _ hj; omega)
    · refine .value 1 (by rw [hc]; simp) h ?_
      intro j _ hj
      obtain rfl : j = 0 := by omega
      exact ⟨v, hv⟩

theorem fu_exec {u : Vm} {s : ScriptStep} {name : Str} {ip : Nat} {below : List (Str × Nat)}
    (hfr : u.frames = (name, ip) :: below) (hs : (u.script scripts name below).instructions[ip]? = some s) :
    Fu (u.exec ev p scripts name ip below (u.script scripts name below).instructions s) ↔ HangReason ev scripts u s := by
  have hip := (List.getElem?_eq_some_iff.mp hs).1
  have hleft : stepsLeft scripts u = (u.script scripts name below).instructions.drop ip := by
    unfold stepsLeft; rw [hfr]
  have hnone : ∀ op, NoneLeft scripts u op ↔ ∀ x ∈ (u.script scripts name below).instructions.drop ip, x.opcode ≠ op := by
    intro op; unfold NoneLeft; rw [hleft]
  generalize hcode : (u.script scripts name below).instructions = code at hip hleft hnone ⊢
  have hd : below.length + 1 = u.frames.length := by rw [hfr]; rfl
  unfold Vm.exec
  dsimp only
  cases hop : s.opcode
  case performScript =>
    dsimp only
    rw [fu_value_only hd _ (fun v => fu_quiet fun a => fu_ite (fu_pure _) (fu_pure _)),
      hang_one (by rw [hop]; simp) (by unfold calculations; rw [hop])]
  case «if» =>
    dsimp only
    rw [fu_value_only hd _ (fun v => fu_ite (fu_pure _) (fu_pure _)),
      hang_one (by rw [hop]; simp) (by unfold calculations; rw [hop])]
  case exitLoopIf =>
    dsimp only
    rw [fu_value_only hd _ (fun v => fu_ite (fu_quiet fun a => fu_pure _) (fu_pure _)),
      hang_one (by rw [hop]; simp) (by unfold calculations; rw [hop])]
  case goToRecordRequestPage =>
    dsimp only
    by_cases h2 : 1 < s.switches.length
    · rw [if_pos h2, fu_value hd, hang_two (by rw [hop]; simp) (by unfold calculations; rw [hop]; simp [h2])]
      refine or_congr Iff.rfl (exists_congr fun v => and_congr_right fun _ => ?_)
      refine fu_value_only hd _ (fun w => fu_ite (fu_pure _) (fu_quiet fun a => fu_quiet fun b => fu_quiet fun c => ?_))
      exact fu_ite (fu_quiet fun a => fu_pure _) (fu_pure _)
    · rw [if_neg h2, hang_one (i := 0) (by rw [hop]; simp) (by unfold calculations; rw [hop]; simp [h2]), fu_bind,
        fu_effect hd (fun _ => h2) (by rw [hop]; simp)]
      unfold calculations
      rw [hop]
      simp [h2, fu_pure]
  case elseIf =>
    dsimp only
    have hcalc : calculations s = [] := by unfold calculations; rw [hop]
    have hlast : (code.drop ip).getLast? = some (code.getLastD s) := by
      rw [List.getLast?_drop, if_neg (by omega)]
      cases code with
      | nil => simp at hip
      | cons a l =>
        rw [List.getLastD_eq_getLast?, List.getLast?_eq_some_getLast (List.cons_ne_nil a l)]
        rfl
    cases hb : u.branchTaken with
    | false =>
      simp only [Bool.false_and, Bool.false_eq_true, if_false]
      rw [fu_value_only hd _ (fun v => fu_ite (fu_pure _) (fu_pure _))]
      constructor
      · exact .condition hop hb
      · intro h
        cases h with
        | value j hj h _ => rw [hcalc] at hj; simp at hj
        | condition _ _ h => exact h
        | noEndIf x _ h => rw [hb] at h; cases h
    | true =>
      simp only [Bool.true_and, decide_eq_true_eq, if_true]
      by_cases hend : seek isEndIf code ip < code.length
      · rw [if_pos hend]
        refine iff_of_false (fu_pure _) ?_
        intro h
        cases h with
        | value j hj h _ => rw [hcalc] at hj; simp at hj
        | condition _ h _ => rw [hb] at h; cases h
        | noEndIf x _ _ h =>
          refine (seek_end (stop := isEndIf) (code := code) (i := ip) (by omega)).mpr ?_ hend
          intro y hy
          exact isEndIf_false.mpr ((hnone _).mp h y hy)
      · rw [if_neg hend, fu_value_only hd _ (fun v => fu_ite (fu_pure _) (fu_pure _))]
        rw [seek_end (by omega)] at hend
        constructor
        · intro h
          exact .noEndIf _ hop hb ((hnone _).mpr fun y hy => isEndIf_false.mp (hend y hy)) (by rw [hleft]; exact hlast) h
        · intro h
          cases h with
          | value j hj h _ => rw [hcalc] at hj; simp at hj
          | condition _ h _ => rw [hb] at h; cases h
          | noEndIf x _ _ _ hx h => rw [hleft, hlast] at hx; cases hx; exact h
  case «else» =>
    refine iff_of_false ?_ (hang_none (by rw [hop]; simp) (by unfold calculations; rw [hop]))
    exact fu_ite (fu_ite (fu_pure _) (fu_pure _)) (fu_pure _)
  case endLoop =>
    exact iff_of_false (fu_quiet fun a => fu_pure _) (hang_none (by rw [hop]; simp) (by unfold calculations; rw [hop]))
  case loop =>
    exact iff_of_false (fu_pure _) (hang_none (by rw [hop]; simp) (by unfold calculations; rw [hop]))
  case endIf =>
    exact iff_of_false (fu_pure _) (hang_none (by rw [hop]; simp) (by unfold calculations; rw [hop]))
  case goToLayout | setVariable | setField | showCustomDialog | assert =>
    dsimp only
    rw [fu_bind, fu_effect hd (by rw [hop]; simp) (by rw [hop]; simp),
      hang_one (by rw [hop]; simp) (by unfold calculations; rw [hop])]
    unfold calculations
    rw [hop]
    simp [fu_pure]
  all_goals
    dsimp only
    rw [fu_bind, fu_effect hd (by rw [hop]; simp) (by rw [hop]; simp)]
    refine iff_of_false ?_ (hang_none (by rw [hop]; simp) (by unfold calculations; rw [hop]))
    unfold calculations
    rw [hop]
    simp [fu_pure]

theorem fu_step {u : Vm} {s : ScriptStep} (hat : AtStep scripts u s) :
    u.step ev p scripts = .error .fuel ↔ HangReason ev scripts u s := by
  obtain ⟨name, ip, below, hu, hc⟩ := hat
  unfold Vm.step
  rw [hu]
  dsimp only
  rw [hc]
  exact fu_exec hu hc

end

section
variable [Rt]

theorem trueCalc_fuel {env : CalcEnv} {s : Str} : trueCalc env s = .error .fuel ↔ ∀ fuel, evalCalc env fuel s = .error .fuel := by
  constructor
  · intro h fuel
    unfold trueCalc at h
    split at h
    · cases h
    · rename_i h1
      split at h
      · cases h
      · rename_i h2
        cases he : evalCalc env fuel s with
        | ok v => exact absurd ⟨v, (Props.text_means_exact env s v).mp ⟨fuel, he⟩⟩ h1
        | error e =>
          cases e with
          | fuel => rfl
          | panic r => exact absurd ((Props.text_crashes_exact env s).mp ⟨fuel, r, he⟩) h2
  · intro h
    unfold trueCalc
    split
    · rename_i h1
      obtain ⟨v, hv⟩ := h1
      obtain ⟨f, hf⟩ := (Props.text_means_exact env s v).mpr hv
      rw [h f] at hf; cases hf
    · split
      · rename_i h2
        obtain ⟨f, r, hf⟩ := (Props.text_crashes_exact env s).mpr h2
        rw [h f] at hf; cases hf
      · rfl

theorem never_found (u : Vm) (s : ScriptStep) (i : Nat) :
    ∃ N, ∀ fuel, N ≤ fuel → (NeverValued (fun env => evalCalc env fuel) u s i ↔ NeverValued trueCalc u s i) := by
  by_cases h : NeverValued trueCalc u s i
  · refine ⟨0, fun fuel _ => iff_of_true ?_ h⟩
    obtain ⟨c, hc, hx⟩ := h
    exact ⟨c, hc, trueCalc_fuel.mp hx fuel⟩
  · cases hc : s.switches[i]? with
    | none =>
      refine ⟨0, fun fuel _ => iff_of_false ?_ h⟩
      rintro ⟨c, hc', -⟩
      rw [hc] at hc'; cases hc'
    | some c =>
      have h' : u.world.eval trueCalc u.frames.length c ≠ .error .fuel := fun hx => h ⟨c, hc, hx⟩
      unfold World.eval at h'
      rw [Ne, trueCalc_fuel] at h'
      obtain ⟨N, hN⟩ := Classical.not_forall.mp h'
      refine ⟨N, fun fuel hf => iff_of_false ?_ h⟩
      rintro ⟨c', hc', hx⟩
      rw [hc] at hc'; cases hc'
      unfold World.eval at hx
      rcases evalCalc_mono hf _ _ with e | e
      · exact hN e
      · exact hN (e.trans hx)

theorem hang_congr {ev ev' : Calculator} {scripts : HMap FScript} {u : Vm} {s : ScriptStep}
    (h0 : ∀ i, i ≤ 1 → NeverValued ev u s i → NeverValued ev' u s i) (hv : ∀ x, HasValue ev u s 0 x → HasValue ev' u s 0 x)
    (hl : ∀ y, (stepsLeft scripts u).getLast? = some y → NeverValued ev u y 0 → NeverValued ev' u y 0)
    (h : HangReason ev scripts u s) : HangReason ev' scripts u s := by
  have hle : ∀ i ∈ calculations s, i ≤ 1 := by
    intro i hi
    unfold calculations at hi
    split at hi
    all_goals first | (exact absurd hi List.not_mem_nil) | (simp at hi; omega) | (split at hi <;> simp at hi <;> omega)
  cases h with
  | value i hi h hb =>
    refine .value i hi (h0 i (hle i hi) h) ?_
    intro j hj hlt
    obtain rfl : j = 0 := by have := hle i hi; omega
    obtain ⟨x, hx⟩ := hb 0 hj hlt
    exact ⟨x, hv x hx⟩
  | condition h1 h2 h3 => exact .condition h1 h2 (h0 0 (by omega) h3)
  | noEndIf x h1 h2 h3 h4 h5 => exact .noEndIf x h1 h2 h3 h4 (hl x h4 h5)

theorem hang_found (scripts : HMap FScript) (u : Vm) (s : ScriptStep) :
    ∃ N, ∀ fuel, N ≤ fuel → (HangReason (fun env => evalCalc env fuel) scripts u s ↔ HangReason trueCalc scripts u s) := by
  obtain ⟨a, ha⟩ := never_found u s 0
  obtain ⟨b, hb⟩ := never_found u s 1
  obtain ⟨c, hc⟩ := value_found u s 0
  have hd : ∃ N, ∀ fuel, N ≤ fuel → ∀ y, (stepsLeft scripts u).getLast? = some y →
      (NeverValued (fun env => evalCalc env fuel) u y 0 ↔ NeverValued trueCalc u y 0) := by
    cases hl : (stepsLeft scripts u).getLast? with
    | none => exact ⟨0, fun _ _ y hy => by cases hy⟩
    | some y =>
      obtain ⟨N, hN⟩ := never_found u y 0
      refine ⟨N, fun fuel hf z hz => ?_⟩
      cases hz
      exact hN fuel hf
  obtain ⟨d, hd⟩ := hd
  refine ⟨max (max a b) (max c d), fun fuel hf => ?_⟩
  have h01 : ∀ i, i ≤ 1 → (NeverValued (fun env => evalCalc env fuel) u s i ↔ NeverValued trueCalc u s i) := by
    intro i hi
    match i, hi with
    | 0, _ => exact ha fuel (by omega)
    | 1, _ => exact hb fuel (by omega)
  constructor
  · exact hang_congr (fun i hi => (h01 i hi).mp) (fun x => value_true) (fun y hy => (hd fuel (by omega) y hy).mp)
  · exact hang_congr (fun i hi => (h01 i hi).mpr) (fun x => hc fuel (by omega) x) (fun y hy => (hd fuel (by omega) y hy).mpr)

variable {p : Profile} {scripts : HMap FScript}

/-- A step that never ends does not end within any bound. -/
theorem step_hangs {u : Vm} {s : ScriptStep} (hat : AtStep scripts u s) (h : HangReason trueCalc scripts u s) (fuel : Nat) :
    u.step (fun env => evalCalc env fuel) p scripts = .error .fuel := by
  obtain ⟨N, hN⟩ := hang_found scripts u s
  have h1 := (fu_step (p := p) hat).mpr ((hN (max fuel N) (by omega)).mpr h)
  rcases step_leF (evalCalc_mono (Nat.le_max_left fuel N)) p scripts u with e | e
  · exact e
  · exact e.trans h1

theorem next_true {u v : Vm} {fuel : Nat} (h : NextState (fun env => evalCalc env fuel) p scripts u v) :
    NextState trueCalc p scripts u v := by
  cases h with
  | step hf hs hd => exact .step hf hs (step_does_mono (fun _ => value_true) (fun _ => value_true) (fun _ _ _ => value_true) hd)
  | «return» hf hfr hs => exact .return hf hfr hs

theorem next_found {u v : Vm} (h : NextState trueCalc p scripts u v) :
    ∃ N, ∀ fuel, N ≤ fuel → NextState (fun env => evalCalc env fuel) p scripts u v := by
  cases h with
  | step hf hs hd =>
    obtain ⟨N, hN⟩ := step_found hd
    exact ⟨N, fun fuel h => .step hf hs (hN fuel h)⟩
  | «return» hf hfr hs => exact ⟨0, fun _ _ => .return hf hfr hs⟩

/-- A step with a reason to stop that is no reason never to end crashes. -/
theorem step_crashes {u : Vm} {s : ScriptStep} (hf : u.world.failed = false) (hat : AtStep scripts u s)
    (hn : ¬∃ v, NextState trueCalc p scripts u v) (h : ¬HangReason trueCalc scripts u s) :
    ∃ N, ∀ fuel, N ≤ fuel → ∃ r, u.step (fun env => evalCalc env fuel) p scripts = .error (.panic r) := by
  obtain ⟨N, hN⟩ := hang_found scripts u s
  refine ⟨N, fun fuel hfu => ?_⟩
  have hfr : u.frames ≠ [] := by obtain ⟨name, ip, below, hu, -⟩ := hat; rw [hu]; simp
  cases hs : u.step (fun env => evalCalc env fuel) p scripts with
  | ok v => exact absurd ⟨v, next_true (nextState_iff.mpr ⟨hf, hfr, hs⟩)⟩ hn
  | error e =>
    cases e with
    | fuel => exact absurd ((hN fuel hfu).mp ((fu_step hat).mp hs)) h
    | panic r => exact ⟨r, rfl⟩

theorem running_of {u : Vm} (hf : u.world.failed = false) (hfr : u.frames ≠ []) : u.running = true := by
  unfold Vm.running
  rw [hf]
  simpa using hfr

theorem later_crashes {u v : Vm} (h : Later trueCalc p scripts u v) (hf : v.world.failed = false) (hfr : v.frames ≠ [])
    (hc : ∃ N, ∀ fuel, N ≤ fuel → ∃ r, v.step (fun env => evalCalc env fuel) p scripts = .error (.panic r)) :
    ∃ N, ∀ fuel, N ≤ fuel → ∃ n r, u.run (fun env => evalCalc env fuel) p scripts n = .error (.panic r) := by
  induction h with
  | here =>
    obtain ⟨N, hN⟩ := hc
    refine ⟨N, fun fuel h => ?_⟩
    obtain ⟨r, hr⟩ := hN fuel h
    refine ⟨1, r, ?_⟩
    rw [Vm.run, if_pos (running_of hf hfr), hr]
    rfl
  | next hn _ ih =>
    obtain ⟨N, hN⟩ := ih hf hfr hc
    obtain ⟨M, hM⟩ := next_found hn
    refine ⟨max N M, fun fuel h => ?_⟩
    obtain ⟨n, r, hr⟩ := hN fuel (by omega)
    obtain ⟨h1, h2, h3⟩ := nextState_iff.mp (hM fuel (by omega))
    refine ⟨n + 1, r, ?_⟩
    rw [Vm.run, if_pos (running_of h1 h2), h3]
    exact hr

theorem later_hangs {u v : Vm} (h : Later trueCalc p scripts u v) (hf : v.world.failed = false) (hfr : v.frames ≠ []) (fuel : Nat)
    (hc : v.step (fun env => evalCalc env fuel) p scripts = .error .fuel) (n : Nat) :
    u.run (fun env => evalCalc env fuel) p scripts n = .error .fuel := by
  induction h generalizing n with
  | here =>
    cases n with
    | zero => rw [Vm.run, if_pos (running_of hf hfr)]
    | succ n => rw [Vm.run, if_pos (running_of hf hfr), hc]; rfl
  | next hn _ ih =>
    obtain ⟨h1, h2, -⟩ := nextState_iff.mp hn
    cases n with
    | zero => rw [Vm.run, if_pos (running_of h1 h2)]
    | succ n =>
      rw [Vm.run, if_pos (running_of h1 h2)]
      rcases step_bounded fuel hn with e | e
      · rw [e]; rfl
      · rw [e]; exact ih hf hfr hc n

theorem tests_crash {ts : List FTest} {u v : Vm} (h : TestsCome trueCalc p scripts ts u v) (hf : v.world.failed = false)
    (hfr : v.frames ≠ [])
    (hc : ∃ N, ∀ fuel, N ≤ fuel → ∃ r, v.step (fun env => evalCalc env fuel) p scripts = .error (.panic r)) :
    ∃ N, ∀ fuel, N ≤ fuel → ∃ n r, u.runTests (fun env => evalCalc env fuel) p scripts n ts = .error (.panic r) := by
  induction h with
  | here h =>
    obtain ⟨N, hN⟩ := later_crashes h hf hfr hc
    refine ⟨N, fun fuel h => ?_⟩
    obtain ⟨n, r, hr⟩ := hN fuel h
    refine ⟨n, r, ?_⟩
    unfold begun at hr
    rw [Vm.runTests]
    unfold Vm.loadTest
    rw [hr]; rfl
  | later h1 _ ih =>
    obtain ⟨N, hN⟩ := ih hf hfr hc
    obtain ⟨M, hM⟩ := run_found h1
    refine ⟨max N M, fun fuel h => ?_⟩
    obtain ⟨n, r, hr⟩ := hN fuel (by omega)
    obtain ⟨m, hm⟩ := (Props.run_exact _ p scripts _ _).mpr (hM fuel (by omega))
    refine ⟨max n m, r, ?_⟩
    have e1 := run_mono hm (Nat.le_max_right n m)
    have e2 := LeF.eq (runTests_leF (evalCalc_mono (Nat.le_refl fuel)) p scripts (Nat.le_max_left n m) _ _) (by rw [hr]; simp)
    unfold begun at e1
    rw [Vm.runTests]
    unfold Vm.loadTest
    rw [e1, ev_ok_bind, ← e2, hr]; rfl

theorem tests_hang {ts : List FTest} {u v : Vm} (h : TestsCome trueCalc p scripts ts u v) (hf : v.world.failed = false)
    (hfr : v.frames ≠ []) (fuel : Nat) (hc : v.step (fun env => evalCalc env fuel) p scripts = .error .fuel) (n : Nat) :
    u.runTests (fun env => evalCalc env fuel) p scripts n ts = .error .fuel := by
  induction h with
  | here h =>
    have := later_hangs h hf hfr fuel hc n
    unfold begun at this
    rw [Vm.runTests]
    unfold Vm.loadTest
    rw [this]; rfl
  | later h1 _ ih =>
    rw [Vm.runTests]
    have := runOf_bounded fuel n h1
    unfold begun at this
    unfold Vm.loadTest
    rcases this with e | e
    · rw [e]; rfl
    · rw [e, ev_ok_bind, ih hf hfr hc]; rfl

end

section
variable {ev : Calculator} {p : Profile} {scripts : HMap FScript} {file : FmpFile} {start : Vm}

theorem later_testRun {ts : List FTest} {u v : Vm} (h : TestRun ev p scripts ts start u) (hl : Later ev p scripts u v) :
    TestRun ev p scripts ts start v := by
  induction hl with
  | here => exact h
  | next hn _ ih => exact ih (testRun_next h hn)

theorem come_testRun {all ts : List FTest} {u v : Vm} (hl : ∀ t ∈ ts, t ∈ all) (h : TestRun ev p scripts all start u)
    (hc : TestsCome ev p scripts ts u v) : TestRun ev p scripts all start v := by
  induction hc with
  | @here t ts u v hc => exact later_testRun (.load h (hl t (by simp))) hc
  | @later t ts u v w hr _ ih =>
    exact ih (fun x hx => hl x (by simp [hx])) (testRun_runOf (.load h (hl t (by simp))) hr)

/-- Breaking off is coming to a step with a reason to stop. -/
theorem breaks_later {u : Vm} (h : Breaks ev p scripts u) :
    ∃ v s, Later ev p scripts u v ∧ v.world.failed = false ∧ AtStep scripts v s ∧ StopReason ev p scripts v s := by
  induction h with
  | here hf hs hr => exact ⟨_, _, .here, hf, hs, hr⟩
  | later hn _ ih =>
    obtain ⟨v, s, h1, h2⟩ := ih
    exact ⟨v, s, .next hn h1, h2⟩

theorem testsBreak_come {ts : List FTest} {u : Vm} (h : TestsBreak ev p scripts ts u) :
    ∃ v s, TestsCome ev p scripts ts u v ∧ v.world.failed = false ∧ AtStep scripts v s ∧ StopReason ev p scripts v s := by
  induction h with
  | here h =>
    obtain ⟨v, s, h1, h2⟩ := breaks_later h
    exact ⟨v, s, .here h1, h2⟩
  | later hr _ ih =>
    obtain ⟨v, s, h1, h2⟩ := ih
    exact ⟨v, s, .later hr h1, h2⟩

theorem break_crash_or_hang {ts : List FTest} {u : Vm} (h : TestsBreak ev p scripts ts u) :
    TestsCrash ev p scripts ts u ∨ TestsHang ev p scripts ts u := by
  obtain ⟨v, s, h1, h2, h3, h4⟩ := testsBreak_come h
  by_cases hh : HangReason ev scripts v s
  · exact .inr ⟨v, s, h1, h2, h3, hh⟩
  · exact .inl ⟨v, s, h1, h2, h3, h4, hh⟩

end

end BurnFm
