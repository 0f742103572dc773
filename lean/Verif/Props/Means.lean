import Verif.Proofs.Means

/-! Property C136: the value of a calculation, exactly. -/

namespace BurnFm.Props
open Spec

/-- C136: the calculator gives an expression the value it has, and no other. -/
theorem calculation_value_exact [Rt] (env : CalcEnv) (e : Node Rt.F) (v : Str) :
    (∃ fuel, evalNode env fuel e = .ok v) ↔ Means env e v := by
  constructor
  · rintro ⟨n, h⟩
    have hg := given_of_mono (fun n => evalNode_mono env n e) h
    rcases means_total (env := env) e with ⟨w, hw⟩ | ⟨k, hk⟩
    · rwa [given_unique hg (given_means e hw)]
    · exact (given_not_ended hg (ended_fails e hk)).elim
  · intro h
    obtain ⟨⟨n, hn⟩, _⟩ := given_means e h
    exact ⟨n, hn n (Nat.le_refl n)⟩

/-- C136: the calculator crashes exactly for the reasons of the specification. -/
theorem calculation_crashes_exact [Rt] (env : CalcEnv) (e : Node Rt.F) :
    (∃ fuel p, evalNode env fuel e = .error (.panic p)) ↔ Fails env .crash e := by
  constructor
  · rintro ⟨n, p, h⟩
    have hc := crash_of_mono (fun n => evalNode_mono env n e) h
    rcases means_total (env := env) e with ⟨w, hw⟩ | ⟨k, hk⟩
    · exact (given_not_ended (given_means e hw) hc).elim
    · cases k with
      | crash => exact hk
      | endless => exact (crash_not_endless hc (ended_fails e hk)).elim
  · intro h
    obtain ⟨n, p, hn⟩ := ended_fails e h
    exact ⟨n, p, hn n (Nat.le_refl n)⟩

/-- C136: the calculator never ends exactly if it comes to a name that leads into a circle. -/
theorem calculation_endless_exact [Rt] (env : CalcEnv) (e : Node Rt.F) :
    (∀ fuel, evalNode env fuel e = .error .fuel) ↔ Fails env .endless e := by
  constructor
  · intro h
    rcases means_total (env := env) e with ⟨w, hw⟩ | ⟨k, hk⟩
    · exact (given_not_ended (k := .endless) (given_means e hw) h).elim
    · cases k with
      | crash => exact (crash_not_endless (ended_fails e hk) h).elim
      | endless => exact hk
  · intro h; exact ended_fails e h

/-- C136: every expression has exactly one value, or crashes, or never ends, and only one of these. -/
theorem calculation_one_of_three [Rt] (env : CalcEnv) (e : Node Rt.F) :
    (∃! v, Means env e v) ∧ (∀ k, ¬Fails env k e) ∨
    (∀ v, ¬Means env e v) ∧ ∃ k, Fails env k e ∧ ∀ k', Fails env k' e → k' = k := by
  rcases means_total (env := env) e with ⟨v, hv⟩ | ⟨k, hk⟩
  · exact .inl ⟨⟨v, hv, fun w hw => given_unique (given_means e hw) (given_means e hv)⟩,
      fun k hk => given_not_ended (given_means e hv) (ended_fails e hk)⟩
  · refine .inr ⟨fun v hv => given_not_ended (given_means e hv) (ended_fails e hk), k, hk, fun k' hk' => ?_⟩
    cases k <;> cases k'
    · rfl
    · exact (crash_not_endless (ended_fails e hk) (ended_fails e hk')).elim
    · exact (crash_not_endless (ended_fails e hk') (ended_fails e hk)).elim
    · rfl

/-- C136: a name stands for no value exactly if it leads to a name that cannot be looked up, or into a circle. -/
theorem name_without_value_iff (env : CalcEnv) (s : Str) :
    (∀ v b, ¬Resolves env s v b) ↔ (∃ t, LeadsTo env s t ∧ DeadEnd env t) ∨
      ∃ t u, LeadsTo env s t ∧ StoredUnder env t u ∧ LeadsTo env u t := by
  constructor
  · intro h
    rcases operand_total env s with ⟨v, b, hv⟩ | ⟨k, hk⟩
    · exact absurd hv (h v b)
    · cases k with
      | crash => exact .inl hk
      | endless => exact .inr hk
  · rintro (h | h) v b hv
    · exact given_not_ended (k := .crash) (given_operand hv) (ended_operand (k := .crash) h)
    · exact given_not_ended (k := .endless) (given_operand hv) (ended_operand (k := .endless) h)

/-- C136 for calculations as they are written: the value of a text is the value of the expression it is read as. -/
theorem text_value_exact [Rt] (env : CalcEnv) (s v : Str) :
    (∃ fuel, evalCalc env fuel s = .ok v) ↔ ∃ e, ReadAs s e ∧ Means env e v := by
  constructor
  · rintro ⟨n, h⟩
    unfold evalCalc at h
    obtain ⟨ts, h1, h⟩ := ev_bind_ok.mp h
    obtain ⟨e, h2, h3⟩ := ev_bind_ok.mp h
    exact ⟨e, ⟨ts, n, liftR_ok.mp h1, h2⟩, (calculation_value_exact env e v).mp ⟨n, h3⟩⟩
  · rintro ⟨e, ⟨ts, n, h1, h2⟩, h3⟩
    obtain ⟨m, h3⟩ := (calculation_value_exact env e v).mpr h3
    refine ⟨max n m, ?_⟩
    unfold evalCalc
    have e1 := (parseCalc_mono ts (Nat.le_max_left n m)).eq (by rw [h2]; nofun)
    have e2 := (mono_le (x := fun f => evalNode env f e) (fun f => evalNode_mono env f e) (Nat.le_max_right n m)).eq
      (by show evalNode env m e ≠ _; rw [h3]; nofun)
    have e2 : evalNode env m e = evalNode env (max n m) e := e2
    rw [h1, liftR_ok.mpr rfl, ev_ok_bind, ← e1, h2, ev_ok_bind, ← e2, h3]

/-- C136: a text has no value exactly if it cannot be read, or is read as an expression that has none. -/
theorem text_without_value_iff [Rt] (env : CalcEnv) (s : Str) :
    (∀ fuel v, evalCalc env fuel s ≠ .ok v) ↔ (∀ e, ¬ReadAs s e) ∨ ∃ e k, ReadAs s e ∧ Fails env k e := by
  constructor
  · intro h
    by_cases hr : ∃ e, ReadAs s e
    · obtain ⟨e, hr⟩ := hr
      rcases means_total (env := env) e with ⟨v, hv⟩ | ⟨k, hk⟩
      · obtain ⟨n, hn⟩ := (text_value_exact env s v).mpr ⟨e, hr, hv⟩
        exact absurd hn (h n v)
      · exact .inr ⟨e, k, hr, hk⟩
    · exact .inl (fun e he => hr ⟨e, he⟩)
  · intro h n v hv
    obtain ⟨e, hr, hm⟩ := (text_value_exact env s v).mp ⟨n, hv⟩
    rcases h with h | ⟨e', k, hr', hk⟩
    · exact h e hr
    · obtain ⟨ts, f, h1, h2⟩ := hr
      obtain ⟨ts', f', h1', h2'⟩ := hr'
      rw [h1] at h1'; cases h1'
      have e1 := (parseCalc_mono ts (Nat.le_max_left f f')).eq (by rw [h2]; nofun)
      have e2 := (parseCalc_mono ts (Nat.le_max_right f f')).eq (by rw [h2']; nofun)
      have : Except.ok e = (Except.ok e' : Ev (Node Rt.F)) := by rw [← h2, ← h2', e1, e2]
      cases this
      exact given_not_ended (given_means e hm) (ended_fails e hk)

/-- Where a script is running, there is a current record, and everything stored is empty, a number or a text in quotes, every name
stands for a value. -/
theorem names_have_values (env : CalcEnv) (ha : Active env) (hrec : ∀ f, ∃ t, CurrentValue env.db f t)
    (hs : ∀ s t, StoredUnder env s t → t = [] ∨ isFloatText t = true ∨ isQuoted t = true) (he : varValue env [] = none) (k : Ending) (s : Str) : ¬Lost env k s := by
  cases k with
  | crash =>
    rintro ⟨t, _, h⟩
    cases h with
    | field _ _ _ h => obtain ⟨v, hv⟩ := hrec _; exact h v hv
    | var _ _ _ h => exact h ha
  | endless =>
    rintro ⟨t, u, _, h1, h2⟩
    have settled : ∀ {a b : Str}, (a = [] ∨ isFloatText a = true ∨ isQuoted a = true) → ¬StoredUnder env a b := by
      intro a b ha hb
      cases hb with
      | field h1 h2 h3 =>
        rw [h1, h2] at ha
        rcases ha with rfl | h | h
        · cases h3
        · cases h
        · cases h
      | var h1 h2 _ h4 =>
        rw [h1, h2] at ha
        rcases ha with rfl | h | h
        · rw [he] at h4; cases h4
        · cases h
        · cases h
    have hu := hs t u h1
    cases h2 with
    | here => exact settled hu h1
    | next h _ => exact settled hu h

/-- C136: in a running script with a current record, where everything stored is empty, a number or a text in quotes, every expression
without function calls has a value. (No variable may have an empty name.) -/
theorem expression_has_value [Rt] (env : CalcEnv) (ha : Active env) (hrec : ∀ f, ∃ t, CurrentValue env.db f t)
    (hs : ∀ s t, StoredUnder env s t → t = [] ∨ isFloatText t = true ∨ isQuoted t = true) (hn : varValue env [] = none)
    (e : Node Rt.F) (he : Expression e) : ∃ fuel v, evalNode env fuel e = .ok v := by
  have hl := names_have_values env ha hrec hs hn
  have key : ∀ k, ¬Fails env k e := by
    induction he with
    | number => intro k h; cases h
    | «variable» => intro k h; cases h with | «variable» h => exact hl k _ h
    | field => intro k h; cases h with | field h => exact hl k _ h
    | string => intro k h; cases h
    | arith hop _ _ ih1 ih2 =>
      intro k h
      cases h with
      | arithmeticLeft h => exact ih1 k h
      | arithmeticRight _ h => exact ih2 k h
      | operandLeft _ _ h => exact hl k _ h
      | operandRight _ _ _ h => exact hl k _ h
      | noArithmetic h => exact h hop
    | concatenate _ _ ih1 ih2 =>
      intro k h
      cases h with
      | concatenationLeft h => exact ih1 k h
      | concatenationRight _ h => exact ih2 k h
    | compare hop _ _ ih1 ih2 =>
      intro k h
      cases h with
      | noComparison h => exact h hop
      | comparisonLeft _ h => exact ih1 k h
      | comparisonRight _ _ h => exact ih2 k h
  rcases means_total (env := env) e with ⟨v, hv⟩ | ⟨k, hk⟩
  · obtain ⟨n, hn⟩ := (calculation_value_exact env e v).mpr hv
    exact ⟨n, v, hn⟩
  · exact absurd hk (key k)

/-! ### Cases that meet the hypotheses -/

/-- A running script with `x` = 5, `a` = b and `b` = a, and a table with one record. -/
def meansEnv : CalcEnv where
  db := { tables := [{ name := t!"Pet", fields := [⟨t!"Name", [t!"\"Rex\""]⟩] }], occs := [{ foundSet := [0] }] }
  depth := 1
  vars := [[(t!"x", t!"5"), (t!"a", t!"b"), (t!"b", t!"a")]]

theorem meansEnv_x : Resolves meansEnv t!"x" t!"5" true :=
  .var (by decide) (by decide) (by intro o f h; simp [splitCC] at h) rfl (.number (by decide))

theorem meansEnv_name : Resolves meansEnv t!"Pet::Name" t!"\"Rex\"" false :=
  .field (by decide) (by decide) (by simp [splitCC]; exact ⟨rfl, rfl⟩)
    ⟨_, _, _, rfl, rfl, rfl, .inr ⟨⟨t!"Name", [t!"\"Rex\""]⟩, rfl, rfl⟩⟩ (.quoted (by decide) (by decide))

/-- `x & Pet::Name` is "5Rex", `Min(x; Pet::Name)` is the name. -/
example [Rt] : Means meansEnv (.concatenation (.variable t!"x") (.field t!"Pet::Name")) t!"\"5Rex\"" :=
  .concatenation (.variable meansEnv_x) (.field meansEnv_name)

example [Rt] : Means meansEnv (.call t!"Min" [.variable t!"x", .field t!"Pet::Name"]) t!"\"Rex\"" :=
  .min (.variable meansEnv_x) (.take (.field meansEnv_name)
    (.texts (a := t!"5") (b := t!"\"Rex\"") (n := true) (m := false) (.number (by decide)) (.quoted (by decide) (by decide)) rfl) .done)

/-- `x + Pet::Name` is undefined. -/
example [Rt] : Means meansEnv (.binary (.variable t!"x") .plus (.field t!"Pet::Name")) t!"undefined" :=
  .undefined (by decide) (.variable meansEnv_x) (.field meansEnv_name) (.number (by decide)) (.quoted (by decide) (by decide)) rfl

/-- `a` never ends, `Abs(Pet::Name)` crashes, and so does a field if there is no record. -/
example [Rt] : Fails meansEnv .endless (.variable t!"a") :=
  .variable ⟨t!"a", t!"b", .here, .var (by decide) (by decide) (by intro o f h; simp [splitCC] at h) rfl,
    .next (.var (by decide) (by decide) (by intro o f h; simp [splitCC] at h) rfl) .here⟩

example [Rt] : Fails meansEnv .crash (.call t!"Abs" [.field t!"Pet::Name"]) :=
  .noNumber (by decide) (.field meansEnv_name) (by decide)

example [Rt] (x : Rt.F) : Fails { db := {}, depth := 0, vars := [] } .crash (.binary (.number x) .plus (.field t!"Pet::Name")) :=
  .arithmeticRight .number (.field ⟨_, .here, .field (by decide) (by decide) (by simp [splitCC]; exact ⟨rfl, rfl⟩)
    (by rintro t ⟨o, _, _, h, _⟩; cases h)⟩)

/-- A state in which `expression_has_value` applies. -/
example [Rt] : ∃ fuel v, evalNode { meansEnv with vars := [[(t!"x", t!"5")]] } fuel
    (.binary (.variable t!"x") .plus (.comparison (.field t!"Pet::Name") .lt (.variable t!"y"))) = .ok v := by
  have hst : ∀ t ∈ storedTexts { meansEnv with vars := [[(t!"x", t!"5")]] },
      t = [] ∨ isFloatText t = true ∨ isQuoted t = true := by decide
  refine expression_has_value _ ⟨0, _, rfl, rfl⟩ ?_ (fun s t h => hst t (stored_mem h)) rfl _ (.arith (by decide)
    (.variable (by decide)) (.compare (by decide) (.field (t := t!"Pet") (f := t!"Name") (by decide) (by decide))
      (.variable (by decide))))
  intro f
  by_cases hf : t!"Name" = f
  · exact ⟨_, _, { name := t!"Pet", fields := [⟨t!"Name", [t!"\"Rex\""]⟩] }, _, rfl, rfl, rfl,
      .inr ⟨⟨t!"Name", [t!"\"Rex\""]⟩, by simp [hf], rfl⟩⟩
  · exact ⟨[], _, { name := t!"Pet", fields := [⟨t!"Name", [t!"\"Rex\""]⟩] }, _, rfl, rfl, rfl, .inl ⟨by simp [hf], rfl⟩⟩

end BurnFm.Props
