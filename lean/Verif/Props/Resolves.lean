import Verif.Spec.Resolves
import Verif.Props.CalcEval

/-! C45 and C46, exactly: what references evaluate to. -/

namespace BurnFm.Props
open Spec

theorem currentValue_iff (db : Database) (f v : Str) : db.foundSetRecordField f = .ok v ↔ CurrentValue db f v := by
  unfold Database.foundSetRecordField Database.currentTable Database.currentOcc CurrentValue
  constructor
  · intro h
    obtain ⟨o, h1, h⟩ := bind_ok.mp h
    obtain ⟨t, h2, h⟩ := bind_ok.mp h
    obtain ⟨r, h3, h⟩ := bind_ok.mp h
    obtain ⟨o', h1', h2⟩ := bind_ok.mp h2
    rw [h1] at h1'; cases h1'
    refine ⟨o, t, r, idx_ok.mp h1, idx_ok.mp h2, idx_ok.mp h3, ?_⟩
    cases hf : t.fields.find? (fun x => x.name == f) with
    | none => rw [hf] at h; cases h; exact .inl ⟨rfl, rfl⟩
    | some g => rw [hf] at h; exact .inr ⟨g, rfl, idx_ok.mp h⟩
  · rintro ⟨o, t, r, h1, h2, h3, h⟩
    simp only [idx_of h1, ok_bind, idx_of h2, idx_of h3]
    rcases h with ⟨hf, rfl⟩ | ⟨g, hf, hv⟩
    · rw [hf]; rfl
    · rw [hf]; exact idx_of hv

/-- C45 and C46, exactly: a text evaluates as an operand to the value it stands for, and to nothing else. -/
theorem operand_exact (env : CalcEnv) (s v : Str) (b : Bool) :
    (∃ fuel, operandVal env fuel s = .ok ⟨v, b⟩) ↔ Resolves env s v b := by
  constructor
  · rintro ⟨fuel, h⟩
    induction fuel generalizing s with
    | zero => cases h
    | succ n ih =>
      rw [operandVal] at h
      by_cases h1 : isFloatText s = true
      · rw [if_pos h1] at h
        cases h
        exact .number h1
      · rw [if_neg h1] at h
        rw [Bool.not_eq_true] at h1
        by_cases h2 : isQuoted s = true
        · rw [if_pos h2] at h
          cases h
          exact .quoted h1 h2
        · rw [if_neg h2] at h
          rw [Bool.not_eq_true] at h2
          split at h
          · rename_i occ f hs
            obtain ⟨w, hw, h⟩ := ev_bind_ok.mp h
            exact .field h1 h2 hs ((currentValue_iff _ _ _).mp (liftR_ok.mp hw)) (ih w h)
          · rename_i hs
            have hs : ∀ occ f, splitCC s ≠ [occ, f] := fun occ f e => hs occ f e
            split at h
            · cases h
            · rename_i d hd
              obtain ⟨m, hm, h⟩ := ev_bind_ok.mp h
              have hm := idx_ok.mp (liftR_ok.mp hm)
              have hvar : varValue env s = SMap.get m s := by
                unfold varValue; rw [hd]; simp only; rw [hm]; rfl
              cases hg : SMap.get m s with
              | none =>
                rw [hg] at h
                cases h
                exact .unset h1 h2 hs ⟨d, m, hd, hm⟩ (by rw [hvar, hg])
              | some w =>
                rw [hg] at h
                exact .var h1 h2 hs (by rw [hvar, hg]) (ih w h)
  · intro h
    induction h with
    | number h => exact ⟨1, by rw [operandVal, if_pos h]; rfl⟩
    | quoted h1 h2 => exact ⟨1, by rw [operandVal, if_neg (by rw [h1]; decide), if_pos h2]; rfl⟩
    | field h1 h2 hs hv _ ih =>
      obtain ⟨n, hn⟩ := ih
      refine ⟨n + 1, ?_⟩
      rw [operandVal, if_neg (by rw [h1]; decide), if_neg (by rw [h2]; decide), hs]
      simp only [(currentValue_iff _ _ _).mpr hv, liftR, ev_ok_bind]
      exact hn
    | @var s w v' b h1 h2 hs hv _ ih =>
      obtain ⟨n, hn⟩ := ih
      refine ⟨n + 1, ?_⟩
      rw [operandVal, if_neg (by rw [h1]; decide), if_neg (by rw [h2]; decide)]
      split
      · rename_i occ f e; exact absurd e (hs occ f)
      · unfold varValue at hv
        split at hv
        · cases hv
        · rename_i d hd
          rw [hd]
          simp only
          cases hm : env.vars[d]? with
          | none => rw [hm] at hv; cases hv
          | some m =>
            rw [hm] at hv
            simp only [Option.bind_some] at hv
            simp only [idx_of hm, liftR, ev_ok_bind, hv]
            exact hn
    | @unset s h1 h2 hs ha hv =>
      refine ⟨1, ?_⟩
      rw [operandVal, if_neg (by rw [h1]; decide), if_neg (by rw [h2]; decide)]
      split
      · rename_i occ f e; exact absurd e (hs occ f)
      · obtain ⟨d, m, hd, hm⟩ := ha
        unfold varValue at hv
        rw [hd] at hv ⊢
        simp only at hv ⊢
        rw [hm] at hv
        simp only [Option.bind_some] at hv
        simp only [idx_of hm, liftR, ev_ok_bind, hv]
        rfl

/-- C45, exactly: the value of a variable in a calculation. -/
theorem variable_exact [Rt] (env : CalcEnv) (x v : Str) :
    (∃ fuel, evalNode env fuel (.variable x) = .ok v) ↔ ∃ b, Resolves env x v b := by
  constructor
  · rintro ⟨fuel, h⟩
    rw [evalNode] at h
    obtain ⟨o, h1, h2⟩ := ev_bind_ok.mp h
    cases h2
    exact ⟨o.number, (operand_exact env x o.value o.number).mp ⟨fuel, h1⟩⟩
  · rintro ⟨b, h⟩
    obtain ⟨fuel, h⟩ := (operand_exact env x v b).mpr h
    exact ⟨fuel, by rw [evalNode, h]; rfl⟩

/-- C46, exactly: the value of a field reference in a calculation. -/
theorem field_exact [Rt] (env : CalcEnv) (x v : Str) :
    (∃ fuel, evalNode env fuel (.field x) = .ok v) ↔ ∃ b, Resolves env x v b := by
  constructor
  · rintro ⟨fuel, h⟩
    rw [evalNode] at h
    obtain ⟨o, h1, h2⟩ := ev_bind_ok.mp h
    cases h2
    exact ⟨o.number, (operand_exact env x o.value o.number).mp ⟨fuel, h1⟩⟩
  · rintro ⟨b, h⟩
    obtain ⟨fuel, h⟩ := (operand_exact env x v b).mpr h
    exact ⟨fuel, by rw [evalNode, h]; rfl⟩

/-- What a text stands for is unique. -/
theorem resolves_unique (env : CalcEnv) (s v v' : Str) (b b' : Bool) (h : Resolves env s v b) (h' : Resolves env s v' b') :
    v = v' ∧ b = b' := by
  obtain ⟨n, hn⟩ := (operand_exact env s v b).mpr h
  obtain ⟨m, hm⟩ := (operand_exact env s v' b').mpr h'
  have mono : ∀ (k : Nat) (s : Str) (o : Operand), operandVal env k s = .ok o → ∀ j, operandVal env (k + j) s = .ok o := by
    intro k
    induction k with
    | zero => intro s o h; cases h
    | succ k ih =>
      intro s o h j
      rw [show k + 1 + j = (k + j) + 1 by omega]
      rw [operandVal] at h ⊢
      split at h
      · rename_i h1; rw [if_pos h1]; exact h
      · rename_i h1
        rw [if_neg h1]
        split at h
        · rename_i h2; rw [if_pos h2]; exact h
        · rename_i h2
          rw [if_neg h2]
          generalize splitCC s = parts at h ⊢
          rcases parts with _ | ⟨a, _ | ⟨b, _ | ⟨c, rest⟩⟩⟩ <;> dsimp only at h ⊢
          case cons.cons.nil =>
            obtain ⟨w, hw, h⟩ := ev_bind_ok.mp h
            simp only [hw, ev_ok_bind]
            exact ih w o h j
          all_goals
            split at h
            · cases h
            · obtain ⟨ms, hm, h⟩ := ev_bind_ok.mp h
              simp only [hm, ev_ok_bind]
              split at h
              · exact h
              · rename_i w _; exact ih w o h j
  have e1 := mono n s _ hn m
  have e2 := mono m s _ hm n
  rw [Nat.add_comm m n, e1] at e2
  injection e2 with e2
  injection e2 with e3 e4
  exact ⟨e3, e4⟩

/-- `x` holds the text `y`, `y` holds 5: both are 5. -/
example : Resolves { db := {}, depth := 1, vars := [[(t!"x", t!"y"), (t!"y", t!"5")]] } t!"x" t!"5" true :=
  .var (by decide) (by decide) (by intro o f h; simp [splitCC] at h) rfl
    (.var (by decide) (by decide) (by intro o f h; simp [splitCC] at h) rfl (.number (by decide)))

end BurnFm.Props
