import Verif.Model.Calc

/-! Lemmas on computations with bounded recursion. -/

namespace BurnFm

theorem ev_bind_ok {α β : Type} {x : Ev α} {f : α → Ev β} {b : β} :
    (x >>= f) = .ok b ↔ ∃ a, x = .ok a ∧ f a = .ok b := by
  cases x with
  | error e => simp [bind, Except.bind]
  | ok a => simp [bind, Except.bind]

theorem ev_ok_bind {α β : Type} (a : α) (f : α → Ev β) : ((.ok a : Ev α) >>= f) = f a := rfl

theorem ev_error_bind {α β : Type} (e : Stop) (f : α → Ev β) : ((.error e : Ev α) >>= f) = .error e := rfl

theorem ev_pure {α : Type} (a : α) : (pure a : Ev α) = .ok a := rfl

theorem liftR_ok {α : Type} {x : Res α} {a : α} : liftR x = .ok a ↔ x = .ok a := by
  cases x <;> simp [liftR]

theorem liftR_ne_fuel {α : Type} (x : Res α) : liftR x ≠ .error .fuel := by
  cases x <;> simp [liftR]

theorem current_ne_fuel (ts : List Tok) (i : Nat) : current ts i ≠ .error .fuel := liftR_ne_fuel _

/-- `a` is what `b` is, or `a` ran out of fuel. -/
def LeF {α : Type} (a b : Ev α) : Prop := a = .error .fuel ∨ a = b

theorem LeF.rfl {α : Type} {a : Ev α} : LeF a a := .inr _root_.rfl

theorem LeF.fuel {α : Type} {a : Ev α} : LeF (.error .fuel) a := .inl _root_.rfl

theorem LeF.trans {α : Type} {a b c : Ev α} (h : LeF a b) (h' : LeF b c) : LeF a c := by
  rcases h with h | h
  · exact .inl h
  · subst h; exact h'

theorem LeF.bind {α β : Type} {a a' : Ev α} {k k' : α → Ev β} (h : LeF a a') (hk : ∀ x, LeF (k x) (k' x)) :
    LeF (a >>= k) (a' >>= k') := by
  rcases h with h | h
  · subst h; exact .inl _root_.rfl
  · subst h
    cases a with
    | error e => exact .inr _root_.rfl
    | ok x => exact hk x

theorem LeF.eq {α : Type} {a b : Ev α} (h : LeF a b) (hn : a ≠ .error .fuel) : a = b := by
  rcases h with h | h
  · exact absurd h hn
  · exact h

theorem bind_ne_fuel {α β : Type} {a : Ev α} {k : α → Ev β} (h : a ≠ .error .fuel)
    (hk : ∀ x, a = .ok x → k x ≠ .error .fuel) : (a >>= k) ≠ .error .fuel := by
  cases a with
  | error e => intro h'; rw [ev_error_bind] at h'; injection h' with h'; subst h'; exact h _root_.rfl
  | ok x => exact hk x _root_.rfl

/-- A fuel-indexed computation has the result `r` from some fuel on. -/
def Evals {α : Type} (x : Nat → Ev α) (r : Ev α) : Prop := ∃ n, ∀ f, n ≤ f → x f = r

theorem Evals.const {α : Type} (r : Ev α) : Evals (fun _ => r) r := ⟨0, fun _ _ => rfl⟩

theorem Evals.succ {α : Type} {x y : Nat → Ev α} {r : Ev α} (h : Evals y r) (hx : ∀ f, x (f + 1) = y f) :
    Evals x r := by
  obtain ⟨n, hn⟩ := h
  refine ⟨n + 1, fun f hf => ?_⟩
  obtain ⟨f, rfl⟩ : ∃ g, f = g + 1 := ⟨f - 1, by omega⟩
  rw [hx]; exact hn f (by omega)

theorem Evals.bind {α β : Type} {x : Nat → Ev α} {k : α → Nat → Ev β} {a : α} {r : Ev β}
    (h : Evals x (.ok a)) (hk : Evals (k a) r) : Evals (fun f => x f >>= fun a => k a f) r := by
  obtain ⟨n, hn⟩ := h
  obtain ⟨m, hm⟩ := hk
  refine ⟨max n m, fun f hf => ?_⟩
  show x f >>= (fun a => k a f) = r
  rw [hn f (by omega)]
  exact hm f (by omega)

theorem Evals.unique {α : Type} {x : Nat → Ev α} {r r' : Ev α} (h : Evals x r) (h' : Evals x r') : r = r' := by
  obtain ⟨n, hn⟩ := h
  obtain ⟨m, hm⟩ := h'
  rw [← hn (max n m) (by omega), hm (max n m) (by omega)]

end BurnFm
