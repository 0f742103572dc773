import Verif.Spec.VmNotes
import Verif.Proofs.VmExt
import Verif.Proofs.SMap

/-! Variables left behind by earlier tests do not matter to a test that reports no unknown variable of their names. -/

namespace BurnFm
open Spec

variable {evN : NotedCalculator} {p : Profile} {scripts : HMap FScript} {N : Str → Prop}

/-- The value of a variable in the set number `d`. -/
def lookupIn (vs : List (SMap Str)) (d : Nat) (x : Str) : Option Str := (vs[d]?).bind (fun m => SMap.get m x)

/-- More variables, but none whose name is in `N`. -/
structure VarsLe (N : Str → Prop) (vs vs' : List (SMap Str)) : Prop where
  len : vs.length ≤ vs'.length
  kept : ∀ d x v, lookupIn vs d x = some v → lookupIn vs' d x = some v
  same : ∀ d x, N x → lookupIn vs' d x = lookupIn vs d x

/-- The state with other variables and messages. -/
def carryW (V : List (SMap Str)) (o : List Message) (w : World) : World := { w with vars := V, out := o }

/-- The state with other variables, more loop entries and other messages. -/
def carry (V : List (SMap Str)) (ls : List Nat) (o : List Message) (u : Vm) : Vm :=
  { u with loops := u.loops ++ ls, world := carryW V o u.world }

theorem evN_carry_of (hr : ReportsUnknown evN) {V : List (SMap Str)} {o : List Message} {w : World} {d : Nat}
    (hV : VarsLe N w.vars V) (hd : d < w.vars.length) {t : Str}
    (hN : ∀ x, Note.unknownVariable x ∈ (evN ⟨w.db, d + 1, w.vars⟩ t).notes → N x) :
    evN ⟨(carryW V o w).db, d + 1, (carryW V o w).vars⟩ t = evN ⟨w.db, d + 1, w.vars⟩ t := by
  have hd' : d < V.length := Nat.lt_of_lt_of_le hd hV.len
  refine hr.enough ⟨w.db, d + 1, w.vars⟩ _ t ⟨rfl, rfl, ?_, fun x v h => hV.kept d x v h⟩ fun x hx => ?_
  · exact ⟨fun _ => ⟨d, _, rfl, List.getElem?_eq_getElem hd⟩, fun _ => ⟨d, _, rfl, List.getElem?_eq_getElem hd'⟩⟩
  · exact (hV.same d x (hN x hx)).trans (hr.undefined _ t x hx)

theorem VarsLe.push {vs vs' : List (SMap Str)} (h : VarsLe N vs vs') : VarsLe N (vs ++ [[]]) (vs' ++ [[]]) := by
  have key : ∀ (l : List (SMap Str)) d x, lookupIn (l ++ [[]]) d x = lookupIn l d x := by
    intro l d x
    unfold lookupIn
    by_cases hd : d < l.length
    · rw [List.getElem?_append_left hd]
    · rw [List.getElem?_append_right (by omega), List.getElem?_eq_none (l := l) (by omega)]
      by_cases h0 : d - l.length = 0
      · rw [h0]; rfl
      · rw [List.getElem?_eq_none (by simp; omega)]
  refine ⟨by simp; exact h.len, fun d x v hv => ?_, fun d x hx => ?_⟩
  · rw [key] at hv ⊢; exact h.kept d x v hv
  · rw [key, key]; exact h.same d x hx

theorem lookupIn_modIdx {vs vs1 : List (SMap Str)} {d : Nat} {k v : Str} (h : modIdx vs d (fun m => m.insert k v) = .ok vs1)
    (e : Nat) (x : Str) : lookupIn vs1 e x = if e = d ∧ x = k then some v else lookupIn vs e x := by
  obtain ⟨a, ha, rfl⟩ := modIdx_set h
  have hi := (List.getElem?_eq_some_iff.mp ha).1
  unfold lookupIn
  by_cases he : e = d
  · subst he
    rw [List.getElem?_set_self hi, ha]
    simp only [Option.bind_some, SMap.get_insert, true_and]
  · rw [List.getElem?_set_ne (by omega)]
    simp [he]

theorem VarsLe.modIdx {vs vs' vs1 : List (SMap Str)} (h : VarsLe N vs vs') {d : Nat} {k v : Str}
    (h1 : modIdx vs d (fun m => m.insert k v) = .ok vs1) :
    ∃ vs1', modIdx vs' d (fun m => m.insert k v) = .ok vs1' ∧ VarsLe N vs1 vs1' := by
  obtain ⟨a, ha, e1⟩ := modIdx_set h1
  have hi := (List.getElem?_eq_some_iff.mp ha).1
  have hi' : d < vs'.length := Nat.lt_of_lt_of_le hi h.len
  have h2 : BurnFm.modIdx vs' d (fun m => m.insert k v) = .ok (vs'.set d (vs'[d].insert k v)) := by
    unfold BurnFm.modIdx idx setIdx
    rw [List.getElem?_eq_getElem hi']
    simp only [ok_bind]
    rw [if_pos hi']
  refine ⟨_, h2, ?_, fun e x y hy => ?_, fun e x hx => ?_⟩
  · rw [e1]; simpa using h.len
  · rw [lookupIn_modIdx h1] at hy
    rw [lookupIn_modIdx h2]
    split at hy
    · rw [if_pos ‹_›]; exact hy
    · rw [if_neg ‹_›]; exact h.kept e x y hy
  · rw [lookupIn_modIdx h1, lookupIn_modIdx h2, h.same e x hx]

/-- What a step does in the state with other variables. -/
def Alike (N : Str → Prop) (o : List Message) (w w1 : World) (r : List (SMap Str) → List Message → Prop) : Prop :=
  ∃ V z, VarsLe N w1.vars V ∧ w1.out = w.out ++ z ∧ r V (o ++ z)

theorem Alike.quiet {V : List (SMap Str)} {o : List Message} {w w1 : World} {r : List (SMap Str) → List Message → Prop}
    (hV : VarsLe N w1.vars V) (ho : w1.out = w.out) (h : r V o) : Alike N o w w1 r :=
  ⟨V, [], hV, by simp [ho], by simpa using h⟩

theorem effect_carry {V : List (SMap Str)} {o : List Message} {w w1 : World} {d : Nat} {s : ScriptStep} {u : Vm}
    {code : List ScriptStep} {ip : Nat} (hV : VarsLe N w.vars V)
    (he : ∀ t, (u.stepCalcs code ip s).head? = some (.ok t) → (carryW V o w).eval evN.mute (d + 1) t = w.eval evN.mute (d + 1) t)
    (h : effect evN.mute p (d + 1) s w = .ok w1) :
    Alike N o w w1 fun V' o' => effect evN.mute p (d + 1) s (carryW V o w) = .ok (carryW V' o' w1) := by
  unfold effect at h ⊢
  unfold Vm.stepCalcs at he
  split at h <;> rename_i ho <;> (try simp only [ho] at he ⊢) <;> simp only [ev_bind_ok, ev_pure, liftR_ok] at h ⊢
  · obtain ⟨c, h1, v, h2, n, h3, h⟩ := h
    have he := he c (by rw [h1]; rfl)
    split at h <;> rename_i hl <;> injection h with h <;> subst h <;>
      exact .quiet hV rfl ⟨c, h1, v, he.trans h2, n, h3, by simp only [carryW, hl]⟩
  · obtain ⟨c, h1, v, h2, h⟩ := h
    have he := he c (by rw [h1]; split <;> rfl)
    split at h
    · injection h with h; subst h
      exact .quiet hV rfl ⟨c, h1, v, he.trans h2, if_pos ‹_›⟩
    · simp only [ev_bind_ok, ev_pure, liftR_ok] at h
      obtain ⟨x, hx, db, h3, h⟩ := h
      injection h with h; subst h
      refine .quiet hV rfl ⟨c, h1, v, he.trans h2, ?_⟩
      rw [if_neg (show ¬(carryW V o w).findMode = true from ‹¬w.findMode = true›)]
      simp only [ev_bind_ok, ev_pure, liftR_ok]
      exact ⟨x, hx, db, h3, rfl⟩
  · injection h with h; subst h; exact .quiet hV rfl rfl
  · obtain ⟨db, h1, h⟩ := h
    injection h with h; subst h
    exact .quiet hV rfl ⟨db, h1, rfl⟩
  · obtain ⟨db, h1, h⟩ := h
    injection h with h; subst h
    exact .quiet hV rfl ⟨db, h1, rfl⟩
  · obtain ⟨n, h1, c, h2, v, h3, vs, h4, h⟩ := h
    have he := he c (by rw [h2]; rfl)
    injection h with h; subst h
    obtain ⟨vs1, h5, h6⟩ := hV.modIdx h4
    exact .quiet h6 rfl ⟨n, h1, c, h2, v, he.trans h3, _, h5, rfl⟩
  · obtain ⟨n, h1, c, h2, v, h3, h⟩ := h
    have he := he c (by rw [h2]; rfl)
    split at h
    · injection h with h; subst h
      exact .quiet hV rfl ⟨n, h1, c, h2, v, he.trans h3, if_pos ‹_›⟩
    · simp only [ev_bind_ok, ev_pure, liftR_ok] at h
      obtain ⟨a, ha, b, hb, x, hx, db, h4, h⟩ := h
      injection h with h; subst h
      refine .quiet hV rfl ⟨n, h1, c, h2, v, he.trans h3, ?_⟩
      rw [if_neg (show ¬(carryW V o w).findMode = true from ‹¬w.findMode = true›)]
      simp only [ev_bind_ok, ev_pure, liftR_ok]
      exact ⟨a, ha, b, hb, x, hx, db, h4, rfl⟩
  · obtain ⟨db, h1, h⟩ := h
    injection h with h; subst h
    exact .quiet hV rfl ⟨db, h1, rfl⟩
  · obtain ⟨c, h1, v, h2, h⟩ := h
    have he := he c (by rw [h1]; rfl)
    injection h with h; subst h
    exact ⟨V, [.dialog v], hV, rfl, c, h1, v, he.trans h2, rfl⟩
  · obtain ⟨c, h1, v, h2, h⟩ := h
    have he := he c (by rw [h1]; rfl)
    split at h <;> injection h with h <;> subst h
    · exact ⟨V, [.assertionFailed c], hV, rfl, c, h1, v, he.trans h2, if_pos ‹_›⟩
    · exact .quiet hV rfl ⟨c, h1, v, he.trans h2, if_neg ‹_›⟩
  · injection h with h; subst h
    exact .quiet hV rfl rfl

/-- The calculations that a step which succeeds evaluates give the same in the state with other variables. -/
theorem exec_carry {V : List (SMap Str)} {ls : List Nat} {o : List Message} {u u1 : Vm} {name : Str} {ip : Nat}
    {below : List (Str × Nat)} {code : List ScriptStep} {s : ScriptStep} (hV : VarsLe N u.world.vars V)
    (he : ∀ t, (u.stepCalcs code ip s).head? = some (.ok t) →
      (carryW V o u.world).eval evN.mute (below.length + 1) t = u.world.eval evN.mute (below.length + 1) t)
    (he2 : ∀ t v t2, u.stepCalcs code ip s = [.ok t, .ok t2] → u.world.eval evN.mute (below.length + 1) t = .ok v →
      (carryW V o u.world).eval evN.mute (below.length + 1) t2 = u.world.eval evN.mute (below.length + 1) t2)
    (h : u.exec evN.mute p scripts name ip below code s = .ok u1) :
    Alike N o u.world u1.world fun V' o' =>
      (carry V ls o u).exec evN.mute p scripts name ip below code s = .ok (carry V' ls o' u1) := by
  have heff := fun w1 => effect_carry (evN := evN) (p := p) (N := N) (o := o) (s := s) (w1 := w1) (u := u) (code := code) (ip := ip) hV he
  have hwo : (carry V ls o u).world = carryW V o u.world := rfl
  unfold Vm.exec at h ⊢
  rw [hwo]
  unfold Vm.stepCalcs at he he2
  split at h <;> rename_i ho <;> (try simp only [ho] at he he2 ⊢) <;> simp only [ev_bind_ok, ev_pure, liftR_ok] at h ⊢
  · obtain ⟨c, h1, v, h2, n, h3, h⟩ := h
    have he := he c (by rw [h1]; rfl)
    split at h <;> rename_i hc <;> injection h with h <;> subst h <;>
      exact .quiet hV.push rfl ⟨c, h1, v, he.trans h2, n, h3, by simp only [hc, carry, carryW]; rfl⟩
  · split at h
    · rename_i hc
      simp only [if_pos hc] at he he2 ⊢
      simp only [ev_bind_ok, ev_pure, liftR_ok] at h ⊢
      obtain ⟨c, h1, v, h2, c', h3, v', h4, h⟩ := h
      have he2 := he2 c v c' (by rw [h1, h3]) h2
      have he := he c (by rw [h1]; rfl)
      split at h
      · injection h with h; subst h
        exact .quiet hV rfl ⟨c, h1, v, he.trans h2, c', h3, v', he2.trans h4, if_pos ‹_›⟩
      · simp only [ev_bind_ok, ev_pure, liftR_ok] at h
        obtain ⟨a, ha, db, hdb, b, hb, h⟩ := h
        have hnf : ¬(carryW V o u.world).findMode = true := ‹¬u.world.findMode = true›
        split at h
        · rename_i hq
          simp only [ev_bind_ok, ev_pure, liftR_ok] at h
          obtain ⟨i, hi, h⟩ := h
          injection h with h; subst h
          refine .quiet hV rfl ⟨c, h1, v, he.trans h2, c', h3, v', he2.trans h4, ?_⟩
          rw [if_neg hnf]
          simp only [ev_bind_ok, ev_pure, liftR_ok]
          refine ⟨a, ha, db, hdb, b, hb, ?_⟩
          rw [if_pos hq]
          simp only [ev_bind_ok, ev_pure, liftR_ok]
          exact ⟨i, hi, rfl⟩
        · rename_i hq
          injection h with h; subst h
          refine .quiet hV rfl ⟨c, h1, v, he.trans h2, c', h3, v', he2.trans h4, ?_⟩
          rw [if_neg hnf]
          simp only [ev_bind_ok, ev_pure, liftR_ok]
          exact ⟨a, ha, db, hdb, b, hb, if_neg hq⟩
    · rename_i hc
      simp only [if_neg hc]
      simp only [ev_bind_ok, ev_pure, liftR_ok] at h ⊢
      obtain ⟨w', h1, h⟩ := h
      injection h with h; subst h
      obtain ⟨V', z, h2, h3, h4⟩ := heff _ h1
      exact ⟨V', z, h2, h3, _, h4, rfl⟩
  · injection h with h; subst h; exact .quiet hV rfl rfl
  · obtain ⟨c, h1, v, h2, h⟩ := h
    have he := he c (by rw [h1]; rfl)
    split at h <;> rename_i hc <;> injection h with h <;> subst h
    · exact .quiet hV rfl ⟨c, h1, v, he.trans h2, if_pos hc⟩
    · exact .quiet hV rfl ⟨c, h1, v, he.trans h2, if_neg hc⟩
  · have hbt : (carry V ls o u).branchTaken = u.branchTaken := rfl
    rw [hbt]
    split at h
    · rename_i hc
      injection h with h; subst h
      exact .quiet hV rfl (if_pos hc)
    · rename_i hc
      rw [if_neg hc] at he
      simp only [ev_bind_ok, ev_pure, liftR_ok] at h
      obtain ⟨c, h1, v, h2, h⟩ := h
      have he := he c (by rw [← h1]; cases u.branchTaken <;> rfl)
      split at h <;> rename_i hq <;> injection h with h <;> subst h
      · refine .quiet hV rfl ?_
        rw [if_neg hc]
        simp only [ev_bind_ok, ev_pure, liftR_ok]
        exact ⟨c, h1, v, he.trans h2, if_pos hq⟩
      · refine .quiet hV rfl ?_
        rw [if_neg hc]
        simp only [ev_bind_ok, ev_pure, liftR_ok]
        exact ⟨c, h1, v, he.trans h2, if_neg hq⟩
  · have hbt : (carry V ls o u).branchTaken = u.branchTaken := rfl
    rw [hbt]
    split at h
    · rename_i hc
      split at h <;> rename_i hq <;> injection h with h <;> subst h
      · exact .quiet hV rfl (by rw [if_pos hc, if_pos hq]; rfl)
      · exact .quiet hV rfl (by rw [if_pos hc, if_neg hq]; rfl)
    · rename_i hc
      injection h with h; subst h
      exact .quiet hV rfl (by rw [if_neg hc]; rfl)
  · injection h with h; subst h; exact .quiet hV rfl rfl
  · obtain ⟨i, h1, h⟩ := h
    injection h with h; subst h
    refine .quiet hV rfl ⟨i, ?_, rfl⟩
    simp only [carry]
    cases hl : u.loops with
    | nil => rw [hl] at h1; cases h1
    | cons a l => rw [hl] at h1; exact h1
  · obtain ⟨c, h1, v, h2, h⟩ := h
    have he := he c (by rw [h1]; rfl)
    split at h <;> rename_i hc
    · simp only [ev_bind_ok, ev_pure, liftR_ok] at h
      obtain ⟨i, hi, h⟩ := h
      injection h with h; subst h
      refine .quiet hV rfl ⟨c, h1, v, he.trans h2, ?_⟩
      rw [if_pos hc]
      simp only [ev_bind_ok, ev_pure, liftR_ok]
      exact ⟨i, hi, rfl⟩
    · injection h with h; subst h
      exact .quiet hV rfl ⟨c, h1, v, he.trans h2, if_neg hc⟩
  · obtain ⟨w', h1, h⟩ := h
    injection h with h; subst h
    obtain ⟨V', z, h2, h3, h4⟩ := heff _ h1
    exact ⟨V', z, h2, h3, _, h4, rfl⟩

theorem notes_carry (hr : ReportsUnknown evN) {V : List (SMap Str)} {o : List Message} {w : World} {d : Nat}
    (hV : VarsLe N w.vars V) (hd : d < w.vars.length) (l : List (Ev Str))
    (hN : ∀ x, Note.unknownVariable x ∈ w.notes evN (d + 1) l → N x) :
    (carryW V o w).notes evN (d + 1) l = w.notes evN (d + 1) l ∧
    (∀ t, l.head? = some (.ok t) → (carryW V o w).eval evN.mute (d + 1) t = w.eval evN.mute (d + 1) t) ∧
    ∀ t v t2, l = [.ok t, .ok t2] → w.eval evN.mute (d + 1) t = .ok v →
      (carryW V o w).eval evN.mute (d + 1) t2 = w.eval evN.mute (d + 1) t2 := by
  induction l with
  | nil => exact ⟨rfl, (fun t h => by cases h), (fun t v t2 h => by cases h)⟩
  | cons c l ih =>
    cases c with
    | error e => exact ⟨rfl, (fun t h => by cases h), (fun t v t2 h => by cases h)⟩
    | ok t =>
      unfold World.notes at hN ⊢
      have h1 : evN ⟨(carryW V o w).db, d + 1, (carryW V o w).vars⟩ t = evN ⟨w.db, d + 1, w.vars⟩ t := by
        refine evN_carry_of hr hV hd fun x hx => hN x ?_
        generalize evN ⟨w.db, d + 1, w.vars⟩ t = r at hx ⊢
        obtain ⟨ns, r⟩ := r
        cases r with
        | error e => exact hx
        | ok v => exact List.mem_append_left _ hx
      have h2 : (carryW V o w).eval evN.mute (d + 1) t = w.eval evN.mute (d + 1) t := congrArg Noted.result h1
      rw [h1]
      refine ⟨?_, fun t' h => by injection h with h; injection h with h; subst h; exact h2, fun t1 v t2 h hv => ?_⟩
      · generalize evN ⟨w.db, d + 1, w.vars⟩ t = r at hN ⊢
        obtain ⟨ns, r⟩ := r
        cases r with
        | error e => rfl
        | ok v => exact congrArg _ (ih fun x hx => hN x (List.mem_append_right _ hx)).1
      · injection h with ht hl
        injection ht with ht
        subst ht hl
        have : (evN ⟨w.db, d + 1, w.vars⟩ t).result = .ok v := hv
        generalize evN ⟨w.db, d + 1, w.vars⟩ t = r at hN this
        obtain ⟨ns, r⟩ := r
        simp only at this
        subst this
        exact (ih fun x hx => hN x (List.mem_append_right _ hx)).2.1 t2 rfl

theorem step_carry (hr : ReportsUnknown evN) {V : List (SMap Str)} {ls : List Nat} {o : List Message} {u u1 : Vm}
    (hV : VarsLe N u.world.vars V) (hd : u.frames.length ≤ u.world.vars.length)
    (hN : ∀ x, Note.unknownVariable x ∈ u.stepNotes evN scripts → N x) (h : u.step evN.mute p scripts = .ok u1) :
    (carry V ls o u).stepNotes evN scripts = u.stepNotes evN scripts ∧
    Alike N o u.world u1.world fun V' o' => (carry V ls o u).step evN.mute p scripts = .ok (carry V' ls o' u1) := by
  unfold Vm.step at h ⊢
  unfold Vm.stepNotes at hN ⊢
  have hfr : (carry V ls o u).frames = u.frames := rfl
  rw [hfr]
  split at h
  · cases h
  · rename_i name ip below hf
    rw [hf] at hd hN
    have hsc : (carry V ls o u).script scripts name below = u.script scripts name below := rfl
    dsimp only at h hN
    rw [hf]
    dsimp only
    simp only [hsc]
    split at h
    · rename_i hc
      injection h with h; subst h
      simp only [hc]
      exact ⟨trivial, .quiet hV rfl rfl⟩
    · rename_i s hc
      simp only [hc] at hN ⊢
      have hd : below.length < u.world.vars.length := by simp at hd; omega
      obtain ⟨h1, h2, h3⟩ := notes_carry hr (o := o) hV hd _ hN
      exact ⟨h1, exec_carry hV h2 h3 h⟩

theorem run_carry (hr : ReportsUnknown evN) {V : List (SMap Str)} {ls : List Nat} {o : List Message} {n : Nat} {u u1 : Vm}
    (hV : VarsLe N u.world.vars V) (hd : u.frames.length ≤ u.world.vars.length)
    (hN : ∀ x, Note.unknownVariable x ∈ u.runNotes evN p scripts n → N x) (h : u.run evN.mute p scripts n = .ok u1) :
    (carry V ls o u).runNotes evN p scripts n = u.runNotes evN p scripts n ∧
    Alike N o u.world u1.world fun V' o' => (carry V ls o u).run evN.mute p scripts n = .ok (carry V' ls o' u1) := by
  have hru : ∀ (V : List (SMap Str)) (o : List Message) (u : Vm), (carry V ls o u).running = u.running := fun _ _ _ => rfl
  induction n generalizing u o V with
  | zero =>
    unfold Vm.run at h ⊢
    rw [hru]
    split at h
    · cases h
    · injection h with h; subst h; exact ⟨rfl, .quiet hV rfl (if_neg (by assumption))⟩
  | succ n ih =>
    unfold Vm.run at h ⊢
    unfold Vm.runNotes at hN ⊢
    rw [hru]
    split at h
    · rename_i hc
      simp only [if_pos hc] at hN ⊢
      rw [ev_bind_ok] at h
      obtain ⟨v, h1, h2⟩ := h
      simp only [h1] at hN
      obtain ⟨h3, V1, z1, hV1, e1, h4⟩ := step_carry hr (ls := ls) (o := o) hV hd (fun x hx => hN x (List.mem_append_left _ hx)) h1
      obtain ⟨h5, V2, z2, hV2, e2, h6⟩ := ih (o := o ++ z1) hV1 (step_frames_le hd h1) (fun x hx => hN x (List.mem_append_right _ hx)) h2
      refine ⟨?_, V2, z1 ++ z2, hV2, by rw [e2, e1, List.append_assoc], ?_⟩
      · rw [h3, h4, h1]; simp only; rw [h5]
      · rw [h4, ← List.append_assoc]; exact h6
    · rename_i hc
      injection h with h; subst h
      simp only [if_neg hc]
      exact ⟨trivial, .quiet hV rfl rfl⟩

/-- Data, mode, criteria and layouts. -/
structure SameData (w w1 : World) : Prop where
  db : w1.db = w.db
  findMode : w1.findMode = w.findMode
  criteria : w1.criteria = w.criteria
  layouts : w1.layouts = w.layouts

theorem effect_data {ev : Calculator} {d : Nat} {s : ScriptStep} {w w1 : World} (hs : s.opcode ∉ changesState)
    (h : effect ev p d s w = .ok w1) : SameData w w1 := by
  unfold effect at h
  unfold changesState at hs
  split at h <;> rename_i ho <;> (try (exfalso; apply hs; rw [ho]; decide; done)) <;> simp only [ev_bind_ok, ev_pure, liftR_ok] at h
  · obtain ⟨n, -, c, -, v, -, vs, -, h⟩ := h
    injection h with h; subst h; exact ⟨rfl, rfl, rfl, rfl⟩
  · obtain ⟨c, -, v, -, h⟩ := h
    injection h with h; subst h; exact ⟨rfl, rfl, rfl, rfl⟩
  · obtain ⟨c, -, v, -, h⟩ := h
    split at h <;> injection h with h <;> subst h <;> exact ⟨rfl, rfl, rfl, rfl⟩
  · injection h with h; subst h; exact ⟨rfl, rfl, rfl, rfl⟩

theorem exec_data {ev : Calculator} {u u1 : Vm} {name : Str} {ip : Nat} {below : List (Str × Nat)} {code : List ScriptStep}
    {s : ScriptStep} (hs : s.opcode ∉ changesState) (h : u.exec ev p scripts name ip below code s = .ok u1) :
    SameData u.world u1.world := by
  unfold Vm.exec at h
  split at h <;> rename_i ho <;> (try (exfalso; apply hs; rw [ho]; decide; done)) <;>
    simp only [ev_bind_ok, ev_pure, liftR_ok] at h
  · obtain ⟨c, -, v, -, n, -, h⟩ := h
    split at h <;> injection h with h <;> subst h <;> exact ⟨rfl, rfl, rfl, rfl⟩
  · injection h with h; subst h; exact ⟨rfl, rfl, rfl, rfl⟩
  · obtain ⟨c, -, v, -, h⟩ := h
    split at h <;> injection h with h <;> subst h <;> exact ⟨rfl, rfl, rfl, rfl⟩
  · split at h
    · injection h with h; subst h; exact ⟨rfl, rfl, rfl, rfl⟩
    · simp only [ev_bind_ok, ev_pure] at h
      obtain ⟨c, -, v, -, h⟩ := h
      split at h <;> injection h with h <;> subst h <;> exact ⟨rfl, rfl, rfl, rfl⟩
  · split at h
    · split at h <;> injection h with h <;> subst h <;> exact ⟨rfl, rfl, rfl, rfl⟩
    · injection h with h; subst h; exact ⟨rfl, rfl, rfl, rfl⟩
  · injection h with h; subst h; exact ⟨rfl, rfl, rfl, rfl⟩
  · obtain ⟨i, -, h⟩ := h
    injection h with h; subst h; exact ⟨rfl, rfl, rfl, rfl⟩
  · obtain ⟨c, -, v, -, h⟩ := h
    split at h
    · simp only [ev_bind_ok, ev_pure, liftR_ok] at h
      obtain ⟨i, -, h⟩ := h
      injection h with h; subst h; exact ⟨rfl, rfl, rfl, rfl⟩
    · injection h with h; subst h; exact ⟨rfl, rfl, rfl, rfl⟩
  · obtain ⟨w', h1, h⟩ := h
    injection h with h; subst h
    exact effect_data hs h1

theorem script_steps {u : Vm} {name : Str} {below : List (Str × Nat)} {P : ScriptStep → Prop}
    (ht : ∀ s ∈ u.test.instructions, P s) (hsc : ∀ e ∈ scripts, ∀ s ∈ e.2.instructions, P s) {s : ScriptStep}
    (h : s ∈ (u.script scripts name below).instructions) : P s := by
  unfold Vm.script at h
  split at h
  · exact ht s h
  · cases hf : scripts.find? (fun e => e.2.name == name) with
    | none => rw [hf] at h; exact nomatch h
    | some e => rw [hf] at h; exact hsc e (List.mem_of_find?_eq_some hf) s h

theorem run_data {ev : Calculator} {n : Nat} {u u1 : Vm} (ht : ∀ s ∈ u.test.instructions, s.opcode ∉ changesState)
    (hsc : ∀ e ∈ scripts, ∀ s ∈ e.2.instructions, s.opcode ∉ changesState) (h : u.run ev p scripts n = .ok u1) :
    SameData u.world u1.world ∧ (u1.world.failed = true ∨ u1.frames = []) := by
  have hstop : ∀ u : Vm, ¬u.running = true → u.world.failed = true ∨ u.frames = [] := by
    intro u hu
    unfold Vm.running at hu
    cases hf : u.world.failed with
    | true => exact .inl rfl
    | false => rw [hf] at hu; simpa using hu
  induction n generalizing u with
  | zero =>
    unfold Vm.run at h
    split at h
    · cases h
    · injection h with h; subst h; exact ⟨⟨rfl, rfl, rfl, rfl⟩, hstop _ ‹_›⟩
  | succ n ih =>
    unfold Vm.run at h
    split at h
    · rw [ev_bind_ok] at h
      obtain ⟨v, h1, h2⟩ := h
      obtain ⟨name, ip, below, hfr, ⟨-, rfl⟩ | ⟨s, hs, sh, he⟩⟩ := step_cases h1
      · exact ih (u := { u with frames := below }) ht h2
      · obtain ⟨a, b⟩ := ih (by rw [sh.test]; exact ht) h2
        have d := exec_data (script_steps (P := fun s => s.opcode ∉ changesState) ht hsc (List.mem_of_getElem? hs)) he
        exact ⟨⟨a.db.trans d.db, a.findMode.trans d.findMode, a.criteria.trans d.criteria, a.layouts.trans d.layouts⟩, b⟩
    · injection h with h; subst h; exact ⟨⟨rfl, rfl, rfl, rfl⟩, hstop _ ‹_›⟩

end BurnFm
