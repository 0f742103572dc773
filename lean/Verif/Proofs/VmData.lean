import Verif.Proofs.Vm
import Verif.Proofs.VmEval
import Verif.Proofs.Database

/-! What one step does to the database. -/

namespace BurnFm
open Spec

variable {ev : Calculator} {p : Profile} {scripts : HMap FScript}

theorem moveRecord_op {db db' : Database} {val : Str} (h : moveRecord p db val = .ok db') :
    db' = db ∨ ∃ op, op.run p db = .ok db' ∧ Does .goToRecordRequestPage op := by
  unfold moveRecord at h
  split at h
  · exact .inr ⟨.goto _, h, trivial⟩
  · split at h
    · exact .inr ⟨.previous, h, trivial⟩
    · split at h
      · exact .inr ⟨.next, h, trivial⟩
      · split at h
        · exact .inr ⟨.first, h, trivial⟩
        · split at h
          · exact .inr ⟨.last, h, trivial⟩
          · injection h with h; exact .inl h.symm

theorem effect_db {d : Nat} {s : ScriptStep} {w w' : World} (h : effect ev p d s w = .ok w') :
    w'.db = w.db ∨ ∃ op, op.run p w.db = .ok w'.db ∧ Does s.opcode op := by
  unfold effect at h
  split at h <;> simp only [ev_bind_ok, ev_pure, liftR_ok] at h <;> rename_i ho <;> try rw [ho]
  · obtain ⟨c, -, v, -, n, -, he⟩ := h
    split at he <;> injection he with he <;> subst he
    · exact .inr ⟨.layout _, rfl, trivial⟩
    · exact .inl rfl
  · obtain ⟨c, -, v, -, he⟩ := h
    split at he
    · injection he with he; subst he; exact .inl rfl
    · simp only [ev_bind_ok, ev_pure, liftR_ok] at he
      obtain ⟨_, -, db, hdb, he⟩ := he
      injection he with he; subst he; exact moveRecord_op hdb
  · injection h with he; subst he; exact .inl rfl
  · obtain ⟨db, hdb, he⟩ := h; injection he with he; subst he; exact .inr ⟨.find _, hdb, trivial⟩
  · obtain ⟨db, hdb, he⟩ := h; injection he with he; subst he; exact .inr ⟨.showAll, hdb, trivial⟩
  · obtain ⟨n, -, c, -, v, -, vs, hv, he⟩ := h
    injection he with he; subst he; exact .inl rfl
  · obtain ⟨n, -, c, -, v, -, he⟩ := h
    split at he
    · injection he with he; subst he; exact .inl rfl
    · simp only [ev_bind_ok, ev_pure, liftR_ok] at he
      obtain ⟨occ, -, field, -, odb, hdb, db, hu, he⟩ := he
      injection he with he; subst he
      refine .inr ⟨.set occ field v, ?_, trivial⟩
      unfold Op.run
      dsimp only
      rw [hdb, ok_bind]
      rw [unwrap_ok] at hu
      subst hu
      rfl
  · obtain ⟨db, hdb, he⟩ := h; injection he with he; subst he; exact .inr ⟨.create, hdb, trivial⟩
  · obtain ⟨_, -, _, -, he⟩ := h; injection he with he; subst he; exact .inl rfl
  · obtain ⟨_, -, _, -, he⟩ := h
    split at he <;> injection he with he <;> subst he <;> exact .inl rfl
  · injection h with he; subst he; exact .inl rfl

theorem exec_db {vm vm' : Vm} {name : Str} {ip : Nat} {below : List (Str × Nat)} {code : List ScriptStep}
    {s : ScriptStep} (h : vm.exec ev p scripts name ip below code s = .ok vm') :
    vm'.world.db = vm.world.db ∨ ∃ op, op.run p vm.world.db = .ok vm'.world.db ∧ Does s.opcode op := by
  have plain : ∀ {j : Nat}, (do
      let w ← effect ev p (below.length + 1) s vm.world
      pure { vm with world := w, frames := (name, j) :: below }) = Except.ok vm' →
      vm'.world.db = vm.world.db ∨ ∃ op, op.run p vm.world.db = .ok vm'.world.db ∧ Does s.opcode op := by
    intro j h
    simp only [ev_bind_ok, ev_pure] at h
    obtain ⟨w, hw, he⟩ := h
    injection he with he; subst he
    exact effect_db hw
  unfold Vm.exec at h
  dsimp only at h
  split at h
  case h_1 ho =>
    simp only [ev_bind_ok, ev_pure, liftR_ok] at h
    obtain ⟨_, -, _, -, callee, -, he⟩ := h
    split at he <;> injection he with he <;> subst he <;> exact .inl rfl
  case h_2 ho =>
    split at h
    · simp only [ev_bind_ok, ev_pure, liftR_ok] at h
      obtain ⟨_, -, _, -, _, -, _, -, he⟩ := h
      split at he
      · injection he with he; subst he; exact .inl rfl
      · simp only [ev_bind_ok, ev_pure, liftR_ok] at he
        obtain ⟨_, -, db, hdb, _, -, he⟩ := he
        have key := moveRecord_op hdb
        split at he
        · simp only [ev_bind_ok, ev_pure, liftR_ok] at he
          obtain ⟨_, -, he⟩ := he
          injection he with he; subst he; rw [ho]; exact key
        · injection he with he; subst he; rw [ho]; exact key
    · exact plain h
  case h_10 => exact plain h
  all_goals rename_i ho; simp only [ev_bind_ok, ev_pure, liftR_ok] at h; left
  · injection h with he; subst he; rfl
  · obtain ⟨_, -, _, -, he⟩ := h
    split at he <;> injection he with he <;> subst he <;> rfl
  · split at h
    · injection h with he; subst he; rfl
    · simp only [ev_bind_ok, ev_pure, liftR_ok] at h
      obtain ⟨_, -, _, -, he⟩ := h
      split at he <;> injection he with he <;> subst he <;> rfl
  · split at h
    · split at h <;> injection h with he <;> subst he <;> rfl
    · injection h with he; subst he; rfl
  · injection h with he; subst he; rfl
  · obtain ⟨_, -, he⟩ := h; injection he with he; subst he; rfl
  · obtain ⟨_, -, _, -, he⟩ := h
    split at he
    · simp only [ev_bind_ok, ev_pure, liftR_ok] at he
      obtain ⟨_, -, he⟩ := he
      injection he with he; subst he; rfl
    · injection he with he; subst he; rfl

theorem exec_test {vm vm' : Vm} {name : Str} {ip : Nat} {below : List (Str × Nat)} {code : List ScriptStep}
    {s : ScriptStep} (h : vm.exec ev p scripts name ip below code s = .ok vm') : vm'.test = vm.test := by
  unfold Vm.exec at h
  dsimp only at h
  repeat' (first | rfl | (split at h) | (obtain ⟨_, -, h⟩ := h) | (injection h with h; subst h; rfl) |
    (simp only [ev_bind_ok, ev_pure, liftR_ok] at h))

theorem step_test {u v : Vm} (h : u.step ev p scripts = .ok v) : v.test = u.test := by
  obtain ⟨name, ip, below, hfr, ⟨-, rfl⟩ | ⟨s, hs, -, he⟩⟩ := step_cases h
  · rfl
  · exact exec_test he

theorem Spec.Executes.testRun {ts : List FTest} {start u v : Vm} (h : Executes ev p scripts u v)
    (hu : TestRun ev p scripts ts start u) : TestRun ev p scripts ts start v := by
  induction h with
  | here => exact hu
  | step hf hn hs _ ih => exact ih (.step hu hf hn hs)

theorem Spec.TestRun.mono {ts ts' : List FTest} {start u : Vm} (h : TestRun ev p scripts ts start u)
    (hs : ∀ t ∈ ts, t ∈ ts') : TestRun ev p scripts ts' start u := by
  induction h with
  | start => exact .start
  | load _ ht ih => exact .load ih (hs _ ht)
  | step _ hf hn hst ih => exact .step ih hf hn hst

theorem Spec.TestRun.trans {ts : List FTest} {start u v : Vm} (h : TestRun ev p scripts ts start u)
    (h' : TestRun ev p scripts ts u v) : TestRun ev p scripts ts start v := by
  induction h' with
  | start => exact h
  | load _ ht ih => exact .load ih ht
  | step _ hf hn hst ih => exact .step ih hf hn hst

/-- The tables of the database are only changed by some operations. -/
theorem op_keeps_tables (p : Profile) (db db' : Database) (op : Op) (h : op.run p db = .ok db')
    (h1 : op ≠ .create) (h2 : ∀ a b c, op ≠ .set a b c) : db'.tables = db.tables := by
  have modc : ∀ {f : DOcc → DOcc} {a b : Database}, a.modCurrentOcc f = .ok b → b.tables = a.tables := by
    intro f a b h
    obtain ⟨o, -, rfl⟩ := modCurrentOcc_ok.mp h
    rfl
  have reset : ∀ {a b : Database}, a.resetFoundSet = .ok b → b.tables = a.tables := by
    intro a b h
    unfold Database.resetFoundSet at h
    simp only [bind_ok] at h
    obtain ⟨_, -, _, -, h⟩ := h
    exact modc h
  cases op with
  | create => exact absurd rfl h1
  | set a b c => exact absurd rfl (h2 a b c)
  | find cs =>
    have h : db.performFind cs = .ok db' := h
    unfold Database.performFind Database.updateFoundSet at h
    rw [bind_ok] at h
    obtain ⟨rs, -, h⟩ := h
    split at h
    · exact reset h
    · rw [bind_ok] at h
      obtain ⟨db1, h3, h4⟩ := h
      rw [modc h4, reset h3]
  | showAll => exact reset h
  | goto n =>
    have h : db.gotoRecord p n = .ok db' := h
    unfold Database.gotoRecord at h
    simp only [bind_ok] at h
    obtain ⟨_, -, h⟩ := h
    split at h
    · rw [bind_ok] at h; obtain ⟨_, -, h⟩ := h; exact modc h
    · exact modc h
  | next =>
    have h : db.gotoNext p = .ok db' := h
    unfold Database.gotoNext at h
    simp only [bind_ok] at h
    obtain ⟨_, -, _, -, h⟩ := h
    exact modc h
  | previous => exact modc h
  | first => exact modc h
  | last =>
    have h : db.gotoLast p = .ok db' := h
    unfold Database.gotoLast at h
    simp only [bind_ok] at h
    obtain ⟨_, -, _, -, h⟩ := h
    exact modc h
  | layout o =>
    have h : Except.ok (db.setCurrentOccurrence (o % 65536)) = .ok db' := h
    injection h with h
    rw [← h]; rfl

end BurnFm
