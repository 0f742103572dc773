import Verif.Spec.Script
import Verif.Proofs.Vm

/-! The interpreter executes orderly structured scripts as written. -/

namespace BurnFm
open Spec

theorem straight_plain {s : ScriptStep} (h : Straight s) : isPlain s = true := by
  obtain ⟨h1, h2⟩ := h
  unfold isPlain
  simp only [List.mem_cons, List.not_mem_nil, or_false, not_or] at h1
  split <;> simp_all

theorem straight_not {s : ScriptStep} (h : Straight s) :
    isBranch s.opcode = false ∧ isEndIf s.opcode = false ∧ isEndLoop s.opcode = false := by
  obtain ⟨h1, -⟩ := h
  simp only [List.mem_cons, List.not_mem_nil, or_false, not_or] at h1
  refine ⟨?_, ?_, ?_⟩
  · unfold isBranch; split <;> simp_all
  · unfold isEndIf; split <;> simp_all
  · unfold isEndLoop; split <;> simp_all

theorem call_not {s : ScriptStep} (h : s.opcode = .performScript) :
    isBranch s.opcode = false ∧ isEndIf s.opcode = false ∧ isEndLoop s.opcode = false := by
  rw [h]; exact ⟨rfl, rfl, rfl⟩

theorem leaves_not {s : ScriptStep} (h : Leaves s) :
    isBranch s.opcode = false ∧ isEndIf s.opcode = false ∧ isEndLoop s.opcode = false := by
  rw [h.1]; exact ⟨rfl, rfl, rfl⟩

theorem not_straight_call {s : ScriptStep} (h : Straight s) (h' : s.opcode = .performScript) : False :=
  h.1 (by rw [h']; simp)

theorem not_straight_leaves {s : ScriptStep} (h : Straight s) (h' : Leaves s) : False := by
  have := h.2 h'.1
  have := h'.2
  omega

theorem not_call_leaves {s : ScriptStep} (h : s.opcode = .performScript) (h' : Leaves s) : False := by
  rw [h'.1] at h; cases h

theorem not_endIf_of_not_branch {o : Instruction} (h : isBranch o = false) : isEndIf o = false := by
  unfold isEndIf; split
  · simp [isBranch] at h
  · rfl

theorem Spec.Taken.Has.mono {a a' : Taken} {b : Bool} (h : a.Has b) (hl : a.Le a') : a'.Has b := by
  intro x hx
  rcases hl with rfl | rfl
  · cases hx
  · exact h x hx

theorem has_some (b : Bool) : Taken.Has (some b) b := by
  intro x hx; injection hx

theorem has_none (b : Bool) : Taken.Has none b := by
  intro x hx; cases hx

theorem Spec.Taken.Has.eq {b x : Bool} (h : Taken.Has (some x) b) : b = x := h x rfl

section
variable {ev : Calculator} {ok : Bool → Taken → Taken → Str → Prop}

mutual

theorem orderly_no_endLoop' : ∀ {q : Prog} {l : Bool} {e : Option Taken} {pl : Place} {a a' : Taken},
    Orderly ev ok l e pl a q a' → l = false → ∀ s ∈ q.code, isEndLoop s.opcode = false
  | _, _, _, _, _, _, .nil _, _, s, hs => by simp [Prog.code] at hs
  | _, _, _, _, _, _, .step h1 h2, hl, s, hs => by
    simp only [Prog.code, List.mem_cons] at hs
    rcases hs with rfl | hs
    · exact (straight_not h1).2.2
    · exact orderly_no_endLoop' h2 hl s hs
  | _, _, _, _, _, _, .call h1 _ h2, hl, s, hs => by
    simp only [Prog.code, List.mem_cons] at hs
    rcases hs with rfl | hs
    · exact (call_not h1).2.2
    · exact orderly_no_endLoop' h2 hl s hs
  | _, _, _, _, _, _, .leave h1 _ _ h2, hl, s, hs => by
    simp only [Prog.code, List.mem_cons] at hs
    rcases hs with rfl | hs
    · exact (leaves_not h1).2.2
    · exact orderly_no_endLoop' h2 hl s hs
  | _, _, _, _, _, _, .exitIf _ h2, hl, s, hs => by
    simp only [Prog.code, List.mem_cons] at hs
    rcases hs with rfl | hs
    · rfl
    · exact orderly_no_endLoop' h2 hl s hs
  | _, _, _, _, _, _, .loop _ _ _, hl, s, hs => by cases hl
  | .cond c body alt rest, _, _, _, _, _, .cond _ _ h1 h2, hl, s, hs => by
    simp only [Prog.code, List.mem_cons, List.mem_append, List.cons_append] at hs
    rcases hs with rfl | hs | rfl | hs
    · rfl
    · refine orderlyAlt_no_endLoop' h1 hl s ?_
      simp only [Alt.code, List.mem_cons, List.mem_append, List.cons_append]
      exact .inr hs
    · rfl
    · exact orderly_no_endLoop' h2 hl s hs

theorem orderlyAlt_no_endLoop' : ∀ {alt : Alt} {l : Bool} {e : Option Taken}, OrderlyAlt ev ok l e alt → l = false →
    ∀ s ∈ alt.code, isEndLoop s.opcode = false
  | _, _, _, .none, _, s, hs => by simp [Alt.code] at hs
  | _, _, _, .else h, hl, s, hs => by
    simp only [Alt.code, List.mem_cons] at hs
    rcases hs with rfl | hs
    · rfl
    · exact orderly_no_endLoop' h hl s hs
  | _, _, _, .last h, hl, s, hs => by
    simp only [Alt.code, List.mem_cons, List.mem_append, List.cons_append, List.not_mem_nil, or_false] at hs
    rcases hs with rfl | hs
    · rfl
    · exact orderly_no_endLoop' h hl s hs
  | _, _, _, .elif _ h1 h2, hl, s, hs => by
    simp only [Alt.code, List.mem_cons, List.mem_append, List.cons_append] at hs
    rcases hs with rfl | hs | hs
    · rfl
    · exact orderly_no_endLoop' h1 hl s hs
    · exact orderlyAlt_no_endLoop' h2 hl s hs

end

theorem orderly_no_endLoop {q : Prog} {e : Option Taken} {pl : Place} {a a' : Taken} (h : Orderly ev ok false e pl a q a') :
    ∀ s ∈ q.code, isEndLoop s.opcode = false := orderly_no_endLoop' h rfl

theorem orderlyAlt_no_endLoop {alt : Alt} {e : Option Taken} (h : OrderlyAlt ev ok false e alt) :
    ∀ s ∈ alt.code, isEndLoop s.opcode = false := orderlyAlt_no_endLoop' h rfl

theorem orderly_no_branch : ∀ {q : Prog} {l : Bool} {e : Option Taken} {a a' : Taken}, Orderly ev ok l e .inBranch a q a' →
    ∀ s ∈ q.code, isBranch s.opcode = false
  | _, _, _, _, _, .nil _, s, hs => by simp [Prog.code] at hs
  | _, _, _, _, _, .step h1 h2, s, hs => by
    simp only [Prog.code, List.mem_cons] at hs
    rcases hs with rfl | hs
    · exact (straight_not h1).1
    · exact orderly_no_branch h2 s hs
  | _, _, _, _, _, .call h1 _ h2, s, hs => by
    simp only [Prog.code, List.mem_cons] at hs
    rcases hs with rfl | hs
    · exact (call_not h1).1
    · exact orderly_no_branch h2 s hs
  | _, _, _, _, _, .leave h1 _ _ h2, s, hs => by
    simp only [Prog.code, List.mem_cons] at hs
    rcases hs with rfl | hs
    · exact (leaves_not h1).1
    · exact orderly_no_branch h2 s hs
  | _, _, _, _, _, .exitIf _ h2, s, hs => by
    simp only [Prog.code, List.mem_cons] at hs
    rcases hs with rfl | hs
    · rfl
    · exact orderly_no_branch h2 s hs
  | .loop body rest, _, _, _, _, .loop _ h1 h2, s, hs => by
    simp only [Prog.code, List.mem_cons, List.mem_append, List.cons_append] at hs
    rcases hs with rfl | hs | rfl | hs
    · rfl
    · exact orderly_no_branch (show Orderly ev ok false _ .inBranch _ body _ from h1) s hs
    · rfl
    · exact orderly_no_branch h2 s hs
  | .cond c body alt rest, _, _, _, _, .cond h _ _ _, s, hs => by exact absurd h (by simp [Place.Allows])

/-- Some steps for which `stop` does not hold, and then ends of chains. -/
def EndsLast (stop : Instruction → Bool) (code : List ScriptStep) : Prop :=
  ∃ mid n, code = mid ++ List.replicate n (instr .endIf []) ∧ ∀ s ∈ mid, stop s.opcode = false

theorem EndsLast.none {stop : Instruction → Bool} {code : List ScriptStep} (h : ∀ s ∈ code, stop s.opcode = false) :
    EndsLast stop code := ⟨code, 0, by simp, h⟩

theorem EndsLast.prepend {stop : Instruction → Bool} {pre code : List ScriptStep} (hp : ∀ s ∈ pre, stop s.opcode = false)
    (h : EndsLast stop code) : EndsLast stop (pre ++ code) := by
  obtain ⟨mid, n, rfl, h2⟩ := h
  refine ⟨pre ++ mid, n, by simp, ?_⟩
  intro s hs
  rcases List.mem_append.mp hs with hs | hs
  · exact hp s hs
  · exact h2 s hs

theorem EndsLast.cons {stop : Instruction → Bool} {s : ScriptStep} {code : List ScriptStep} (hp : stop s.opcode = false)
    (h : EndsLast stop code) : EndsLast stop (s :: code) :=
  EndsLast.prepend (pre := [s]) (by intro x hx; rw [List.mem_singleton] at hx; rw [hx]; exact hp) h

theorem EndsLast.snoc {stop : Instruction → Bool} {code : List ScriptStep} (h : EndsLast stop code) :
    EndsLast stop (code ++ [instr .endIf []]) := by
  obtain ⟨mid, n, rfl, h2⟩ := h
  exact ⟨mid, n + 1, by rw [List.replicate_succ', List.append_assoc], h2⟩

theorem orderly_last : ∀ {q : Prog} {l : Bool} {e : Option Taken} {a a' : Taken}, Orderly ev ok l e .inLast a q a' →
    EndsLast isBranch q.code
  | _, _, _, _, _, .nil _ => by rw [Prog.code]; exact .none (by simp)
  | _, _, _, _, _, .step h1 h2 => by rw [Prog.code]; exact .cons (straight_not h1).1 (orderly_last h2)
  | _, _, _, _, _, .call h1 _ h2 => by rw [Prog.code]; exact .cons (call_not h1).1 (orderly_last h2)
  | _, _, _, _, _, .leave h1 _ _ h2 => by rw [Prog.code]; exact .cons (leaves_not h1).1 (orderly_last h2)
  | _, _, _, _, _, .exitIf _ h2 => by rw [Prog.code]; exact .cons rfl (orderly_last h2)
  | .loop body rest, _, _, _, _, .loop _ h1 h2 => by
    rw [Prog.code]
    have hb := orderly_no_branch (show Orderly ev ok false _ .inBranch _ body _ from h1)
    rw [List.cons_append]
    exact .cons rfl (.prepend hb (.cons rfl (orderly_last h2)))
  | .cond c body alt rest, _, _, _, _, .cond h _ h1 _ => by
    obtain ⟨rfl, rfl⟩ := h
    rw [Prog.code, Alt.code, Prog.code, List.append_nil, List.cons_append]
    cases h1 with
    | last h1 => exact .cons rfl (orderly_last h1).snoc
    | elif h _ _ => exact absurd rfl h

theorem endsLast_endIf {code : List ScriptStep} (h : EndsLast isBranch code) : EndsLast isEndIf code := by
  obtain ⟨mid, n, h1, h2⟩ := h
  exact ⟨mid, n, h1, fun s hs => not_endIf_of_not_branch (h2 s hs)⟩

mutual

theorem orderly_else : ∀ {q : Prog} {l : Bool} {e : Option Taken} {a a' : Taken}, Orderly ev ok l e .inElse a q a' →
    EndsLast isEndIf q.code
  | _, _, _, _, _, .nil _ => by rw [Prog.code]; exact .none (by simp)
  | _, _, _, _, _, .step h1 h2 => by rw [Prog.code]; exact .cons (straight_not h1).2.1 (orderly_else h2)
  | _, _, _, _, _, .call h1 _ h2 => by rw [Prog.code]; exact .cons (call_not h1).2.1 (orderly_else h2)
  | _, _, _, _, _, .leave h1 _ _ h2 => by rw [Prog.code]; exact .cons (leaves_not h1).2.1 (orderly_else h2)
  | _, _, _, _, _, .exitIf _ h2 => by rw [Prog.code]; exact .cons rfl (orderly_else h2)
  | .loop body rest, _, _, _, _, .loop _ h1 h2 => by
    rw [Prog.code]
    have hb := orderly_no_branch (show Orderly ev ok false _ .inBranch _ body _ from h1)
    rw [List.cons_append]
    exact .cons rfl (.prepend (fun s hs => not_endIf_of_not_branch (hb s hs)) (.cons rfl (orderly_else h2)))
  | .cond c body alt rest, _, _, _, _, .cond h _ h1 _ => by
    obtain rfl := h
    have := orderlyAlt_last h1
    rw [Alt.code] at this
    rw [Prog.code, Prog.code, List.cons_append]
    obtain ⟨mid, n, h2, h3⟩ := this
    cases mid with
    | nil =>
      cases n with
      | zero => simp at h2
      | succ n => rw [List.nil_append, List.replicate_succ, List.cons_append] at h2; injection h2 with h2; cases h2
    | cons s mid =>
      rw [List.cons_append, List.cons_append] at h2
      injection h2 with h2 h4
      rw [List.cons_append, h4]
      exact .cons rfl (EndsLast.snoc ⟨mid, n, rfl, fun s hs => h3 s (List.mem_cons_of_mem _ hs)⟩)

theorem orderlyAlt_last : ∀ {alt : Alt} {l : Bool} {e : Option Taken}, OrderlyAlt ev ok l e alt → EndsLast isEndIf alt.code
  | _, _, _, .none => by rw [Alt.code]; exact .none (by simp)
  | _, _, _, .else h => by rw [Alt.code]; exact .cons rfl (orderly_else h)
  | _, _, _, .last h => by
    rw [Alt.code, Alt.code, List.append_nil]
    exact .cons rfl (endsLast_endIf (orderly_last h))
  | _, _, _, .elif _ h1 h2 => by
    rw [Alt.code, List.cons_append]
    exact .cons rfl (.prepend (fun s hs => not_endIf_of_not_branch (orderly_no_branch h1 s hs)) (orderlyAlt_last h2))

end

end

theorem takeWhile_stop {α : Type} {f : α → Bool} {mid : List α} {x : α} {post : List α}
    (h : ∀ a ∈ mid, f a = true) (hx : f x = false) : (mid ++ x :: post).takeWhile f = mid := by
  induction mid with
  | nil => simp [hx]
  | cons a mid ih =>
    rw [List.cons_append, List.takeWhile_cons, if_pos (h a (by simp)), ih (fun b hb => h b (by simp [hb]))]

theorem seek_at {stop : Instruction → Bool} {code pre mid post : List ScriptStep} {x : ScriptStep}
    (hc : code = pre ++ mid ++ x :: post) (hm : ∀ s ∈ mid, stop s.opcode = false) (hx : stop x.opcode = true) :
    seek stop code pre.length = pre.length + mid.length := by
  unfold seek
  rw [hc, List.append_assoc, List.drop_left', takeWhile_stop]
  · intro a ha; simp [hm a ha]
  · simp [hx]
  · rfl

section
variable (ev : Calculator) (p : Profile) (scripts : HMap FScript) (name : Str) (below : List (Str × Nat)) (T : FScript)

/-- The state at position `i` of the script. -/
def St (i : Nat) (w : World) (ls : List Nat) (b : Bool) : Vm :=
  { frames := (name, i) :: below, loops := ls, branchTaken := b, test := T, world := w }

/-- The instructions of the running script. -/
def Code : List ScriptStep := (Vm.script scripts { test := T } name below).instructions

/-- What the interpreter does for a part of a script: from `start` it gets to the end `stop` of the part, or to `out`,
after the loop around it. -/
def Gets (l : Bool) (e : Option Taken) (start : Vm) (stop out : Nat) (ls : List Nat) (a : Taken) (o : Outcome)
    (w' : World) : Prop :=
  match o with
  | .done => ∃ ls' b, Executes ev p scripts start (St name below T stop w' ls' b) ∧ a.Has b ∧ (l = false → ls' = ls) ∧
      w'.failed = false
  | .failed => ∃ v, Executes ev p scripts start v ∧ v.world = w' ∧ w'.failed = true
  | .exited => ∃ x b, e = some x ∧ x.Has b ∧ w'.failed = false ∧ Executes ev p scripts start (St name below T out w' ls b)

variable {ev p scripts name below T}

theorem step_at {i : Nat} {w : World} {ls : List Nat} {b : Bool} {s : ScriptStep}
    (h : (Code scripts name below T)[i]? = some s) :
    (St name below T i w ls b).step ev p scripts =
      (St name below T i w ls b).exec ev p scripts name i below (Code scripts name below T) s := by
  unfold Vm.step St
  dsimp only
  have : (Vm.script scripts { frames := (name, i) :: below, loops := ls, branchTaken := b, test := T, world := w }
    name below).instructions = Code scripts name below T := rfl
  rw [this, h]

theorem exec_step {i : Nat} {w : World} {ls : List Nat} {b : Bool} {s : ScriptStep} {v : Vm}
    (h : (Code scripts name below T)[i]? = some s) (hw : w.failed = false)
    (he : (St name below T i w ls b).exec ev p scripts name i below (Code scripts name below T) s = .ok v) :
    Executes ev p scripts (St name below T i w ls b) v :=
  .step hw (by simp [St]) ((step_at h).trans he) .here

/-- From the end of a script the run returns. -/
theorem pop_end {w : World} {ls : List Nat} {b : Bool} (hw : w.failed = false) {i : Nat}
    (hi : (Code scripts name below T).length ≤ i) :
    Executes ev p scripts (St name below T i w ls b)
      { frames := below, loops := ls, branchTaken := b, test := T, world := w } := by
  refine .step hw (by simp [St]) ?_ .here
  unfold Vm.step St
  dsimp only
  have h1 : (Vm.script scripts { frames := (name, i) :: below, loops := ls, branchTaken := b, test := T, world := w }
    name below).instructions = Code scripts name below T := rfl
  rw [h1, List.getElem?_eq_none hi]
  rfl

theorem Gets.prepend {l : Bool} {e : Option Taken} {u start : Vm} {stop out : Nat} {ls : List Nat} {a : Taken} {o : Outcome}
    {w' : World} (h : Executes ev p scripts u start) (hg : Gets ev p scripts name below T l e start stop out ls a o w') :
    Gets ev p scripts name below T l e u stop out ls a o w' := by
  unfold Gets at hg ⊢
  split at hg
  · obtain ⟨ls', b, h1, h2⟩ := hg
    exact ⟨ls', b, h.trans h1, h2⟩
  · obtain ⟨v, h1, h2⟩ := hg
    exact ⟨v, h.trans h1, h2⟩
  · obtain ⟨x, b, h1, h2, h3, h4⟩ := hg
    exact ⟨x, b, h1, h2, h3, h.trans h4⟩

/-- The start of a list. -/
theorem getElem_pre {α : Type} {C pre q post tl : List α} {x : α} (h : C = pre ++ q ++ post) (hq : q = x :: tl) :
    C[pre.length]? = some x := by
  rw [h, hq, List.append_assoc, List.getElem?_append_right (Nat.le_refl _)]; simp

/-- If the part of a script is in a loop then the code after it gets to the end of the loop, which is before `out`. -/
def LoopEnds (e : Option Taken) (l : Bool) (post : List ScriptStep) (stop out : Nat) : Prop :=
  ∀ x, e = some x → l = false ∧ ∃ mid r post', post = mid ++ r :: post' ∧ (∀ s ∈ mid, isEndLoop s.opcode = false) ∧
    isEndLoop r.opcode = true ∧ out = stop + mid.length + 1

/-- The loop ends after more code, too. -/
theorem LoopEnds.prepend {e : Option Taken} {l : Bool} {post pre : List ScriptStep} {stop stop' out : Nat}
    (h : LoopEnds e l post stop out) (hp : l = false → ∀ s ∈ pre, isEndLoop s.opcode = false)
    (hs : stop' + pre.length = stop) : LoopEnds e l (pre ++ post) stop' out := by
  intro x hx
  obtain ⟨hl, mid, r, post', h1, h2, h3, h4⟩ := h x hx
  refine ⟨hl, pre ++ mid, r, post', by rw [h1, List.append_assoc], ?_, h3, ?_⟩
  · intro s hs
    rcases List.mem_append.mp hs with hs | hs
    · exact hp hl s hs
    · exact h2 s hs
  · rw [h4, List.length_append]; omega

variable (ev p scripts T) in
/-- The interpreter does what `Runs` says. -/
def Sim (ok : Bool → Taken → Taken → Str → Prop) (d : Nat) (q : Prog) (w : World) (o : Outcome) (w' : World) : Prop :=
  ∀ (name : Str) (below : List (Str × Nat)) (l : Bool) (e : Option Taken) (pl : Place) (a a' : Taken)
    (pre post : List ScriptStep) (out : Nat) (ls : List Nat) (b : Bool), below.length + 1 = d →
    Orderly ev ok l e pl a q a' → w.failed = false → Code scripts name below T = pre ++ q.code ++ post → a.Has b →
    LoopEnds e l post (pre.length + q.code.length) out →
    Gets ev p scripts name below T l e (St name below T pre.length w ls b) (pre.length + q.code.length) out ls a' o w' ∧
    (∀ body rest, q = .loop body rest →
      ∀ x y, a.Le x → Orderly ev ok false (some y) pl.body x body x → Orderly ev ok l e pl y rest a' → ∀ b', x.Has b' →
      Gets ev p scripts name below T l e (St name below T (pre.length + 1) w (pre.length :: ls) b')
        (pre.length + q.code.length) out ls a' o w')

/-- The code of branches, the first one beginning with the instruction `k`. -/
def altCode (k : Instruction) : Alt → List ScriptStep
  | .elif c body alt => instr k [c] :: body.code ++ alt.code
  | a => a.code

theorem altCode_elseIf (a : Alt) : altCode .elseIf a = a.code := by
  cases a <;> simp [altCode, Alt.code]

/-- There is at most one branch. -/
def OneBranch : Alt → Prop
  | .none => True
  | .else _ => False
  | .elif _ _ alt => alt = .none

variable (ev p scripts T) in
def SimAlt (ok : Bool → Taken → Taken → Str → Prop) (d : Nat) (alt : Alt) (w : World) (o : Outcome) (w' : World) : Prop :=
  ∀ (name : Str) (below : List (Str × Nat)) (l : Bool) (e : Option Taken) (k : Instruction)
    (pre post : List ScriptStep) (x : ScriptStep) (out : Nat) (ls : List Nat) (b : Bool), below.length + 1 = d →
    k = .if ∨ k = .elseIf → (alt = .none ∨ k = .if ∧ OneBranch alt ∨ b = false) → OrderlyAlt ev ok l e alt → w.failed = false →
    x.opcode = .endIf → Code scripts name below T = pre ++ altCode k alt ++ x :: post →
    LoopEnds e l (x :: post) (pre.length + (altCode k alt).length) out →
    Gets ev p scripts name below T l e (St name below T pre.length w ls b)
      (pre.length + (altCode k alt).length) out ls none o w'

variable {ok : Bool → Taken → Taken → Str → Prop} {d : Nat}

theorem sim_nil {w : World} : Sim ev p scripts T ok d .nil w .done w := by
  intro name below l e pl a a' pre post out ls b hd hq hw hC hb hE
  cases hq with
  | nil hl => exact ⟨⟨ls, b, .here, hb.mono hl, fun _ => rfl, hw⟩, fun _ _ h => by cases h⟩

theorem exec_straight {i : Nat} {w w' : World} {ls : List Nat} {b : Bool} {s : ScriptStep}
    (h : (Code scripts name below T)[i]? = some s) (hw : w.failed = false) (hs : Straight s)
    (he : effect ev p (below.length + 1) s w = .ok w') :
    Executes ev p scripts (St name below T i w ls b) (St name below T (i + 1) w' ls b) := by
  apply exec_step h hw
  rw [exec_plain (straight_plain hs)]
  show (effect ev p (below.length + 1) s w >>= _) = _
  rw [he]; rfl

/-- The rest of a part that begins with one step. -/
theorem Sim.rest {rest : Prog} {w w' : World} {o : Outcome} (ih : Sim ev p scripts T ok d rest w o w')
    {s : ScriptStep} {l : Bool} {e : Option Taken} {pl : Place} {a a' : Taken} {pre post : List ScriptStep} {out : Nat}
    {ls : List Nat} {b : Bool} (hd : below.length + 1 = d) (hq : Orderly ev ok l e pl a rest a') (hw : w.failed = false)
    (hC : Code scripts name below T = pre ++ (s :: rest.code) ++ post) (hb : a.Has b)
    (hE : LoopEnds e l post (pre.length + (s :: rest.code).length) out) :
    Gets ev p scripts name below T l e (St name below T (pre.length + 1) w ls b) (pre.length + (s :: rest.code).length)
      out ls a' o w' := by
  have e1 : (pre ++ [s]).length + rest.code.length = pre.length + (s :: rest.code).length := by simp; omega
  have h2 := (ih name below l e pl a a' (pre ++ [s]) post out ls b hd hq hw (by rw [hC]; simp) hb (by rw [e1]; exact hE)).1
  rw [e1] at h2
  rwa [List.length_append, List.length_singleton] at h2

theorem sim_step {s : ScriptStep} {rest : Prog} {w w' w'' : World} {o : Outcome} (hs : Straight s)
    (he : effect ev p d s w = .ok w') (hf : w'.failed = false)
    (ih : Sim ev p scripts T ok d rest w' o w'') : Sim ev p scripts T ok d (.step s rest) w o w'' := by
  intro name below l e pl a a' pre post out ls b hd hq hw hC hb hE
  refine ⟨?_, fun _ _ h => by cases h⟩
  have h1 := exec_straight (ls := ls) (b := b) (getElem_pre hC rfl) hw hs (by rw [hd]; exact he)
  rw [Prog.code] at hC hE ⊢
  cases hq with
  | step _ hr => exact (ih.rest hd hr hf hC hb hE).prepend h1
  | call h _ _ => exact (not_straight_call hs h).elim
  | leave h _ _ _ => exact (not_straight_leaves hs h).elim

theorem sim_stepFail {s : ScriptStep} {rest : Prog} {w w' : World} (hs : Straight s)
    (he : effect ev p d s w = .ok w') (hf : w'.failed = true) :
    Sim ev p scripts T ok d (.step s rest) w .failed w' := by
  intro name below l e pl a a' pre post out ls b hd hq hw hC hb hE
  refine ⟨?_, fun _ _ h => by cases h⟩
  have h1 := exec_straight (ls := ls) (b := b) (getElem_pre hC rfl) hw hs (by rw [hd]; exact he)
  exact ⟨_, h1, rfl, hf⟩

/-- The start of a called script. -/
theorem exec_call {i : Nat} {w : World} {ls : List Nat} {b : Bool} {s : ScriptStep} {callee : Str}
    (h : (Code scripts name below T)[i]? = some s) (hw : w.failed = false) (hs : CallsIn ev (below.length + 1) s w callee)
    (hex : ∃ e, scripts.find? (fun e => e.2.name == callee) = some e) :
    Executes ev p scripts (St name below T i w ls b)
      (St callee ((name, i + 1) :: below) T 0 { w with vars := w.vars ++ [[]] } ls b) := by
  apply exec_step h hw
  obtain ⟨h1, c, v, h2, h3, h4⟩ := hs
  obtain ⟨e, he⟩ := hex
  unfold Vm.exec
  rw [h1]
  dsimp only
  rw [h2, ev_ok_bind]
  show (w.eval ev (below.length + 1) c >>= _) = _
  rw [h3, ev_ok_bind, h4]
  show (Except.ok callee : Ev Str) >>= _ = _
  rw [ev_ok_bind, if_pos]
  · rfl
  · have := List.find?_some he
    have hm := List.mem_of_find?_eq_some he
    exact List.any_eq_true.mpr ⟨e, hm, this⟩

theorem code_callee {env : Str → Option Prog} (hl : Linked scripts env) {callee : Str} {q : Prog}
    (h : env callee = some q) (i : Nat) : Code scripts callee ((name, i) :: below) T = q.code := by
  obtain ⟨e, h1, h2⟩ := hl callee q h
  unfold Code Vm.script
  rw [if_neg (by simp), h1]
  exact h2

theorem sim_callee {env : Str → Option Prog} (hl : Linked scripts env) (hok : OrderlyScripts ev env ok)
    {callee : Str} {q : Prog} {w w' : World} {o : Outcome} (h : env callee = some q)
    (ih : Sim ev p scripts T ok (d + 1) q w o w') {l : Bool} {a m : Taken} {i : Nat} {ls : List Nat} {b : Bool}
    (hd : below.length + 1 = d) (ho : ok l a m callee) (hw : w.failed = false) (hb : a.Has b) :
    (o = .done ∧ w'.failed = false ∧ ∃ ls' b', Executes ev p scripts (St callee ((name, i) :: below) T 0 w ls b)
        (St name below T i w' ls' b') ∧ m.Has b' ∧ (l = false → ls' = ls)) ∨
      (o = .failed ∧ w'.failed = true ∧ ∃ v, Executes ev p scripts (St callee ((name, i) :: below) T 0 w ls b) v ∧ v.world = w') := by
  obtain ⟨q', h1, h2⟩ := hok l a m callee ho
  rw [h] at h1; injection h1 with h1; subst h1
  have hC : Code scripts callee ((name, i) :: below) T = [] ++ q.code ++ [] := by
    rw [code_callee hl h]; simp
  have := (ih callee ((name, i) :: below) l none .free a m [] [] 0 ls b (by simp [← hd]) h2 hw hC hb
    (fun x hx => by cases hx)).1
  rw [List.length_nil, Nat.zero_add] at this
  cases o with
  | done =>
    obtain ⟨ls', b', h3, h4, h5, h6⟩ := this
    refine .inl ⟨rfl, h6, ls', b', h3.trans ?_, h4, h5⟩
    exact pop_end (name := callee) (below := (name, i) :: below) h6 (by rw [hC]; simp)
  | failed =>
    obtain ⟨v, h3, h4, h5⟩ := this
    exact .inr ⟨rfl, h5, v, h3, h4⟩
  | exited =>
    obtain ⟨x, _, h3, _⟩ := this
    cases h3

theorem sim_call {env : Str → Option Prog} (hl : Linked scripts env) (hok : OrderlyScripts ev env ok)
    {s : ScriptStep} {callee : Str} {q rest : Prog} {w w' w'' : World} {o : Outcome} (hs : CallsIn ev d s w callee)
    (h : env callee = some q) (ih1 : Sim ev p scripts T ok (d + 1) q { w with vars := w.vars ++ [[]] } .done w')
    (ih2 : Sim ev p scripts T ok d rest w' o w'') : Sim ev p scripts T ok d (.step s rest) w o w'' := by
  intro name below l e pl a a' pre post out ls b hd hq hw hC hb hE
  refine ⟨?_, fun _ _ h => by cases h⟩
  have hex : ∃ e, scripts.find? (fun e => e.2.name == callee) = some e := ⟨_, (hl callee q h).choose_spec.1⟩
  have h1 := exec_call (p := p) (ls := ls) (b := b) (getElem_pre hC rfl) hw (by rw [hd]; exact hs) hex
  rw [Prog.code] at hC hE ⊢
  cases hq with
  | step h _ => exact (not_straight_call h hs.1).elim
  | leave h _ _ _ => exact (not_call_leaves hs.1 h).elim
  | call _ ho hr =>
    rcases sim_callee hl hok h ih1 (i := pre.length + 1) (ls := ls) hd (ho _ ⟨_, _, hs⟩) hw hb with
      ⟨-, hf, ls', b', h2, h3, h4⟩ | ⟨h2, -⟩
    · have h5 := ((ih2.rest (ls := ls') hd hr hf hC h3 hE).prepend h2).prepend h1
      unfold Gets at h5 ⊢
      split at h5
      · obtain ⟨ls2, b2, h6, h7, h8, h9⟩ := h5
        exact ⟨ls2, b2, h6, h7, fun e => by rw [h8 e, h4 e], h9⟩
      · exact h5
      · obtain ⟨x, b2, h6, h7, h8, h9⟩ := h5
        refine ⟨x, b2, h6, h7, h8, ?_⟩
        rwa [h4 (hE x h6).1] at h9
    · cases h2

theorem sim_callFail {env : Str → Option Prog} (hl : Linked scripts env) (hok : OrderlyScripts ev env ok)
    {s : ScriptStep} {callee : Str} {q rest : Prog} {w w' : World} (hs : CallsIn ev d s w callee)
    (h : env callee = some q) (ih1 : Sim ev p scripts T ok (d + 1) q { w with vars := w.vars ++ [[]] } .failed w') :
    Sim ev p scripts T ok d (.step s rest) w .failed w' := by
  intro name below l e pl a a' pre post out ls b hd hq hw hC hb hE
  refine ⟨?_, fun _ _ h => by cases h⟩
  have hex : ∃ e, scripts.find? (fun e => e.2.name == callee) = some e := ⟨_, (hl callee q h).choose_spec.1⟩
  have h1 := exec_call (p := p) (ls := ls) (b := b) (getElem_pre hC rfl) hw (by rw [hd]; exact hs) hex
  cases hq with
  | step h _ => exact (not_straight_call h hs.1).elim
  | leave h _ _ _ => exact (not_call_leaves hs.1 h).elim
  | call _ ho hr =>
    rcases sim_callee hl hok h ih1 (i := pre.length + 1) (ls := ls) hd (ho _ ⟨_, _, hs⟩) hw hb with ⟨h2, -⟩ | ⟨-, hf, v, h2, h3⟩
    · cases h2
    · exact ⟨v, h1.trans h2, h3, hf⟩

theorem switch_one (o : Instruction) (c : Str) : (instr o [c]).switch 0 = .ok c := rfl

/-- Leaving a loop. -/
theorem after_loop {q : Prog} {l : Bool} {e : Option Taken} {pl : Place} {a a' x : Taken} {pre post : List ScriptStep}
    {out : Nat} (hq : Orderly ev ok l e pl a q a') (hC : Code scripts name below T = pre ++ q.code ++ post)
    (hE : LoopEnds e l post (pre.length + q.code.length) out) (he : e = some x) :
    afterLoop (Code scripts name below T) pre.length = .ok out := by
  obtain ⟨rfl, mid, r, post', rfl, h2, h3, h4⟩ := hE x he
  have hseek : seek isEndLoop (Code scripts name below T) pre.length = pre.length + (q.code ++ mid).length := by
    refine seek_at (post := post') (by rw [hC]; simp) ?_ h3
    intro s hs
    rcases List.mem_append.mp hs with hs | hs
    · exact orderly_no_endLoop hq s hs
    · exact h2 s hs
  unfold afterLoop
  rw [hseek, if_pos]
  · rw [h4, List.length_append, ← Nat.add_assoc]
  · rw [hC]; simp

/-- What `go_to_record` with an exit flag that is on does. -/
theorem exec_leave {i : Nat} {w w' : World} {ls : List Nat} {b : Bool} {s : ScriptStep} (hs : Leaves s)
    (hfl : ∀ c v, s.switch 1 = .ok c → w.eval ev (below.length + 1) c = .ok v → v ∉ flagOff) {r : Bool} (h : goOrLeave ev p (below.length + 1) s w = .ok (w', r)) :
    (St name below T i w ls b).exec ev p scripts name i below (Code scripts name below T) s =
      (if r then do
          let j ← liftR (afterLoop (Code scripts name below T) i)
          pure (St name below T j w' ls b)
        else pure (St name below T (i + 1) w' ls b)) := by
  unfold goOrLeave at h
  simp only [ev_bind_ok] at h
  obtain ⟨c, h1, v, h2, c2, h3, v2, h4, h⟩ := h
  have hon := hfl _ _ h3 h4
  unfold Vm.exec
  rw [hs.1]
  dsimp only
  rw [if_pos hs.2, h1, ev_ok_bind]
  show (w.eval ev (below.length + 1) c >>= _) = _
  rw [h2, ev_ok_bind, h3, ev_ok_bind]
  show (w.eval ev (below.length + 1) c2 >>= _) = _
  rw [h4, ev_ok_bind]
  show (if w.findMode = true then _ else _) = _
  cases hm : w.findMode with
  | true =>
    rw [hm, if_pos rfl] at h
    injection h with h; injection h with h5 h6
    subst h5; subst h6
    rfl
  | false =>
    rw [hm] at h
    rw [if_neg (by simp)] at h ⊢
    simp only [ev_bind_ok] at h
    obtain ⟨before, h5, db, h6, after, h7, h⟩ := h
    injection h with h; injection h with h8 h9
    show (liftR w.db.currentOcc >>= _) = _
    rw [h5, ev_ok_bind]
    show (liftR (moveRecord p w.db v) >>= _) = _
    rw [h6, ev_ok_bind, h7, ev_ok_bind]
    subst h8; subst h9
    by_cases hp : after.recordPtr = before.recordPtr
    · rw [if_pos hp, if_pos (by simp [hon, hp])]; simp only [St, hm]
    · rw [if_neg hp, if_neg (by simp [hp])]; simp only [St, hm]

theorem goOrLeave_failed {s : ScriptStep} {w w' : World} {r : Bool} (h : goOrLeave ev p d s w = .ok (w', r)) :
    w'.failed = w.failed := by
  unfold goOrLeave at h
  simp only [ev_bind_ok] at h
  obtain ⟨c, h1, v, h2, c2, h3, v2, h4, h⟩ := h
  split at h
  · injection h with h; injection h with h5 h6
    rw [← h5]
  · simp only [ev_bind_ok] at h
    obtain ⟨before, h5, db, h6, after, h7, h⟩ := h
    injection h with h; injection h with h8 h9
    rw [← h8]

theorem sim_go {s : ScriptStep} {rest : Prog} {w w' w'' : World} {o : Outcome} (hs : Leaves s)
    (he : goOrLeave ev p d s w = .ok (w', false)) (ih : Sim ev p scripts T ok d rest w' o w'') :
    Sim ev p scripts T ok d (.step s rest) w o w'' := by
  intro name below l e pl a a' pre post out ls b hd hq hw hC hb hE
  refine ⟨?_, fun _ _ h => by cases h⟩
  cases hq with
  | step h _ => exact (not_straight_leaves h hs).elim
  | call h _ _ => exact (not_call_leaves h hs).elim
  | leave _ hfl _ hr =>
    have h1 : Executes ev p scripts (St name below T pre.length w ls b) (St name below T (pre.length + 1) w' ls b) := by
      apply exec_step (getElem_pre hC rfl) hw
      rw [exec_leave hs (fun _ _ => hfl _ _ _ _) (by rw [hd]; exact he)]
      rfl
    rw [Prog.code] at hC hE ⊢
    exact (ih.rest hd hr (by rw [goOrLeave_failed he, hw]) hC hb hE).prepend h1

theorem sim_leave {s : ScriptStep} {rest : Prog} {w w' : World} (hs : Leaves s)
    (he : goOrLeave ev p d s w = .ok (w', true)) : Sim ev p scripts T ok d (.step s rest) w .exited w' := by
  intro name below l e pl a a' pre post out ls b hd hq hw hC hb hE
  refine ⟨?_, fun _ _ h => by cases h⟩
  have hq' := hq
  cases hq with
  | step h _ => exact (not_straight_leaves h hs).elim
  | call h _ _ => exact (not_call_leaves h hs).elim
  | leave _ hfl hx hr =>
    refine ⟨_, b, rfl, hb.mono hx, by rw [goOrLeave_failed he, hw], ?_⟩
    apply exec_step (getElem_pre hC rfl) hw
    rw [exec_leave hs (fun _ _ => hfl _ _ _ _) (by rw [hd]; exact he), if_pos rfl, after_loop hq' hC hE rfl]
    rfl

theorem sim_exitTrue {c : Str} {rest : Prog} {w : World} (he : w.eval ev d c = .ok t!"true") :
    Sim ev p scripts T ok d (.exitIf c rest) w .exited w := by
  intro name below l e pl a a' pre post out ls b hd hq hw hC hb hE
  refine ⟨?_, fun _ _ h => by cases h⟩
  have hq' := hq
  cases hq with
  | exitIf hx hr =>
    refine ⟨_, b, rfl, hb.mono hx, hw, ?_⟩
    apply exec_step (getElem_pre hC rfl) hw
    unfold Vm.exec
    dsimp only [instr]
    rw [show (ScriptStep.mk Instruction.exitLoopIf 0 [c]).switch 0 = .ok c from rfl, ev_ok_bind]
    show (w.eval ev (below.length + 1) c >>= _) = _
    rw [hd, he, ev_ok_bind, if_pos rfl, after_loop hq' hC hE rfl]
    rfl

theorem sim_exitFalse {c v : Str} {rest : Prog} {w w' : World} {o : Outcome}
    (he : w.eval ev d c = .ok v) (hv : v ≠ t!"true")
    (ih : Sim ev p scripts T ok d rest w o w') : Sim ev p scripts T ok d (.exitIf c rest) w o w' := by
  intro name below l e pl a a' pre post out ls b hd hq hw hC hb hE
  refine ⟨?_, fun _ _ h => by cases h⟩
  have h1 : Executes ev p scripts (St name below T pre.length w ls b) (St name below T (pre.length + 1) w ls b) := by
    apply exec_step (getElem_pre hC rfl) hw
    unfold Vm.exec
    dsimp only [instr]
    rw [show (ScriptStep.mk Instruction.exitLoopIf 0 [c]).switch 0 = .ok c from rfl, ev_ok_bind]
    show (w.eval ev (below.length + 1) c >>= _) = _
    rw [hd, he, ev_ok_bind, if_neg hv]
    rfl
  rw [Prog.code] at hC hE ⊢
  cases hq with
  | exitIf hx hr => exact (ih.rest hd hr hw hC hb hE).prepend h1

/-- It is enough to look at a loop from after its first instruction. -/
theorem sim_loop_of {body rest : Prog} {w w' : World} {o : Outcome}
    (h : ∀ (name : Str) (below : List (Str × Nat)) (e : Option Taken) (pl : Place) (x y a' : Taken)
      (pre post : List ScriptStep) (out : Nat) (ls : List Nat) (b : Bool), below.length + 1 = d →
      Orderly ev ok false (some y) pl.body x body x → Orderly ev ok true e pl y rest a' → w.failed = false →
      Code scripts name below T = pre ++ (Prog.loop body rest).code ++ post → x.Has b →
      LoopEnds e true post (pre.length + (Prog.loop body rest).code.length) out →
      Gets ev p scripts name below T true e (St name below T (pre.length + 1) w (pre.length :: ls) b)
        (pre.length + (Prog.loop body rest).code.length) out ls a' o w') :
    Sim ev p scripts T ok d (.loop body rest) w o w' := by
  intro name below l e pl a a' pre post out ls b hd hq hw hC hb hE
  have h1 : Executes ev p scripts (St name below T pre.length w ls b)
      (St name below T (pre.length + 1) w (pre.length :: ls) b) := by
    apply exec_step (getElem_pre hC rfl) hw
    rfl
  cases hq with
  | loop hx h2 h3 =>
    refine ⟨(h name below e pl _ _ a' pre post out ls b hd h2 h3 hw hC (hb.mono hx) hE).prepend h1, ?_⟩
    intro body' rest' heq x' y' hx' h2' h3' b' hb'
    injection heq with e1 e2
    subst e1; subst e2
    exact h name below e pl x' y' a' pre post out ls b' hd h2' h3' hw hC hb' hE

/-- A loop's parts. -/
theorem loop_code {C pre post : List ScriptStep} {body rest : Prog} (h : C = pre ++ (Prog.loop body rest).code ++ post) :
    C = (pre ++ [instr .loop []]) ++ body.code ++ instr .endLoop [] :: (rest.code ++ post) ∧
    C = (pre ++ instr .loop [] :: body.code ++ [instr .endLoop []]) ++ rest.code ++ post := by
  rw [h, Prog.code]
  constructor <;> simp

theorem sim_body {body rest : Prog} {w w' : World} {o : Outcome} (ih : Sim ev p scripts T ok d body w o w')
    {pl : Place} {x y : Taken} {pre post : List ScriptStep} {ls : List Nat} {b : Bool}
    (hd : below.length + 1 = d) (hq : Orderly ev ok false (some y) pl.body x body x) (hw : w.failed = false)
    (hC : Code scripts name below T = pre ++ (Prog.loop body rest).code ++ post) (hb : x.Has b) :
    Gets ev p scripts name below T false (some y) (St name below T (pre.length + 1) w (pre.length :: ls) b)
      (pre.length + 1 + body.code.length) (pre.length + 1 + body.code.length + 1) (pre.length :: ls) x o w' := by
  have e1 : (pre ++ [instr .loop []]).length = pre.length + 1 := by simp
  have := (ih name below false (some y) pl.body x x (pre ++ [instr .loop []]) _ (pre.length + 1 + body.code.length + 1)
    (pre.length :: ls) b hd hq hw (loop_code hC).1 hb (by
      intro x' hx'
      exact ⟨rfl, [], _, _, rfl, by simp, rfl, by rw [e1]; simp⟩)).1
  rwa [e1] at this

theorem sim_loopAgain {body rest : Prog} {w w' w'' : World} {o : Outcome}
    (ih1 : Sim ev p scripts T ok d body w .done w')
    (ih2 : Sim ev p scripts T ok d (.loop body rest) w' o w'') :
    Sim ev p scripts T ok d (.loop body rest) w o w'' := by
  apply sim_loop_of
  intro name below e pl x y a' pre post out ls b hd hq hr hw hC hb hE
  obtain ⟨ls', b', h1, hb', h2, hf⟩ := sim_body ih1 hd hq hw hC hb (ls := ls)
  rw [h2 rfl] at h1
  have h3 : Executes ev p scripts (St name below T (pre.length + 1 + body.code.length) w' (pre.length :: ls) b')
      (St name below T (pre.length + 1) w' (pre.length :: ls) b') := by
    have : (Code scripts name below T)[pre.length + 1 + body.code.length]? = some (instr .endLoop []) := by
      have := getElem_pre (pre := pre ++ [instr .loop []] ++ body.code) (q := instr .endLoop [] :: (rest.code ++ post))
        (post := []) (by simpa using (loop_code hC).1) rfl
      simpa [Nat.add_assoc, Nat.add_comm body.code.length 1] using this
    apply exec_step this hf
    rfl
  have h4 := (ih2 name below true e pl x a' pre post out ls b' hd (.loop (.inr rfl) hq hr) hf hC hb' hE).2 _ _ rfl x y (.inr rfl)
    hq hr b' hb'
  exact (h4.prepend h3).prepend h1

theorem sim_loopExit {body rest : Prog} {w w' w'' : World} {o : Outcome}
    (ih1 : Sim ev p scripts T ok d body w .exited w')
    (ih2 : Sim ev p scripts T ok d rest w' o w'') :
    Sim ev p scripts T ok d (.loop body rest) w o w'' := by
  apply sim_loop_of
  intro name below e pl x y a' pre post out ls b hd hq hr hw hC hb hE
  obtain ⟨x', b', hx', hb', hf, h1⟩ := sim_body ih1 hd hq hw hC hb (ls := ls)
  injection hx' with hx'
  subst hx'
  have e1 : (pre ++ instr .loop [] :: body.code ++ [instr .endLoop []]).length = pre.length + 1 + body.code.length + 1 := by
    simp; omega
  have e2 : pre.length + 1 + body.code.length + 1 + rest.code.length = pre.length + (Prog.loop body rest).code.length := by
    rw [Prog.code]; simp; omega
  have h2 := (ih2 name below true e pl y a' (pre ++ instr .loop [] :: body.code ++ [instr .endLoop []]) post out
    (pre.length :: ls) b' hd hr hf (loop_code hC).2 hb' (by rw [e1, e2]; exact hE)).1
  rw [e1, e2] at h2
  have h3 := h2.prepend h1
  unfold Gets at h3 ⊢
  split at h3
  · obtain ⟨ls', b2, h4, h5, -, h6⟩ := h3
    exact ⟨ls', b2, h4, h5, fun e => (by cases e), h6⟩
  · exact h3
  · obtain ⟨x2, _, h4, _⟩ := h3
    exact absurd (hE x2 h4).1 (by simp)

theorem sim_loopFail {body rest : Prog} {w w' : World} (ih1 : Sim ev p scripts T ok d body w .failed w') :
    Sim ev p scripts T ok d (.loop body rest) w .failed w' := by
  apply sim_loop_of
  intro name below e pl x y a' pre post out ls b hd hq hr hw hC hb hE
  exact sim_body ih1 hd hq hw hC hb (ls := ls)

theorem Gets.unknown {l : Bool} {e : Option Taken} {start : Vm} {stop out : Nat} {ls : List Nat} {a : Taken} {o : Outcome}
    {w' : World} (h : Gets ev p scripts name below T l e start stop out ls a o w') :
    Gets ev p scripts name below T l e start stop out ls none o w' := by
  unfold Gets at h ⊢
  split at h
  · obtain ⟨ls', b, h1, h2, h3⟩ := h
    exact ⟨ls', b, h1, has_none b, h3⟩
  · exact h
  · exact h

theorem alt_none {w : World} : SimAlt ev p scripts T ok d .none w .done w := by
  intro name below l e k pre post x out ls b hd hk hb ha hw hx hC hE
  exact ⟨ls, b, .here, has_none b, fun _ => rfl, hw⟩

theorem alt_else {body : Prog} {w w' : World} {o : Outcome} (ih : Sim ev p scripts T ok d body w o w') :
    SimAlt ev p scripts T ok d (.else body) w o w' := by
  intro name below l e k pre post x out ls b hd hk hb ha hw hx hC hE
  have hb : b = false := by
    rcases hb with h | h | h
    · cases h
    · exact h.2.elim
    · exact h
  subst hb
  have hcode : altCode k (.else body) = instr .else [] :: body.code := by simp [altCode, Alt.code]
  rw [hcode] at hC hE ⊢
  have h1 : Executes ev p scripts (St name below T pre.length w ls false) (St name below T (pre.length + 1) w ls false) := by
    apply exec_step (getElem_pre hC rfl) hw
    rfl
  cases ha with
  | «else» hq => exact ((ih.rest hd hq hw hC (has_some false) hE).prepend h1).unknown

/-- A sequence of ends of chains. -/
theorem exec_ends {w : World} {ls : List Nat} (hw : w.failed = false) : ∀ (n : Nat) (pre post : List ScriptStep) (b : Bool),
    Code scripts name below T = pre ++ List.replicate n (instr .endIf []) ++ post →
    Executes ev p scripts (St name below T pre.length w ls b) (St name below T (pre.length + n) w ls (if n = 0 then b else false))
  | 0, pre, post, b, _ => .here
  | n + 1, pre, post, b, hC => by
    have h1 : Executes ev p scripts (St name below T pre.length w ls b) (St name below T (pre.length + 1) w ls false) := by
      apply exec_step (getElem_pre hC List.replicate_succ) hw
      rfl
    have h2 := exec_ends (ls := ls) hw n (pre ++ [instr .endIf []]) post false (by rw [hC, List.replicate_succ]; simp)
    rw [if_neg (Nat.succ_ne_zero n)]
    rw [ite_self, List.length_append, List.length_singleton, Nat.add_assoc, Nat.add_comm 1 n] at h2
    exact h1.trans h2

/-- From the first of the ends of chains at the end of some code, the end of that code is reached. -/
theorem to_end {stop : Instruction → Bool} {code pre post : List ScriptStep} {x : ScriptStep} {w : World} {ls : List Nat}
    (hw : w.failed = false) (hcode : EndsLast stop code) (hx : stop x.opcode = true) (hs : stop .endIf = true)
    (hC : Code scripts name below T = pre ++ code ++ x :: post) :
    pre.length ≤ seek stop (Code scripts name below T) pre.length ∧
    seek stop (Code scripts name below T) pre.length < (Code scripts name below T).length ∧
    ∀ b, ∃ b', (b' = b ∨ b' = false) ∧ Executes ev p scripts
      (St name below T (seek stop (Code scripts name below T) pre.length) w ls b)
      (St name below T (pre.length + code.length) w ls b') := by
  obtain ⟨mid, n, h1, h2⟩ := hcode
  have hseek : seek stop (Code scripts name below T) pre.length = pre.length + mid.length := by
    cases n with
    | zero => exact seek_at (post := post) (x := x) (by rw [hC, h1]; simp) h2 hx
    | succ n =>
      exact seek_at (post := List.replicate n (instr .endIf []) ++ x :: post) (x := instr .endIf [])
        (by rw [hC, h1, List.replicate_succ]; simp) h2 hs
  refine ⟨by rw [hseek]; omega, by rw [hseek, hC, h1]; simp; omega, fun b => ?_⟩
  rw [hseek]
  have h3 := exec_ends (ev := ev) (p := p) (ls := ls) hw n (pre ++ mid) (x :: post) b (by rw [hC, h1]; simp)
  refine ⟨if n = 0 then b else false, by split <;> simp, ?_⟩
  have e1 : pre.length + code.length = (pre ++ mid).length + n := by rw [h1]; simp [Nat.add_assoc]
  rw [e1]
  rw [List.length_append] at h3 ⊢
  exact h3

/-- At the end of a branch that was taken the rest of the chain is skipped. -/
theorem skip_alt {alt : Alt} {l : Bool} {e : Option Taken} {pre post : List ScriptStep} {x : ScriptStep} {w : World}
    {ls : List Nat} {b : Bool} (hb : alt = .none ∨ b = true) (ha : OrderlyAlt ev ok l e alt) (hw : w.failed = false)
    (hx : x.opcode = .endIf) (hC : Code scripts name below T = pre ++ alt.code ++ x :: post) :
    ∃ b', Executes ev p scripts (St name below T pre.length w ls b)
      (St name below T (pre.length + alt.code.length) w ls b') := by
  obtain ⟨-, hlt, h1⟩ := to_end (ev := ev) (p := p) (ls := ls) hw (orderlyAlt_last ha)
    (show isEndIf x.opcode = true by rw [hx]; rfl) rfl hC
  obtain ⟨b', -, h2⟩ := h1 false
  cases alt with
  | none => exact ⟨b, .here⟩
  | «else» body =>
    obtain rfl : b = true := by rcases hb with h | h; cases h; exact h
    refine ⟨b', .trans ?_ h2⟩
    apply exec_step (getElem_pre hC rfl) hw
    unfold Vm.exec
    dsimp only [instr]
    rw [if_pos (show (St name below T pre.length w ls true).branchTaken = true from rfl), if_pos hlt]
    rfl
  | elif c body alt =>
    obtain rfl : b = true := by rcases hb with h | h; cases h; exact h
    refine ⟨b', .trans ?_ h2⟩
    apply exec_step (getElem_pre hC rfl) hw
    unfold Vm.exec
    dsimp only [instr]
    rw [if_pos (by simp [hlt, St])]
    rfl

theorem elif_code {k : Instruction} {c : Str} {body : Prog} {alt : Alt} {C pre post : List ScriptStep} {x : ScriptStep}
    (hC : C = pre ++ altCode k (.elif c body alt) ++ x :: post) :
    C = (pre ++ [instr k [c]]) ++ body.code ++ (alt.code ++ x :: post) ∧
    C = (pre ++ instr k [c] :: body.code) ++ alt.code ++ x :: post := by
  rw [hC, altCode]
  constructor <;> simp

theorem exec_elif_true {k : Instruction} {c : Str} {w : World} {ls : List Nat} {i : Nat} {b : Bool}
    (hk : k = .if ∨ k = .elseIf ∧ b = false) (he : w.eval ev (below.length + 1) c = .ok t!"true") :
    (St name below T i w ls b).exec ev p scripts name i below (Code scripts name below T) (instr k [c]) =
      .ok (St name below T (i + 1) w ls true) := by
  unfold Vm.exec
  rcases hk with rfl | ⟨rfl, rfl⟩
  · dsimp only [instr, St]
    rw [show (ScriptStep.mk Instruction.if 0 [c]).switch 0 = .ok c from rfl, ev_ok_bind]
    show (w.eval ev (below.length + 1) c >>= _) = _
    rw [he, ev_ok_bind, if_pos rfl]; rfl
  · dsimp only [instr]
    rw [if_neg (by simp [St]), if_neg (by simp [St])]
    dsimp only
    rw [show (ScriptStep.mk Instruction.elseIf 0 [c]).switch 0 = .ok c from rfl, ev_ok_bind]
    show (w.eval ev (below.length + 1) c >>= _) = _
    rw [he, ev_ok_bind, if_pos rfl]; rfl

theorem orderlyAlt_body {l : Bool} {e : Option Taken} {c : Str} {body : Prog} {alt : Alt}
    (ha : OrderlyAlt ev ok l e (.elif c body alt)) : EndsLast isBranch body.code ∧ (alt ≠ .none → ∀ s ∈ body.code, isBranch s.opcode = false) := by
  cases ha with
  | last h => exact ⟨orderly_last h, fun h => absurd rfl h⟩
  | elif _ h _ => exact ⟨.none (orderly_no_branch h), fun _ => orderly_no_branch h⟩

theorem orderlyAlt_tail {l : Bool} {e : Option Taken} {c : Str} {body : Prog} {alt : Alt}
    (ha : OrderlyAlt ev ok l e (.elif c body alt)) : OrderlyAlt ev ok l e alt := by
  cases ha with
  | last h => exact .none
  | elif _ _ h => exact h

/-- The position after `k` from which the interpreter looks for the next branch. -/
theorem exec_elif_false {k : Instruction} {c v : Str} {w : World} {ls : List Nat} {i : Nat} {b : Bool}
    (hk : k = .if ∨ k = .elseIf ∧ b = false) (he : w.eval ev (below.length + 1) c = .ok v) (hv : v ≠ t!"true")
    (hi : (Code scripts name below T)[i]? = some (instr k [c])) :
    (St name below T i w ls b).exec ev p scripts name i below (Code scripts name below T) (instr k [c]) =
      .ok (St name below T (seek isBranch (Code scripts name below T) (i + 1)) w ls b) := by
  unfold Vm.exec
  rcases hk with rfl | ⟨rfl, rfl⟩
  · have hs : seek isBranch (Code scripts name below T) i = seek isBranch (Code scripts name below T) (i + 1) := by
      unfold seek
      obtain ⟨hlt, hx⟩ := List.getElem?_eq_some_iff.mp hi
      rw [List.drop_eq_getElem_cons hlt, hx, List.takeWhile_cons, if_pos (by rfl), List.length_cons]
      omega
    dsimp only [instr, St]
    rw [show (ScriptStep.mk Instruction.if 0 [c]).switch 0 = .ok c from rfl, ev_ok_bind]
    show (w.eval ev (below.length + 1) c >>= _) = _
    rw [he, ev_ok_bind, if_neg hv, hs]; rfl
  · dsimp only [instr]
    rw [if_neg (by simp [St]), if_neg (by simp [St])]
    dsimp only
    rw [show (ScriptStep.mk Instruction.elseIf 0 [c]).switch 0 = .ok c from rfl, ev_ok_bind]
    show (w.eval ev (below.length + 1) c >>= _) = _
    rw [he, ev_ok_bind, if_neg hv]; rfl

/-- After a condition that does not hold, the next branch is reached. -/
theorem to_next_branch {l : Bool} {e : Option Taken} {k : Instruction} {c : Str} {body : Prog} {alt : Alt}
    {pre post : List ScriptStep} {x : ScriptStep} {w : World} {ls : List Nat} {b : Bool}
    (ha : OrderlyAlt ev ok l e (.elif c body alt)) (hw : w.failed = false) (hx : x.opcode = .endIf)
    (hC : Code scripts name below T = pre ++ altCode k (.elif c body alt) ++ x :: post) :
    ∃ b', (b' = b ∨ b' = false) ∧ Executes ev p scripts
      (St name below T (seek isBranch (Code scripts name below T) (pre.length + 1)) w ls b)
      (St name below T (pre.length + 1 + body.code.length) w ls b') := by
  obtain ⟨h1, h2⟩ := orderlyAlt_body ha
  -- the first step after the body begins a branch or ends the chain
  obtain ⟨y, tl, hy, hyb⟩ : ∃ y tl, alt.code ++ x :: post = y :: tl ∧ isBranch y.opcode = true := by
    cases alt with
    | none => exact ⟨x, post, rfl, by rw [hx]; rfl⟩
    | «else» b => exact ⟨_, _, rfl, rfl⟩
    | elif c b a => exact ⟨_, _, rfl, rfl⟩
  obtain ⟨-, -, h3⟩ := to_end (ev := ev) (p := p) (scripts := scripts) (name := name) (below := below) (T := T)
    (pre := pre ++ [instr k [c]]) (post := tl) (x := y) (ls := ls) hw h1 hyb rfl
    (by rw [← hy]; exact (elif_code hC).1)
  have := h3 b
  rwa [List.length_append, List.length_singleton] at this

theorem alt_true {c : Str} {body : Prog} {alt : Alt} {w w' : World} {o : Outcome}
    (he : w.eval ev d c = .ok t!"true") (ih : Sim ev p scripts T ok d body w o w') :
    SimAlt ev p scripts T ok d (.elif c body alt) w o w' := by
  intro name below l e k pre post x out ls b hd hk hb ha hw hx hC hE
  have hk' : k = .if ∨ k = .elseIf ∧ b = false := by
    rcases hk with rfl | rfl
    · exact .inl rfl
    · rcases hb with h | h | h
      · cases h
      · cases h.1
      · exact .inr ⟨rfl, h⟩
  have h1 : Executes ev p scripts (St name below T pre.length w ls b) (St name below T (pre.length + 1) w ls true) :=
    exec_step (getElem_pre hC rfl) hw (exec_elif_true hk' (by rw [hd]; exact he))
  have hlen : pre.length + 1 + body.code.length + alt.code.length = pre.length + (altCode k (.elif c body alt)).length := by
    simp [altCode]; omega
  have e1 : (pre ++ [instr k [c]]).length = pre.length + 1 := by simp
  have hE' : LoopEnds e l (alt.code ++ x :: post) ((pre ++ [instr k [c]]).length + body.code.length) out := by
    refine hE.prepend ?_ (by rw [e1]; exact hlen)
    intro hl s hs
    subst hl
    exact orderlyAlt_no_endLoop (orderlyAlt_tail ha) s hs
  obtain ⟨pl, t, hq, ht⟩ : ∃ pl t, Orderly ev ok l e pl (some true) body t ∧ (alt = .none ∨ t = some true) := by
    cases ha with
    | last h => exact ⟨_, _, h, .inl rfl⟩
    | elif _ h _ => exact ⟨_, _, h, .inr rfl⟩
  have h2 := (ih name below l e pl _ t (pre ++ [instr k [c]]) (alt.code ++ x :: post) out ls true hd hq hw (elif_code hC).1
    (has_some true) hE').1
  rw [e1] at h2
  have h3 := h2.prepend h1
  cases o with
  | exited => exact h3
  | failed => exact h3
  | done =>
    obtain ⟨ls', b', h4, h5, h6, h7⟩ := h3
    have hb' : alt = .none ∨ b' = true := by
      rcases ht with h | h
      · exact .inl h
      · rw [h] at h5; exact .inr h5.eq
    obtain ⟨b2, h8⟩ := skip_alt (ev := ev) (p := p) (ls := ls') hb' (orderlyAlt_tail ha) h7 hx (elif_code hC).2
    refine ⟨ls', b2, ?_, has_none b2, h6, h7⟩
    rw [← hlen]
    refine h4.trans ?_
    have : (pre ++ instr k [c] :: body.code).length = pre.length + 1 + body.code.length := by simp; omega
    rwa [this] at h8

theorem alt_false {c v : Str} {body : Prog} {alt : Alt} {w w' : World} {o : Outcome}
    (he : w.eval ev d c = .ok v) (hv : v ≠ t!"true")
    (ih : SimAlt ev p scripts T ok d alt w o w') :
    SimAlt ev p scripts T ok d (.elif c body alt) w o w' := by
  intro name below l e k pre post x out ls b hd hk hb ha hw hx hC hE
  have hk' : k = .if ∨ k = .elseIf ∧ b = false := by
    rcases hk with rfl | rfl
    · exact .inl rfl
    · rcases hb with h | h | h
      · cases h
      · cases h.1
      · exact .inr ⟨rfl, h⟩
  have hg := getElem_pre hC (show altCode k (.elif c body alt) = _ :: _ from rfl)
  have h1 : Executes ev p scripts (St name below T pre.length w ls b) _ :=
    exec_step hg hw (exec_elif_false hk' (by rw [hd]; exact he) hv hg)
  obtain ⟨b', hb', h2⟩ := to_next_branch (ev := ev) (p := p) (ls := ls) (b := b) ha hw hx hC
  have e1 : (pre ++ instr k [c] :: body.code).length = pre.length + 1 + body.code.length := by simp; omega
  have e2 : pre.length + 1 + body.code.length + alt.code.length = pre.length + (altCode k (.elif c body alt)).length := by
    simp [altCode]; omega
  have hb2 : alt = .none ∨ Instruction.elseIf = .if ∧ OneBranch alt ∨ b' = false := by
    rcases hb' with rfl | rfl
    · rcases hb with h | h | h
      · cases h
      · exact .inl h.2
      · exact .inr (.inr h)
    · exact .inr (.inr rfl)
  have h3 := ih name below l e .elseIf (pre ++ instr k [c] :: body.code) post x out ls b' hd (.inr rfl) hb2 (orderlyAlt_tail ha)
    hw hx (by rw [altCode_elseIf]; exact (elif_code hC).2) (by rw [altCode_elseIf, e1, e2]; exact hE)
  rw [altCode_elseIf, e1, e2] at h3
  exact (h3.prepend h2).prepend h1

theorem cond_code {c : Str} {body rest : Prog} {alt : Alt} {C pre post : List ScriptStep}
    (hC : C = pre ++ (Prog.cond c body alt rest).code ++ post) :
    C = pre ++ altCode .if (.elif c body alt) ++ instr .endIf [] :: (rest.code ++ post) ∧
    C = (pre ++ altCode .if (.elif c body alt) ++ [instr .endIf []]) ++ rest.code ++ post := by
  rw [hC, Prog.code, altCode]
  constructor <;> simp

theorem cond_len (c : Str) (body rest : Prog) (alt : Alt) :
    (Prog.cond c body alt rest).code.length = (altCode .if (.elif c body alt)).length + 1 + rest.code.length := by
  rw [Prog.code, altCode]; simp; omega

theorem sim_cond_chain {c : Str} {body rest : Prog} {alt : Alt} {w w' : World} {o : Outcome}
    (ih : SimAlt ev p scripts T ok d (.elif c body alt) w o w') {l : Bool} {e : Option Taken} {pl : Place} {a a' : Taken}
    {pre post : List ScriptStep} {out : Nat} {ls : List Nat} {b : Bool} (hd : below.length + 1 = d)
    (hq : Orderly ev ok l e pl a (.cond c body alt rest) a') (hw : w.failed = false)
    (hC : Code scripts name below T = pre ++ (Prog.cond c body alt rest).code ++ post) (hb : a.Has b)
    (hE : LoopEnds e l post (pre.length + (Prog.cond c body alt rest).code.length) out) :
    Gets ev p scripts name below T l e (St name below T pre.length w ls b)
      (pre.length + (altCode .if (.elif c body alt)).length) out ls none o w' := by
  cases hq with
  | cond _ h1 h2 h3 =>
    refine ih name below l e .if pre (rest.code ++ post) (instr .endIf []) out ls b hd (.inl rfl) ?_ h2 hw rfl (cond_code hC).1 ?_
    · by_cases h : alt = .none
      · exact .inr (.inl ⟨rfl, h⟩)
      · have := h1 h
        rw [this] at hb
        exact .inr (.inr hb.eq)
    · refine LoopEnds.prepend (pre := instr .endIf [] :: rest.code) hE ?_ ?_
      · intro hl s hs
        subst hl
        rcases List.mem_cons.mp hs with rfl | hs
        · rfl
        · exact orderly_no_endLoop h3 s hs
      · rw [cond_len]; simp; omega

theorem sim_condStop {c : Str} {body rest : Prog} {alt : Alt} {w w' : World} {o : Outcome}
    (ih : SimAlt ev p scripts T ok d (.elif c body alt) w o w') (ho : o ≠ .done) :
    Sim ev p scripts T ok d (.cond c body alt rest) w o w' := by
  intro name below l e pl a a' pre post out ls b hd hq hw hC hb hE
  refine ⟨?_, fun _ _ h => by cases h⟩
  have h := sim_cond_chain ih hd hq hw hC hb hE (ls := ls)
  cases o with
  | done => exact absurd rfl ho
  | exited => exact h
  | failed => exact h

theorem endIf_at {c : Str} {body rest : Prog} {alt : Alt} {pre post : List ScriptStep}
    (hC : Code scripts name below T = pre ++ (Prog.cond c body alt rest).code ++ post) :
    (Code scripts name below T)[pre.length + (altCode .if (.elif c body alt)).length]? = some (instr .endIf []) := by
  have := getElem_pre (pre := pre ++ altCode .if (.elif c body alt)) (q := instr .endIf [] :: (rest.code ++ post))
    (post := []) (by simpa using (cond_code hC).1) rfl
  simpa using this

theorem sim_cond {c : Str} {body rest : Prog} {alt : Alt} {w w' w'' : World} {o : Outcome}
    (ih1 : SimAlt ev p scripts T ok d (.elif c body alt) w .done w')
    (ih2 : Sim ev p scripts T ok d rest w' o w'') :
    Sim ev p scripts T ok d (.cond c body alt rest) w o w'' := by
  intro name below l e pl a a' pre post out ls b hd hq hw hC hb hE
  refine ⟨?_, fun _ _ h => by cases h⟩
  obtain ⟨ls', b', h1, -, h2, hf⟩ := sim_cond_chain ih1 hd hq hw hC hb hE (ls := ls)
  have h3 : Executes ev p scripts (St name below T (pre.length + (altCode .if (.elif c body alt)).length) w' ls' b')
      (St name below T (pre.length + (altCode .if (.elif c body alt)).length + 1) w' ls' false) := by
    apply exec_step (endIf_at hC) hf
    rfl
  have e1 : (pre ++ altCode .if (.elif c body alt) ++ [instr .endIf []]).length =
      pre.length + (altCode .if (.elif c body alt)).length + 1 := by simp [Nat.add_assoc]
  have e2 : pre.length + (altCode .if (.elif c body alt)).length + 1 + rest.code.length =
      pre.length + (Prog.cond c body alt rest).code.length := by rw [cond_len]; omega
  cases hq with
  | cond _ _ _ hr =>
    have h4 := (ih2 name below l e pl _ a' _ post out ls' false hd hr hf (cond_code hC).2 (has_some false)
      (by rw [e1, e2]; exact hE)).1
    rw [e1, e2] at h4
    have h5 := (h4.prepend h3).prepend h1
    unfold Gets at h5 ⊢
    split at h5
    · obtain ⟨l2, b2, h6, h7, h8, h9⟩ := h5
      exact ⟨l2, b2, h6, h7, fun e => by rw [h8 e, h2 e], h9⟩
    · exact h5
    · obtain ⟨x, b2, h6, h7, h8, h9⟩ := h5
      refine ⟨x, b2, h6, h7, h8, ?_⟩
      rwa [h2 (hE x h6).1] at h9

mutual

theorem runs_sim {env : Str → Option Prog} (hl : Linked scripts env) (hok : OrderlyScripts ev env ok) :
    ∀ {d : Nat} {q : Prog} {w : World} {o : Outcome} {w' : World}, Runs ev p env d q w o w' → Sim ev p scripts T ok d q w o w'
  | _, _, _, _, _, .nil => sim_nil
  | _, _, _, _, _, .step hs he hf h => sim_step hs he hf (runs_sim hl hok h)
  | _, _, _, _, _, .stepFail hs he hf => sim_stepFail hs he hf
  | _, _, _, _, _, .call hs hq h1 h2 => sim_call hl hok hs hq (runs_sim hl hok h1) (runs_sim hl hok h2)
  | _, _, _, _, _, .callFail hs hq h1 => sim_callFail hl hok hs hq (runs_sim hl hok h1)
  | _, _, _, _, _, .go hs he h => sim_go hs he (runs_sim hl hok h)
  | _, _, _, _, _, .leave hs he => sim_leave hs he
  | _, _, _, _, _, .cond h1 h2 => sim_cond (runsAlt_sim hl hok h1) (runs_sim hl hok h2)
  | _, _, _, _, _, .condStop h1 ho => sim_condStop (runsAlt_sim hl hok h1) ho
  | _, _, _, _, _, .loopAgain h1 h2 => sim_loopAgain (runs_sim hl hok h1) (runs_sim hl hok h2)
  | _, _, _, _, _, .loopExit h1 h2 => sim_loopExit (runs_sim hl hok h1) (runs_sim hl hok h2)
  | _, _, _, _, _, .loopFail h1 => sim_loopFail (runs_sim hl hok h1)
  | _, _, _, _, _, .exitTrue he => sim_exitTrue he
  | _, _, _, _, _, .exitFalse he hv h => sim_exitFalse he hv (runs_sim hl hok h)

theorem runsAlt_sim {env : Str → Option Prog} (hl : Linked scripts env) (hok : OrderlyScripts ev env ok) :
    ∀ {d : Nat} {alt : Alt} {w : World} {o : Outcome} {w' : World}, RunsAlt ev p env d alt w o w' →
      SimAlt ev p scripts T ok d alt w o w'
  | _, _, _, _, _, .none => alt_none
  | _, _, _, _, _, .else h => alt_else (runs_sim hl hok h)
  | _, _, _, _, _, .true he h => alt_true he (runs_sim hl hok h)
  | _, _, _, _, _, .false he hv h => alt_false he hv (runsAlt_sim hl hok h)

end

end

end BurnFm
