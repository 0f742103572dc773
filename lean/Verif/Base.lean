import Lean.Parser.Term

/-!
# Conventions shared by the whole model

Panics, build profiles, text and bytes. See DESIGN.md, section "Conventions".
-/
namespace BurnFm

/-- Why a Rust function panicked. A panic aborts the program. -/
inductive Panic where
  /-- slice or `Vec` index out of bounds -/
  | index
  /-- `unwrap`/`expect` on `None` or `Err` -/
  | unwrap
  /-- arithmetic overflow with overflow checks on (`cargo build`, `cargo test`) -/
  | overflow
  /-- division by zero -/
  | divZero
  /-- `unreachable!`, `unimplemented!`, `panic!` -/
  | explicit
  deriving DecidableEq, Repr

/-- Result of a Rust function that may panic. -/
abbrev Res (α : Type) := Except Panic α

instance instDecEqRes {α : Type} [DecidableEq α] : DecidableEq (Res α)
  | .ok a, .ok b => if h : a = b then .isTrue (by rw [h]) else .isFalse (fun e => h (Except.ok.inj e))
  | .error a, .error b => if h : a = b then .isTrue (by rw [h]) else .isFalse (fun e => h (Except.error.inj e))
  | .ok _, .error _ => .isFalse nofun
  | .error _, .ok _ => .isFalse nofun

/-- Rust build profile: `debug` traps arithmetic overflow, `release` wraps. -/
inductive Profile where
  | debug
  | release
  deriving DecidableEq, Repr

/-- `a - b` on `usize` (64 bit). -/
def usub (p : Profile) (a b : Nat) : Res Nat :=
  if b ≤ a then .ok (a - b)
  else match p with
    | .debug => .error .overflow
    | .release => .ok (2 ^ 64 + a - b)

/-- Text: the sequence of characters of a Rust `String`. -/
abbrev Str := List Char

/-- A byte slice or `Vec<u8>`. -/
abbrev Bytes := List UInt8

/-- `t!"abc"` is the text `['a','b','c']`. -/
scoped macro:max "t!" s:str : term => do
  let cs := s.getString.toList.map fun c => Lean.Syntax.mkCharLit c
  `(([$(cs.toArray),*] : List Char))

/-- `xs[i]` -/
def idx {α : Type} (xs : List α) (i : Nat) : Res α :=
  match xs[i]? with
  | some a => .ok a
  | none => .error .index

/-- `&xs[a..b]` -/
def slice {α : Type} (xs : List α) (a b : Nat) : Res (List α) :=
  if a ≤ b ∧ b ≤ xs.length then .ok ((xs.drop a).take (b - a)) else .error .index

/-- `opt.unwrap()` -/
def unwrap {α : Type} : Option α → Res α
  | some a => .ok a
  | none => .error .unwrap

end BurnFm
