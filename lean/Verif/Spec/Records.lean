import Verif.Base

/-! The records a file consists of, as a reader of the format sees them. -/

namespace BurnFm.Spec

/-- What a chunk of a file means. -/
inductive What where
  /-- a numbered property -/
  | kv (key : Nat) (val : Bytes)
  /-- a property named by a byte string -/
  | longKv (key val : Bytes)
  /-- plain data -/
  | data (val : Bytes)
  /-- a numbered part of a larger blob -/
  | segment (n : UInt8) (val : Bytes)
  /-- entered the directory -/
  | push
  /-- left a directory -/
  | pop
  deriving DecidableEq, Repr

/-- A chunk with the directory the reader is in once the chunk has been read. -/
structure Event where
  path : List Nat
  what : What
  deriving DecidableEq, Repr

/-- The things a writer can put in a file. -/
inductive Record where
  | kv (key : UInt8) (val : Bytes)
  | kvE (key : Nat) (val : Bytes)
  | longKv (key val : Bytes)
  | data (val : Bytes)
  | push (dir : Nat)
  | pop
  deriving DecidableEq, Repr

/-- Value lengths that survive for a one-byte key. Keys 16 and 216 carry an explicit length. -/
def KvLen (key : UInt8) (n : Nat) : Prop :=
  if key = 16 ∨ key = 216 then n ≤ 255
  else n = 1 ∨ n = 2 ∨ n = 4 ∨ n = 6 ∨ n = 8 ∨ (10 ≤ n ∧ n ≤ 255)

instance (key : UInt8) (n : Nat) : Decidable (KvLen key n) := by unfold KvLen; infer_instance

/-- The records the format can represent. -/
def Representable : Record → Prop
  | .kv key val => KvLen key val.length
  | .kvE key val => 128 ≤ key ∧ key < 384 ∧ val.length ≤ 255
  | .longKv key val => key.length ≤ 255 ∧ val.length ≤ 255
  | .data val => 1 ≤ val.length ∧ val.length ≤ 255
  | .push dir => dir < 384
  | .pop => True

/-- What a reader should see of a sequence of records, starting in directory `path`. -/
def events : List Nat → List Record → List Event
  | _, [] => []
  | path, .kv key val :: rs => ⟨path, .kv key.toNat val⟩ :: events path rs
  | path, .kvE key val :: rs => ⟨path, .kv key val⟩ :: events path rs
  | path, .longKv key val :: rs => ⟨path, .longKv key val⟩ :: events path rs
  | path, .data val :: rs => ⟨path, .data val⟩ :: events path rs
  | path, .push dir :: rs => ⟨path ++ [dir], .push⟩ :: events (path ++ [dir]) rs
  | path, .pop :: rs => ⟨path.dropLast, .pop⟩ :: events path.dropLast rs

/-- The directory after a sequence of records. -/
def finalPath : List Nat → List Record → List Nat
  | path, [] => path
  | path, .push dir :: rs => finalPath (path ++ [dir]) rs
  | path, .pop :: rs => finalPath path.dropLast rs
  | path, _ :: rs => finalPath path rs

end BurnFm.Spec
