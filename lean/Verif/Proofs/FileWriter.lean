import Verif.Spec.FileContents
import Verif.Proofs.Raw
import Verif.Props.Segments

/-! Files written chunk by chunk, for examples. -/

namespace BurnFm
open Spec (Event What)

inductive Item where
  | kv (k : UInt8) (v : Bytes)
  | data (v : Bytes)
  | push (n : UInt8)
  | pop
  | segment (n : UInt8) (v : Bytes)
  /-- a property with a two-byte key, 128 plus `k` -/
  | kvE (k : UInt8) (v : Bytes)
  /-- a directory with a two-byte number -/
  | push2 (a b : UInt8)
  /-- a directory with a three-byte number -/
  | push3 (a b c : UInt8)

def Item.bytes : Item → Bytes
  | .kv k v => 0x06 :: k :: UInt8.ofNat v.length :: v
  | .data v => 0x23 :: UInt8.ofNat v.length :: v
  | .push n => [0x20, n]
  | .pop => [0x40]
  | .segment n v => 0x07 :: n :: UInt8.ofNat (v.length / 256) :: UInt8.ofNat v.length :: v
  | .push2 a b => [0x28, a, b]
  | .push3 a b c => [0x30, a, b, c]
  | .kvE k v => 0x0E :: 0x80 :: k :: UInt8.ofNat v.length :: v

def Item.Ok : Item → Prop
  | .kv _ v => v.length < 256
  | .data v => v.length < 256
  | .push n => n ≠ 0xFE
  | .pop => True
  | .segment _ v => v.length < 65536
  | .push2 _ _ => True
  | .push3 _ _ _ => True
  | .kvE _ v => v.length < 256

instance (i : Item) : Decidable i.Ok := by cases i <;> (unfold Item.Ok; infer_instance)

/-- The directory after an item. -/
def Item.after (path : List Nat) : Item → List Nat
  | .push n => path ++ [n.toNat]
  | .push2 _ b => path ++ [128 + b.toNat]
  | .push3 _ _ _ => path ++ [0]
  | .pop => path.dropLast
  | _ => path

def Item.what : Item → What
  | .kv k v => .kv k.toNat v
  | .data v => .data v
  | .push _ => .push
  | .push2 _ _ => .push
  | .push3 _ _ _ => .push
  | .pop => .pop
  | .segment n v => .segment n v
  | .kvE k v => .kv (128 + k.toNat) v

def itemEvents : List Nat → List Item → List Event
  | _, [] => []
  | path, i :: is => ⟨i.after path, i.what⟩ :: itemEvents (i.after path) is

def itemRaws : List Nat → List Item → List Spec.Raw
  | _, [] => []
  | path, i :: is => ⟨i.after path, (i.bytes.headD 0).toNat, i.bytes.drop 1, some i.what⟩ :: itemRaws (i.after path) is

theorem seen_items (is : List Item) : ∀ path, Spec.seen (itemRaws path is) = itemEvents path is := by
  induction is with
  | nil => intro path; rfl
  | cons i is ih => intro path; exact congrArg _ (ih _)

def itemsEnd (path : List Nat) (is : List Item) : List Nat := is.foldl Item.after path

theorem ofNat_len {n : Nat} (h : n < 256) : n = (UInt8.ofNat n).toNat := by
  rw [UInt8.toNat_ofNat']
  omega

theorem items_raw (is : List Item) (h : ∀ i ∈ is, i.Ok) : ∀ path,
    Spec.RawRun path (is.flatMap Item.bytes) (itemRaws path is) (itemsEnd path is) := by
  induction is with
  | nil => intro path; exact .nil path
  | cons i is ih =>
    intro path
    have hi := h i (by simp)
    have ih := ih (fun j hj => h j (by simp [hj])) (i.after path)
    rw [List.flatMap_cons]
    have key : ∀ (b : UInt8) (bytes : Bytes) (n : Nat), i.bytes = b :: bytes → Spec.opcode b = b.toNat → Spec.ChunkFormat (Spec.opcode b) bytes (some i.what) n →
        Spec.pathAfter b n path = i.after path →
        Spec.RawRun path (i.bytes ++ is.flatMap Item.bytes) (itemRaws path (i :: is)) (itemsEnd path (i :: is)) := by
      intro b bytes n e1 e0 e2 e3
      unfold itemRaws
      rw [e1]
      have := Spec.RawRun.cons (path := path) e2 (by rw [e3]; exact ih)
      rw [e3, e0] at this
      exact this
    cases i with
    | kv k v => exact key 0x06 _ 0 rfl rfl (.kv k _ v (ofNat_len hi)) rfl
    | data v => exact key 0x23 _ 0 rfl rfl (.data23 _ v (ofNat_len hi)) rfl
    | push n => exact key 0x20 _ _ rfl rfl (.push1 n hi) rfl
    | push2 a c => exact key 0x28 _ _ rfl rfl (.push2 a c) rfl
    | push3 a c d => exact key 0x30 _ _ rfl rfl (.push3 a c d) rfl
    | pop => exact key 0x40 _ 0 rfl rfl (.pop _ (Or.inr rfl)) rfl
    | segment n v =>
      refine key 0x07 _ 0 rfl rfl (.segment n _ _ v ?_) rfl
      have : v.length < 65536 := hi
      rw [UInt8.toNat_ofNat', UInt8.toNat_ofNat']
      omega
    | kvE k v => exact key 0x0E _ 0 rfl rfl (.kvE 0x80 k _ v (by decide) (ofNat_len hi)) rfl

theorem fileOf_body {body : Bytes} {raws : List Spec.Raw} (hl : body.length ≤ 4076) (h : Spec.RawRun [] body raws []) :
    Spec.RawFileOf (Props.threeSectors 0 body) raws := by
  obtain ⟨l1, l2, l3, l4⟩ := Props.threeSectors_spec 0 body hl
  have n1 : Spec.nextSector (Props.threeSectors 0 body) 1 = 2 := l2
  have n2 : Spec.nextSector (Props.threeSectors 0 body) 2 = 0 := l3
  refine ⟨by omega, ?_⟩
  have hc : ((Props.threeSectors 0 body).drop (2 * 4096 + 20)).take 4076 = body ++ Spec.zeros (4076 - body.length) := by
    have hlen : (body ++ Spec.zeros (4076 - body.length)).length = 4076 := by
      rw [List.length_append, Props.zeros_length]
      omega
    apply List.ext_getElem?
    intro k
    rw [List.getElem?_take]
    split
    · rw [List.getElem?_drop, l4]
    · rw [List.getElem?_eq_none (by omega)]
  have := Spec.RawSectors.sector (buf := Props.threeSectors 0 body) (i := 2) (rest := []) (by omega) (by omega) (by omega) hc h (by rw [n2]; exact .last)
  rw [List.append_nil] at this
  exact this

/-- A file that consists of the given chunks. -/
def itemFile (is : List Item) : Bytes := Props.threeSectors 0 (is.flatMap Item.bytes)

theorem itemFile_raw (is : List Item) (h : ∀ i ∈ is, i.Ok) (hl : (is.flatMap Item.bytes).length ≤ 4076) (he : itemsEnd [] is = []) :
    Spec.RawFileOf (itemFile is) (itemRaws [] is) := by
  have := items_raw is h []
  rw [he] at this
  exact fileOf_body hl this

theorem itemFile_spec (is : List Item) (h : ∀ i ∈ is, i.Ok) (hl : (is.flatMap Item.bytes).length ≤ 4076) (he : itemsEnd [] is = []) :
    Spec.FileOf (itemFile is) (itemEvents [] is) := by
  have := rawFile_file (itemFile_raw is h hl he)
  rwa [seen_items] at this

end BurnFm
