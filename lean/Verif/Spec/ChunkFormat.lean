import Verif.Spec.Records
import Verif.Spec.Path

/-! The chunk format: which bytes follow an opcode, and what they mean. -/

namespace BurnFm.Spec

/-- The value length of the short numbered properties, by opcode: 1, 2, 4, 6, 8 bytes. -/
def shortLen (i : Nat) : Nat := if i = 0 then 1 else 2 * i

/-- `ChunkFormat c bytes w n`: the opcode `c` followed by `bytes` is a chunk that means `w`; if it enters a directory, `n`
is its number. Two-byte numbers stand for 128 plus their second byte (their first byte is not decoded, see C01).
Three-byte numbers are all read as 0. The opcode 0x1F is left out. -/
inductive ChunkFormat : Nat → Bytes → Option What → Nat → Prop
  /-- 0x00: one byte that is skipped, no data -/
  | empty (skipped : UInt8) : ChunkFormat 0x00 [skipped] (some (.data [])) 0
  /-- 0x01-0x05: key, value -/
  | shortKv (i : Nat) (k : UInt8) (d : Bytes) : i < 5 → d.length = shortLen i →
      ChunkFormat (0x01 + i) (k :: d) (some (.kv k.toNat d)) 0
  /-- 0x06: key, length, value -/
  | kv (k len : UInt8) (d : Bytes) : d.length = len.toNat → ChunkFormat 0x06 (k :: len :: d) (some (.kv k.toNat d)) 0
  /-- 0x07: segment number, two-byte length, data -/
  | segment (s l1 l2 : UInt8) (d : Bytes) : d.length = 256 * l1.toNat + l2.toNat →
      ChunkFormat 0x07 (s :: l1 :: l2 :: d) (some (.segment s d)) 0
  /-- 0x08: two bytes of data -/
  | data2 (d : Bytes) : d.length = 2 → ChunkFormat 0x08 d (some (.data d)) 0
  /-- 0x09-0x0D: two-byte key, value -/
  | shortKvE (i : Nat) (k1 k2 : UInt8) (d : Bytes) : i < 5 → d.length = shortLen i →
      ChunkFormat (0x09 + i) (k1 :: k2 :: d) (some (.kv (128 + k2.toNat) d)) 0
  /-- 0x0E: two-byte key, length, value -/
  | kvE (k1 k2 len : UInt8) (d : Bytes) : k1 ≠ 0xFF → d.length = len.toNat →
      ChunkFormat 0x0E (k1 :: k2 :: len :: d) (some (.kv (128 + k2.toNat) d)) 0
  /-- 0x0E 0xFF: six bytes of data, of which 0xFF is the first -/
  | dataFF (d : Bytes) : d.length = 5 → ChunkFormat 0x0E (0xFF :: d) (some (.data (0xFF :: d))) 0
  /-- 0x0F 0x80: segment number, two-byte length, data -/
  | segmentE (s l1 l2 : UInt8) (d : Bytes) : d.length = 256 * l1.toNat + l2.toNat →
      ChunkFormat 0x0F (0x80 :: s :: l1 :: l2 :: d) (some (.segment s d)) 0
  /-- 0x10: three bytes of data -/
  | data3 (d : Bytes) : d.length = 3 → ChunkFormat 0x10 d (some (.data d)) 0
  /-- 0x11-0x15: 4, 5, 7, 9, 11 bytes of data -/
  | dataN (i : Nat) (d : Bytes) : i < 5 → d.length = 3 + shortLen i → ChunkFormat (0x11 + i) d (some (.data d)) 0
  /-- 0x16: three-byte key, length, value -/
  | ref3 (k1 k2 k3 len : UInt8) (d : Bytes) : d.length = len.toNat →
      ChunkFormat 0x16 (k1 :: k2 :: k3 :: len :: d) (some (.longKv [k1, k2, k3] d)) 0
  /-- 0x17: three-byte key, two-byte length, value -/
  | ref3Long (k1 k2 k3 l1 l2 : UInt8) (d : Bytes) : d.length = 128 + l2.toNat →
      ChunkFormat 0x17 (k1 :: k2 :: k3 :: l1 :: l2 :: d) (some (.longKv [k1, k2, k3] d)) 0
  /-- 0x19, 0x1A, 0x1C, 0x1D: length, data, and 1, 2, 6, 8 bytes that are skipped -/
  | dataSlack (i : Nat) (len : UInt8) (d slack : Bytes) : i < 5 → i ≠ 2 → d.length = len.toNat →
      slack.length = shortLen i → ChunkFormat (0x19 + i) (len :: d ++ slack) (some (.data d)) 0
  /-- 0x1B with a non-zero length: length, data, four bytes that are skipped -/
  | data1B (len : UInt8) (d slack : Bytes) : len ≠ 0 → d.length = len.toNat → slack.length = 4 →
      ChunkFormat 0x1B (len :: d ++ slack) (some (.data d)) 0
  /-- 0x1B 0x00: key, four bytes of value -/
  | kv1B (k : UInt8) (d : Bytes) : d.length = 4 → ChunkFormat 0x1B (0 :: k :: d) (some (.kv k.toNat d)) 0
  /-- 0x1E: key length, key, value length, value -/
  | longKv (klen len : UInt8) (k d : Bytes) : k.length = klen.toNat → d.length = len.toNat →
      ChunkFormat 0x1E (klen :: k ++ len :: d) (some (.longKv k d)) 0
  /-- 0x20: one-byte directory number -/
  | push1 (n : UInt8) : n ≠ 0xFE → ChunkFormat 0x20 [n] (some .push) n.toNat
  /-- 0x20 0xFE: eight bytes, the first of which is the directory number -/
  | pushFE (n : UInt8) (d : Bytes) : d.length = 7 → ChunkFormat 0x20 (0xFE :: n :: d) (some .push) n.toNat
  /-- 0x23: length, data -/
  | data23 (len : UInt8) (d : Bytes) : d.length = len.toNat → ChunkFormat 0x23 (len :: d) (some (.data d)) 0
  /-- 0x28: two-byte directory number -/
  | push2 (n1 n2 : UInt8) : ChunkFormat 0x28 [n1, n2] (some .push) (128 + n2.toNat)
  /-- 0x30: three-byte directory number -/
  | push3 (n1 n2 n3 : UInt8) : ChunkFormat 0x30 [n1, n2, n3] (some .push) 0
  /-- 0x38: length, directory number of that many bytes, of which the first two are used -/
  | pushN (len n1 n2 : UInt8) (d : Bytes) : d.length + 2 = len.toNat →
      ChunkFormat 0x38 (len :: n1 :: n2 :: d) (some .push) (128 + n2.toNat)
  /-- 0x3D, 0x40: leave the directory -/
  | pop (c : Nat) : c = 0x3D ∨ c = 0x40 → ChunkFormat c [] (some .pop) 0
  /-- 0x80: nothing -/
  | noop : ChunkFormat 0x80 [] none 0

/-- `FormatRun path bytes evs path'`: `bytes` is a sequence of chunks in the format; a reader who starts in directory `path`
should see the events `evs` and end in directory `path'`. -/
inductive FormatRun : List Nat → Bytes → List Event → List Nat → Prop
  | nil (path : List Nat) : FormatRun path [] [] path
  | cons {path path' : List Nat} {b : UInt8} {bytes rest : Bytes} {w : Option What} {n : Nat} {evs : List Event} :
      ChunkFormat (opcode b) bytes w n → FormatRun (pathAfter b n path) rest evs path' →
      FormatRun path (b :: bytes ++ rest) ((w.map (fun w => ⟨pathAfter b n path, w⟩)).toList ++ evs) path'

end BurnFm.Spec
