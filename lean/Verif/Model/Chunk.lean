import Verif.Model.Encoding

/-! Model of `src/chunk.rs`. -/

namespace BurnFm

/-- src/chunk.rs:3-12 `ChunkType`. -/
inductive ChunkType where
  | dataSimple | refSimple | refLong | dataSegment | pathPush | pathPop | noop
  deriving DecidableEq, Repr

/-- A directory path. Rust keeps each component as the decimal text of a number; the model keeps the
number. The last component is the innermost directory. -/
abbrev DirPath := List Nat

/-- src/chunk.rs:15-23 `Chunk`. -/
structure Chunk where
  ctype : ChunkType
  code : UInt8
  data : Option Bytes
  refData : Option Bytes
  path : DirPath
  segmentIdx : Option UInt8
  refSimple : Option Nat
  deriving DecidableEq, Repr

/-- What an opcode does to the path before the delayed pop. -/
inductive PathOp where
  | keep
  | push (n : Nat)
  | pop
  deriving DecidableEq, Repr

/-- The mutable locals of `get_chunk_from_code` after the `match` (src/chunk.rs:47-53), with the new offset
and the effect on `path`. -/
structure Body where
  ctype : ChunkType
  data : Option Bytes := none
  refData : Option Bytes := none
  segidx : Option UInt8 := none
  refSimple : Option Nat := none
  off : Nat
  pathOp : PathOp := .keep
  deriving DecidableEq, Repr

/-- src/chunk.rs:65-71. -/
def armEmpty (code : Bytes) (o : Nat) : Res Body := do
  let d ← slice code (o + 1) (o + 1)
  let _ ← idx code 1
  return { ctype := .dataSimple, data := some d, off := o + 2 }

/-- src/chunk.rs:72-80. -/
def armSmallKv (code : Bytes) (o : Nat) (c : UInt8) : Res Body := do
  let k ← idx code (o + 1)
  let len := (if c = 0x01 then 1 else 0) + 2 * (c.toNat - 1)
  let d ← slice code (o + 2) (o + (2 + len))
  return { ctype := .refSimple, data := some d, refSimple := some k.toNat, off := o + (2 + len) }

/-- src/chunk.rs:81-90. -/
def armKv (code : Bytes) (o : Nat) : Res Body := do
  let k ← idx code (o + 1)
  let len ← idx code (o + 2)
  let d ← slice code (o + 3) (o + (3 + len.toNat))
  return { ctype := .refSimple, data := some d, refSimple := some k.toNat, off := o + (3 + len.toNat) }

/-- src/chunk.rs:91-100. -/
def armSegment (code : Bytes) (o : Nat) : Res Body := do
  let s ← idx code (o + 1)
  let l ← slice code (o + 2) (o + 4)
  let len := getInt l
  let d ← slice code (o + 4) (o + (4 + len))
  return { ctype := .dataSegment, data := some d, segidx := some s, off := o + (4 + len) }

/-- src/chunk.rs:101-106. -/
def armData2 (code : Bytes) (o : Nat) : Res Body := do
  let d ← slice code (o + 1) (o + 3)
  return { ctype := .dataSimple, data := some d, off := o + 3 }

/-- src/chunk.rs:107-115. -/
def armSmallKvE (code : Bytes) (o : Nat) (c : UInt8) : Res Body := do
  let k ← slice code (o + 1) (o + 3)
  let len := (if c = 0x09 then 1 else 0) + 2 * (c.toNat - 9)
  let d ← slice code (o + 3) (o + (3 + len))
  return { ctype := .refSimple, data := some d, refSimple := some (getPathInt k), off := o + (3 + len) }

/-- src/chunk.rs:116-132. -/
def armKvE (code : Bytes) (o : Nat) : Res Body := do
  let n ← idx code (o + 1)
  if n ≠ 0xFF then
    let k ← slice code (o + 1) (o + 3)
    let len ← idx code (o + 3)
    let d ← slice code (o + 4) (o + (4 + len.toNat))
    return { ctype := .refSimple, data := some d, refSimple := some (getPathInt k),
                  off := o + (4 + len.toNat) }
  else
    let d ← slice code (o + 1) (o + 7)
    return { ctype := .dataSimple, data := some d, off := o + 7 }

/-- src/chunk.rs:133-144; when the byte after the opcode is not 0x80 the Rust code changes nothing, in
particular it does not advance `offset`. -/
def armSegmentE (code : Bytes) (o : Nat) : Res Body := do
  let n ← idx code (o + 1)
  if n = 0x80 then
    let s ← idx code (o + 2)
    let l ← slice code (o + 3) (o + 5)
    let len := getInt l
    let d ← slice code (o + 5) (o + (5 + len))
    return { ctype := .dataSegment, data := some d, segidx := some s, off := o + (5 + len) }
  else
    return { ctype := .noop, off := o }

/-- src/chunk.rs:145-150. -/
def armData3 (code : Bytes) (o : Nat) : Res Body := do
  let d ← slice code (o + 1) (o + 4)
  return { ctype := .dataSimple, data := some d, off := o + 4 }

/-- src/chunk.rs:151-157. -/
def armDataN (code : Bytes) (o : Nat) (c : UInt8) : Res Body := do
  let len := 3 + (if c = 0x11 then 1 else 0) + 2 * (c.toNat - 0x11)
  let d ← slice code (o + 1) (o + (1 + len))
  return { ctype := .dataSimple, data := some d, off := o + (1 + len) }

/-- src/chunk.rs:158-167. -/
def armRef3 (code : Bytes) (o : Nat) : Res Body := do
  let r ← slice code (o + 1) (o + 4)
  let len ← idx code (o + 4)
  let d ← slice code (o + 5) (o + (5 + len.toNat))
  return { ctype := .refLong, data := some d, refData := some r, off := o + (5 + len.toNat) }

/-- src/chunk.rs:168-177. -/
def armRef3Long (code : Bytes) (o : Nat) : Res Body := do
  let r ← slice code (o + 1) (o + 4)
  let l ← slice code (o + 4) (o + 6)
  let len := getPathInt l
  let d ← slice code (o + 6) (o + (6 + len))
  return { ctype := .refLong, data := some d, refData := some r, off := o + (6 + len) }

/-- src/chunk.rs:178-194. -/
def armData1B (code : Bytes) (o : Nat) : Res Body := do
  let n ← idx code (o + 1)
  if n = 0x00 then
    let k ← idx code (o + 2)
    let d ← slice code (o + 3) (o + 7)
    return { ctype := .refSimple, data := some d, refSimple := some k.toNat, off := o + 7 }
  else
    let d ← slice code (o + 2) (o + (2 + n.toNat))
    return { ctype := .dataSimple, data := some d, off := o + (2 + n.toNat + 2 * (0x1B - 0x19)) }

/-- src/chunk.rs:195-202. -/
def armDataSlack (code : Bytes) (o : Nat) (c : UInt8) : Res Body := do
  let len ← idx code (o + 1)
  let d ← slice code (o + 2) (o + (2 + len.toNat))
  return { ctype := .dataSimple, data := some d,
                off := o + (2 + len.toNat + (if c = 0x19 then 1 else 0) + 2 * (c.toNat - 0x19)) }

/-- src/chunk.rs:203-214. -/
def armLongKv (code : Bytes) (o : Nat) : Res Body := do
  let rlen ← idx code (o + 1)
  let r ← slice code (o + 2) (o + (2 + rlen.toNat))
  let len ← idx code (o + (2 + rlen.toNat))
  let d ← slice code (o + (3 + rlen.toNat)) (o + (3 + rlen.toNat + len.toNat))
  return { ctype := .refLong, data := some d, refData := some r,
                off := o + (3 + rlen.toNat + len.toNat) }

/-- src/chunk.rs:215-225; the Rust code does not skip the key before reading the length. -/
def armLongKv2 (code : Bytes) (o : Nat) : Res Body := do
  let rlen ← idx code (o + 1)
  let r ← slice code (o + 2) (o + (2 + rlen.toNat))
  let l ← slice code (o + 2) (o + 4)
  let len := getInt l
  let d ← slice code (o + 4) (o + (4 + len))
  return { ctype := .refLong, data := some d, refData := some r, off := o + (4 + len) }

/-- src/chunk.rs:226-238. -/
def armPush1 (code : Bytes) (o : Nat) : Res Body := do
  let n ← idx code (o + 1)
  if n = 0xFE then
    let d ← slice code (o + 2) (o + 10)
    let i ← slice code (o + 2) (o + 3)
    return { ctype := .pathPush, data := some d, off := o + 10, pathOp := .push (getPathInt i) }
  else
    let d ← slice code (o + 1) (o + 2)
    return { ctype := .pathPush, data := some d, off := o + 2, pathOp := .push (getPathInt d) }

/-- src/chunk.rs:239-246. -/
def armData23 (code : Bytes) (o : Nat) : Res Body := do
  let len ← idx code (o + 1)
  let d ← slice code (o + 2) (o + (2 + len.toNat))
  return { ctype := .dataSimple, data := some d, off := o + (2 + len.toNat) }

/-- src/chunk.rs:247-254. -/
def armPush2 (code : Bytes) (o : Nat) : Res Body := do
  let d ← slice code (o + 1) (o + 3)
  return { ctype := .pathPush, data := some d, off := o + 3, pathOp := .push (getPathInt d) }

/-- src/chunk.rs:255-262. -/
def armPush3 (code : Bytes) (o : Nat) : Res Body := do
  let d ← slice code (o + 1) (o + 4)
  return { ctype := .pathPush, data := some d, off := o + 4, pathOp := .push (getPathInt d) }

/-- src/chunk.rs:263-271. -/
def armPushN (code : Bytes) (o : Nat) : Res Body := do
  let len ← idx code (o + 1)
  let d ← slice code (o + 2) (o + 4)
  return { ctype := .pathPush, data := some d, off := o + (2 + len.toNat),
                pathOp := .push (getPathInt d) }

/-- src/chunk.rs:272-276. -/
def armPop (o : Nat) : Res Body :=
  return { ctype := .pathPop, off := o + 1, pathOp := .pop }

/-- src/chunk.rs:277-280. -/
def armNoop (o : Nat) : Res Body :=
  return { ctype := .noop, off := o + 1 }

/-- src/chunk.rs:64-285, the `match chunk_code`, for the opcode `c` (already stripped of its delay bits) at
offset `o`. `none` is the `_` arm, which the caller handles. In the arms above, the offset increments
of the Rust code are folded into the index expressions (written as `o + k`). -/
def chunkBody (code : Bytes) (o : Nat) (c : UInt8) : Res (Option Body) :=
  if c = 0x00 then some <$> armEmpty code o
  else if 0x01 ≤ c ∧ c ≤ 0x05 then some <$> armSmallKv code o c
  else if c = 0x06 then some <$> armKv code o
  else if c = 0x07 then some <$> armSegment code o
  else if c = 0x08 then some <$> armData2 code o
  else if 0x09 ≤ c ∧ c ≤ 0x0D then some <$> armSmallKvE code o c
  else if c = 0x0E then some <$> armKvE code o
  else if c = 0x0F then some <$> armSegmentE code o
  else if c = 0x10 then some <$> armData3 code o
  else if 0x11 ≤ c ∧ c ≤ 0x15 then some <$> armDataN code o c
  else if c = 0x16 then some <$> armRef3 code o
  else if c = 0x17 then some <$> armRef3Long code o
  else if c = 0x1B then some <$> armData1B code o
  else if c = 0x19 ∨ c = 0x1A ∨ c = 0x1C ∨ c = 0x1D then some <$> armDataSlack code o c
  else if c = 0x1E then some <$> armLongKv code o
  else if c = 0x1F then some <$> armLongKv2 code o
  else if c = 0x20 then some <$> armPush1 code o
  else if c = 0x23 then some <$> armData23 code o
  else if c = 0x28 then some <$> armPush2 code o
  else if c = 0x30 then some <$> armPush3 code o
  else if c = 0x38 then some <$> armPushN code o
  else if c = 0x3D ∨ c = 0x40 then some <$> armPop o
  else if c = 0x80 then some <$> armNoop o
  else .ok none

/-- Effect on the path; `Vec::pop` on an empty path does nothing. -/
def PathOp.apply : PathOp → DirPath → DirPath
  | .keep, p => p
  | .push n, p => p ++ [n]
  | .pop, p => p.dropLast

/-- Outcome of a call that does not panic: `Err("Invalid Opcode for Chunk.")` or `Ok` with the chunk and the
updated `offset` and `path`. -/
inductive Decoded where
  | invalid
  | ok (chunk : Chunk) (off : Nat) (path : DirPath)
  deriving DecidableEq, Repr

/-- The delay bits of an opcode byte (src/chunk.rs:57). -/
def delayBits (b : UInt8) : Bool := b &&& 0xC0 == 0xC0

/-- src/chunk.rs:57-60: the opcode after stripping the delay bits. -/
def stripDelay (b : UInt8) : UInt8 := if delayBits b then b &&& 0x3F else b

/-- src/chunk.rs:46-297 `get_chunk_from_code`. The error arm (281-284) divides by `offset - local` for its
message. -/
def getChunk (p : Profile) (code : Bytes) (o : Nat) (path : DirPath) (loc : Nat) : Res Decoded := do
  let b ← idx code o
  let delayed := delayBits b
  let c := stripDelay b
  match ← chunkBody code o c with
  | none =>
    let d ← usub p o loc
    if d = 0 then .error .divZero else return .invalid
  | some body =>
    let path := body.pathOp.apply path
    let path := if delayed then path.dropLast else path
    return .ok { ctype := body.ctype, code := c, data := body.data, refData := body.refData, path := path,
                 segmentIdx := body.segidx, refSimple := body.refSimple } body.off path

end BurnFm
