import Verif.Model.Decompiler

/-! What the decompiler writes to the terminal while it reads a file (`src/decompile/decompiler.rs`, `src/chunk.rs`). The results
are those of `Model/Decompiler`; this file only adds the lines. -/

namespace BurnFm

/-- A line on the terminal. -/
inductive DecLine where
  /-- src/decompile/decompiler.rs:297, standard output -/
  | source (b : UInt8)
  /-- src/decompile/decompiler.rs:60 `unrecognized intrinsic.`, standard error -/
  | intrinsic
  /-- src/chunk.rs:282 `Unknown code @ B:{}, O:{}: {:x}`, standard error -/
  | unknownCode (b o : Nat) (code : UInt8)
  deriving DecidableEq, Repr

/-- src/decompile/decompiler.rs:18-139 `decompile_calculation`: the lines it writes, up to its end or to a panic. The text it
builds is `decompileCalculation`. -/
def calcLines : Bytes → List DecLine
  | [] => []
  | c :: rest =>
    match calcText c with
    | some _ => calcLines rest
    | none =>
      if c = 0x9c then
        match rest with
        | [] => []
        | _ :: rest => calcLines rest
      else if c = 0xfb then
        match rest with
        | [] => []
        | k :: rest => (if k = 0x3 then [] else [.intrinsic]) ++ calcLines rest
      else if c = 0x10 then
        match rest[8]? with
        | none => []
        | some _ => calcLines (rest.drop 19)
      else if c = 0x13 ∨ c = 0x1a then
        match rest with
        | [] => []
        | n :: rest => if n.toNat ≤ rest.length then calcLines (rest.drop n.toNat) else []
      else calcLines rest
termination_by b => b.length
decreasing_by all_goals (simp; try omega)

/-- src/decompile/decompiler.rs:270-746, the lines written while one chunk is handled, see `dispatch`: the table occurrences
(284-298), the results of scripts (499-517) and the parameters of steps (564-570). -/
def dispatchLines (st : DState) (path : DirPath) (ch : Chunk) : List DecLine :=
  match classify path with
  | .occurrence =>
    if ch.refSimple = some 2 then
      match ch.data with
      | none => []
      | some d => if 6 < d.length then [.source (d.getD 2 0)] else []
    else []
  | .stepExpr script step =>
    if ch.refSimple.getD 0 = 5 then
      match st.file.scripts.get script with
      | none => []
      | some sc =>
        match sc.instructions.find? (fun i => i.index == step) with
        | none => []
        | some i =>
          if i.opcode = .exitScript then
            match ch.data with
            | none => []
            | some d => calcLines d
          else []
    else []
  | .stepValue _ _ =>
    if ch.refSimple.getD 0 = 5 then
      match ch.data with
      | none => []
      | some d => calcLines d
    else []
  | _ => []

/-- src/decompile/decompiler.rs:262-747, the chunk loop of one sector, see `sectorLoop`, with the line that `get_chunk` writes
for an opcode it does not know (src/chunk.rs:281-284). -/
def sectorSaid (p : Profile) (buf : Bytes) (start bound : Nat) : Nat → Nat → DirPath → DState → List DecLine × Res (Option DState)
  | 0, _, _, _ => ([], .ok none)
  | fuel + 1, off, path, st =>
    if off < bound then
      match getChunk p buf off path start with
      | .error e => ([], .error e)
      | .ok .invalid => ([.unknownCode (4096 / (off - start)) start (stripDelay (buf.getD off 0))], .error .unwrap)
      | .ok (.ok ch off' path') =>
        match dispatch p st path' ch with
        | .error e => (dispatchLines st path' ch, .error e)
        | .ok st' =>
          let r := sectorSaid p buf start bound fuel off' path' st'
          (dispatchLines st path' ch ++ r.1, r.2)
    else ([], .ok (some st))

/-- src/decompile/decompiler.rs:251-749, the loop over sectors, see `fileLoop`. -/
def fileSaid (p : Profile) (buf : Bytes) (nBlocks : Nat) : Nat → Nat → DState → List DecLine × Res (Option DState)
  | 0, _, _ => ([], .ok none)
  | fuel + 1, i, st =>
    if i = 0 then ([], .ok (some st))
    else
      match getSector buf (i * 4096) with
      | .error e => ([], .error e)
      | .ok sec =>
        if nBlocks < i then ([], .error .index)
        else
          match sectorSaid p buf (i * 4096) (i * 4096 + 4096) fuel (i * 4096 + 20) [] st with
          | (ls, .error e) => (ls, .error e)
          | (ls, .ok none) => (ls, .ok none)
          | (ls, .ok (some st')) =>
            let r := fileSaid p buf nBlocks fuel sec.next st'
            (ls ++ r.1, r.2)

/-- src/decompile/decompiler.rs:223-787 `decompile_fmp12_file`, see `decompile`. Putting the scripts together writes nothing. -/
def decompileSaid (p : Profile) (buf : Bytes) (fuel : Nat) : List DecLine × Res (Option FmpFile) :=
  match getSector buf 4096 with
  | .error e => ([], .error e)
  | .ok first =>
    match fileSaid p buf first.next fuel 2 {} with
    | (ls, .error e) => (ls, .error e)
    | (ls, .ok none) => (ls, .ok none)
    | (ls, .ok (some st)) => (ls, some <$> assembleScripts st)

end BurnFm
