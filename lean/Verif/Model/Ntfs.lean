import Verif.Model.Blocks
import Verif.Model.BlockTree
import Verif.Model.Fat

/-!
# Model: NTFS data runs, fix-up values and cluster block streams

Debug output through the mediator is left out.
-/

namespace Keramics.Ntfs

/-! ## Data runs -/

/-- `NtfsDataRunType`, ntfs/data_run.rs:18-22. -/
inductive RunType where
  | endOfList | inFile | sparse
deriving DecidableEq, Repr

/-- `NtfsDataRun`, data_run.rs:26-35. -/
structure DataRun where
  block : Nat
  count : Nat
  kind : RunType
deriving DecidableEq, Repr

/-- The loops data_run.rs:88-91 and 108-111: shift the bytes, last first, into a 64-bit value. -/
def shiftIn (start : Nat) (bytes : List Byte) : Nat :=
  bytes.reverse.foldl (fun value b => ((value <<< 8) % 2 ^ 64) ||| b.toNat) start

/-- data_run.rs:102-107: the start value of a block number, `-1` or `0` as 64 bits. -/
def startValue (last : Nat) (top : Byte) : Nat :=
  if last ≠ 0 ∧ top &&& 0x80#8 ≠ 0#8 then 2 ^ 64 - 1 else 0

/-- data_run.rs:94-118: the block number part. The byte before the end is looked at only if
`last_block_number` is not 0; here always, it exists. -/
def readBlock (data : List Byte) (last countSize blockSize count : Nat) : R (Nat × DataRun) :=
  if blockSize = 0 then .ok (1 + countSize + blockSize, ⟨0, count, .sparse⟩)
  else do
    let top ← R.get data (1 + countSize + blockSize - 1)
    let bytes ← R.slice data (1 + countSize) (1 + countSize + blockSize)
    let block ← R.addI64 (asI64 (shiftIn (startValue last top) bytes)) (asI64 last)
    return (1 + countSize + blockSize, ⟨asU64 block, count, .inFile⟩)

/-- `NtfsDataRun::read_data`, data_run.rs:48-119. -/
def readRun (data : List Byte) (last : Nat) : R (Nat × DataRun) := do
  R.require (1 ≤ data.length)
  let tuple ← R.get data 0
  let countSize := tuple.toNat &&& 0x0f
  let blockSize := tuple.toNat >>> 4
  R.require (1 + countSize + blockSize ≤ data.length)
  R.require (countSize ≤ 8)
  R.require (blockSize ≤ 8)
  if countSize = 0 then return (1, ⟨0, 0, .endOfList⟩)
  let bytes ← R.slice data 1 (1 + countSize)
  readBlock data last countSize blockSize (shiftIn 0 bytes)

/-- cluster_group.rs:76-82: the block number the next one is relative to. -/
def nextLast (last : Nat) (run : DataRun) : Nat := match run.kind with
  | .inFile => run.block
  | _ => last

/-- The loop of `read_data_runs`, cluster_group.rs:51-84. `fuel` bounds the number of iterations;
running out of it is reported as `panic`. -/
def runsLoop (data : List Byte) : Nat → Nat → Nat → List DataRun → R (Nat × List DataRun)
  | fuel, offset, last, runs =>
    if offset < data.length then
      match fuel with
      | 0 => .panic
      | fuel + 1 => do
        let rest ← R.slice data offset data.length
        let (count, run) ← readRun rest last
        let offset ← R.addU 64 offset count
        if run.kind = .endOfList then return (offset, runs)
        else runsLoop data fuel offset (nextLast last run) (runs ++ [run])
    else .ok (offset, runs)

/-- `NtfsClusterGroup::read_data_runs`, cluster_group.rs:42-86, for a new cluster group: the number of
bytes read and the data runs. -/
def readRuns (data : List Byte) (start : Nat) : R (Nat × List DataRun) := do
  let (offset, runs) ← runsLoop data data.length start 0 []
  let count ← R.subU offset start
  return (count, runs)

/-! ## Fix-up values -/

/-- One iteration of the loop, fixup_values.rs:76-87. -/
def fixOne (placeholder : List Byte) (valueOffset bufferOffset : Nat) (buffer : List Byte) : R (List Byte) :=
  if bufferOffset + 2 ≤ buffer.length then do
    let current ← R.slice buffer bufferOffset (bufferOffset + 2)
    let value ← R.slice buffer valueOffset (valueOffset + 2)
    R.require (current = placeholder)
    R.splice buffer bufferOffset (bufferOffset + 2) value
  else .ok buffer

/-- The loop, fixup_values.rs:72-90, with the number of iterations left. -/
def fixLoop (placeholder : List Byte) : Nat → Nat → Nat → List Byte → R (List Byte)
  | 0, _, _, buffer => .ok buffer
  | n + 1, valueOffset, bufferOffset, buffer => do
    let buffer ← fixOne placeholder valueOffset bufferOffset buffer
    fixLoop placeholder n (valueOffset + 2) (bufferOffset + 512) buffer

/-- `apply_fixup_values`, fixup_values.rs:19-92. The offset and the number are 16-bit values, the
additions cannot overflow. -/
def applyFixups (buffer : List Byte) (offset number : Nat) : R (List Byte) := do
  R.require (offset < buffer.length)
  R.require (offset + (2 + number * 2) ≤ buffer.length)
  let placeholder ← R.slice buffer offset (offset + 2)
  fixLoop placeholder (number - 1) (offset + 2) 510 buffer

/-! ## Cluster block streams -/

/-- `NtfsClusterGroup`, cluster_group.rs:20-29. -/
structure Group where
  first : Nat
  last : Nat
  runs : List DataRun

/-- The fields of `NtfsMftAttribute` that `open` uses, mft_attribute.rs. -/
structure Attribute where
  resident : Bool
  compressed : Bool
  allocated : Nat
  dataSize : Nat
  validSize : Nat
  groups : List Group

/-- `NtfsBlockRange`, block_range.rs. -/
structure Range where
  logical : Nat
  block : Nat
  count : Nat
  sparse : Bool
deriving DecidableEq, Repr

/-- block_stream.rs:92-100 -/
def rangeSparse (kind : RunType) : R Bool := match kind with
  | .inFile => .ok false
  | .sparse => .ok true
  | .endOfList => .err

/-- The loop over the data runs of a group, block_stream.rs:88-122: the tree, the virtual cluster number
and the virtual cluster offset. -/
def openRuns (bs : Nat) : List DataRun → Nat → Nat → BlockTree.Tree Range → R (Nat × Nat × BlockTree.Tree Range)
  | [], vcn, offset, tree => .ok (vcn, offset, tree)
  | run :: runs, vcn, offset, tree => do
    let size ← R.mulU 64 run.count bs
    let sparse ← rangeSparse run.kind
    let tree ← BlockTree.insert tree offset size ⟨offset, run.block, run.count, sparse⟩
    let vcn ← R.addU 64 vcn run.count
    let offset ← R.addU 64 offset size
    openRuns bs runs vcn offset tree

/-- block_stream.rs:123-130: the check of the last VCN of a group. -/
def lastOk (last vcn : Nat) : R Unit :=
  if last ≠ 0xffffffffffffffff then do
    let next ← R.addU 64 last 1
    R.require (next = vcn)
  else .ok ()

/-- The loop over the groups, block_stream.rs:81-131. -/
def openGroups (bs : Nat) : List Group → Nat → Nat → BlockTree.Tree Range → R (BlockTree.Tree Range)
  | [], _, _, tree => .ok tree
  | group :: groups, vcn, offset, tree => do
    R.require (group.first = vcn)
    let (vcn, offset, tree) ← openRuns bs group.runs vcn offset tree
    lastOk group.last vcn
    openGroups bs groups vcn offset tree

/-- An open `NtfsBlockStream`, block_stream.rs:26-44. -/
structure Opened where
  tree : BlockTree.Tree Range
  size : Nat
  validSize : Nat

/-- block_stream.rs:77: nothing is inserted for an attribute without allocated data. -/
def openTree (bs : Nat) (a : Attribute) (tree : BlockTree.Tree Range) : R (BlockTree.Tree Range) :=
  if 0 < a.allocated then openGroups bs a.groups 0 0 tree else .ok tree

/-- block_stream.rs:135-141 -/
def opened (a : Attribute) (tree : BlockTree.Tree Range) : Opened :=
  if a.compressed then ⟨tree, a.allocated, a.allocated⟩ else ⟨tree, a.dataSize, a.validSize⟩

/-- `NtfsBlockStream::open`, block_stream.rs:60-143. -/
def openStream (bs : Nat) (a : Attribute) : R Opened := do
  R.require (a.resident = false)
  R.check (bs ≠ 0)
  let treeSize ← R.mulU 64 (BlockTree.divCeil a.allocated bs) bs
  let tree ← openTree bs a (BlockTree.new treeSize 0 bs)
  return opened a tree

/-- block_stream.rs:191-214: the bytes of a range. -/
def readRange (U : List Byte) (bs : Nat) (range : Range) (relative n : Nat) : R (List Byte) :=
  if range.sparse then .ok (List.replicate n 0#8)
  else do
    let physical ← R.mulU 64 range.block bs
    let position ← R.addU 64 physical relative
    return Blocks.readAt U position n

/-- One iteration of `read_data_from_blocks`, block_stream.rs:155-215. -/
def piece (U : List Byte) (bs : Nat) (s : Opened) (_ : Unit) (current want : Nat) : R (List Byte × Unit) :=
  if s.validSize ≤ current then do
    let remainder ← R.subU s.size current
    return (List.replicate (min want remainder) 0#8, ())
  else do
    let range ← Fat.orErr (← BlockTree.get s.tree current)
    let size ← R.mulU 64 range.count bs
    let last ← R.addU 64 range.logical size
    let last := min last s.validSize
    let relative ← R.subU current range.logical
    let inside ← R.subU last range.logical
    let remainder ← R.subU inside relative
    let out ← readRange U bs range relative (min want remainder)
    return (out, ())

/-- `NtfsBlockStream` after `open`. -/
def stream (U : List Byte) (bs : Nat) (s : Opened) : Reader Unit := Blocks.reader (piece U bs s) s.size

end Keramics.Ntfs
