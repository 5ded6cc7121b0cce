import Verif.Model.Blocks
import Verif.Model.BlockTree

/-!
# Model: the file allocation table and FAT file streams
-/

namespace Keramics.Fat

/-- `FatFormat`, fat/enums.rs. -/
inductive Format where
  | fat12 | fat16 | fat32
deriving DecidableEq, Repr

/-- `FatBlockAllocationTable`, fat/block_allocation_table.rs:22-41. -/
structure Table where
  format : Format
  offset : Nat
  entries : Nat
  firstCluster : Nat
  clusterSize : Nat

/-- `get_largest_cluster_block_number`, block_allocation_table.rs:63-69. -/
def largest (t : Table) : Nat := match t.format with
  | .fat12 => 0x00000ff0
  | .fat16 => 0x0000fff0
  | .fat32 => 0x0ffffff0

/-- block_allocation_table.rs:83-87 -/
def entryOffset (f : Format) (i : Nat) : Nat := match f with
  | .fat12 => i / 2 * 3
  | .fat16 => i * 2
  | .fat32 => i * 4

/-- block_allocation_table.rs:88-92 -/
def entrySize (f : Format) : Nat := match f with
  | .fat12 => 3
  | .fat16 => 2
  | .fat32 => 4

/-- block_allocation_table.rs:100-112 -/
def entryValue (f : Format) (i : Nat) (data : List Byte) : R Nat := match f with
  | .fat12 => if i % 2 = 0 then do return (← u16le data 0) &&& 0x0fff else do return (← u16le data 1) >>> 4
  | .fat16 => u16le data 0
  | .fat32 => u32le data 0

/-- `read_entry`, block_allocation_table.rs:72-128, on a stream with contents `U`. -/
def readEntry (t : Table) (U : List Byte) (i : Nat) : R Nat := do
  R.require (i < t.entries)
  let position ← R.addU 64 t.offset (entryOffset t.format i)
  let data ← readExactAt U position (entrySize t.format)
  entryValue t.format i data

/-- `FatBlockRange`, fat/block_range.rs. -/
structure Range where
  logical : Nat
  physical : Nat
  size : Nat
deriving DecidableEq, Repr

/-- The loop of `FatBlockStream::open`, fat/block_stream.rs:73-115. `fuel` bounds the number of
iterations; running out of it is reported as `panic`. -/
def openLoop (t : Table) (U : List Byte) (bs : Nat) :
    Nat → Nat → List Nat → Nat → BlockTree.Tree Range → R (BlockTree.Tree Range)
  | fuel, cluster, visited, logical, tree =>
    if 2 ≤ cluster ∧ cluster < largest t then
      match fuel with
      | 0 => .panic
      | fuel + 1 => do
        R.require (cluster ∉ visited)
        let relative ← R.mulU 64 (cluster - 2) t.clusterSize
        let physical ← R.addU 64 t.firstCluster relative
        let tree ← BlockTree.insert tree logical bs ⟨logical, physical, bs⟩
        let logical ← R.addU 64 logical bs
        let next ← readEntry t U cluster
        openLoop t U bs fuel next (cluster :: visited) logical tree
    else .ok tree

/-- `FatBlockStream::open`, fat/block_stream.rs:56-119, for a stream of the given size made by
`FatBlockStream::new(block_size, size)`. Every iteration visits another entry of the table, so one more
iteration than there are entries is enough. -/
def openTree (t : Table) (U : List Byte) (bs size cluster : Nat) : R (BlockTree.Tree Range) := do
  R.check (bs ≠ 0)
  let dataSize ← R.mulU 64 (BlockTree.divCeil size bs) bs
  openLoop t U bs (t.entries + 1) cluster [] 0 (BlockTree.new dataSize 0 bs)

/-- `Option` with an error for `None`. -/
def orErr {α : Type} : Option α → R α
  | some a => .ok a
  | none => .err

/-- One iteration of `read_data_from_blocks`, fat/block_stream.rs:131-165. -/
def piece (U : List Byte) (tree : BlockTree.Tree Range) (_ : Unit) (current want : Nat) : R (List Byte × Unit) := do
  let range ← orErr (← BlockTree.get tree current)
  let relative ← R.subU current range.logical
  let remainder ← R.subU range.size relative
  let position ← R.addU 64 range.physical relative
  return (Blocks.readAt U position (min want remainder), ())

/-- `FatBlockStream` after `open`. -/
def stream (U : List Byte) (tree : BlockTree.Tree Range) (size : Nat) : Reader Unit :=
  Blocks.reader (piece U tree) size

end Keramics.Fat
