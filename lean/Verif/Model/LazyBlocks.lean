import Verif.Model.Blocks
import Verif.Model.BlockTree

/-!
# Model: block trees that are filled while reading

The VHD, VHDX and QCOW readers have the same read loop: if the block tree has nothing for the position, the table entry for
it is read, which inserts ranges into the tree; then the range is read from the file, the parent (backing) file, or is
zeros. Only how the tree is filled differs.
-/

namespace Keramics.Lazy

/-- `VhdBlockRangeType` (vhd/block_range.rs:15-20), `VhdxBlockRangeType` (vhdx/block_range.rs:15-20) and
`QcowBlockRangeType` (qcow/block_range.rs). -/
inductive Kind where
  | inFile | inParent | sparse | compressed
deriving DecidableEq, Repr

/-- `VhdBlockRange`, `VhdxBlockRange` and `QcowBlockRange`: for instance vhdx/block_range.rs:23-36. -/
structure Range where
  media : Nat
  data : Nat
  size : Nat
  kind : Kind
deriving DecidableEq, Repr

abbrev Tree := BlockTree.Tree Range

/-- The value of the tree, or an error: vhdx/file.rs:742-750, vhd/file.rs:362-370, qcow/file.rs:459-467. -/
def found : Option Range → R Range
  | some range => .ok range
  | none => .err

/-- Look up the range, and fill the tree if there is none: vhdx/file.rs:726-750, vhd/file.rs:346-370,
qcow/file.rs:443-467. `fill` reads the table entry. -/
def lookup (fill : Tree → R Tree) (tree : Tree) (current : Nat) : R (Tree × Range) := do
  let value ← BlockTree.get tree current
  match value with
  | some range => .ok (tree, range)
  | none => do
    let tree' ← fill tree
    let range ← found (← BlockTree.get tree' current)
    return (tree', range)

/-- The bytes of the range: vhdx/file.rs:760-794, vhd/file.rs:380-414, qcow/file.rs:477-515 (where a compressed range is a
`todo!()`). The parent is the bytes of its media. -/
def rangeBytes (file : List Byte) (parent : Option (List Byte)) (range : Range) (current relative count : Nat) : R (List Byte) :=
  match range.kind with
  | .inFile => do
    let position ← R.addU 64 range.data relative
    return Blocks.readAt file position count
  | .inParent => match parent with
    | some bytes => .ok (Blocks.readAt bytes current count)
    | none => .err
  | .sparse => .ok (List.replicate count 0#8)
  | .compressed => .panic

/-- One iteration of `read_data_from_blocks`: vhdx/file.rs:722-802, vhd/file.rs:342-422, qcow/file.rs:439-521. The state is
the tree and the number of the block, that each iteration increases (for QCOW the number is not used). -/
def piece (fill : Nat → Nat → Tree → R Tree) (file : List Byte) (parent : Option (List Byte)) (s : Tree × Nat) (current want : Nat) :
    R (List Byte × (Tree × Nat)) := do
  let (tree, range) ← lookup (fill s.2 current) s.1 current
  let relative ← R.subU current range.media
  let remainder ← R.subU range.size relative
  let out ← rangeBytes file parent range current relative (min want remainder)
  return (out, (tree, s.2 + 1))

/-- The stream: vhdx/file.rs:716-804 and 837-882, vhd/file.rs:336-424 and 464-517, qcow/file.rs:434-523 and 543-581. The
number of the first block is the position divided by the block size. -/
def stream (fill : Nat → Nat → Tree → R Tree) (file : List Byte) (parent : Option (List Byte)) (blockSize mediaSize : Nat) : Reader Tree :=
  Blocks.readerWith (piece fill file parent) mediaSize (fun tree current => (tree, current / blockSize)) Prod.fst

end Keramics.Lazy
