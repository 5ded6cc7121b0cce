import Verif.Model.Blocks
import Verif.Model.BlockTree
import Verif.Model.Fat

/-!
# Model: ext extent trees, block number trees and block streams

Debug output through the mediator is left out.
-/

namespace Keramics.Ext

/-- `ExtBlockRange`, ext/block_range.rs:23-35. -/
structure Range where
  logical : Nat
  physical : Nat
  count : Nat
  sparse : Bool
deriving DecidableEq, Repr

/-- The `&mut` parameters of `read_node_data`: `logical_block_number` and `block_ranges`. -/
structure State where
  logical : Nat
  ranges : List Range
deriving DecidableEq, Repr

/-! ## Extent trees -/

/-- `ExtExtentsHeader::read_data`, extents_header.rs:47-68: number of entries and depth. -/
def readHeader (data : List Byte) : R (Nat × Nat) := do
  R.require (data.length = 12)
  R.require ((← R.slice data 0 2) = [0x0a#8, 0xf3#8])
  let entries ← u16le data 2
  let depth ← u16le data 6
  R.require (depth ≤ 5)
  return (entries, depth)

/-- `ExtExtentIndex::read_data`, extent_index.rs:45-58: the physical block number. -/
def readIndex (data : List Byte) : R Nat := do
  R.require (data.length = 12)
  let lower ← u32le data 4
  let upper ← u16le data 8
  return (upper <<< 32) ||| lower

/-- `ExtExtentDescriptor`, extent_descriptor.rs:30-39. -/
structure Descriptor where
  logical : Nat
  count : Nat
  physical : Nat

/-- `ExtExtentDescriptor::read_data`, extent_descriptor.rs:52-66. -/
def readDescriptor (data : List Byte) : R Descriptor := do
  R.require (data.length = 12)
  let logical ← u32le data 0
  let count ← u16le data 4
  let upper ← u16le data 6
  let lower ← u32le data 8
  return ⟨logical, count, (upper <<< 32) ||| lower⟩

/-- extents_tree.rs:181-194: a sparse range for the blocks before the extent. -/
def fillGap (st : State) (logical : Nat) : State :=
  if st.logical < logical then ⟨logical, st.ranges ++ [⟨st.logical, 0, logical - st.logical, true⟩]⟩ else st

/-- extents_tree.rs:195-213: the range of the extent. The sum of a 32-bit and a 16-bit value does not
overflow. -/
def addExtent (st : State) (e : Descriptor) : State :=
  let st := fillGap st e.logical
  let (count, sparse) := if 32768 < e.count then (e.count - 32768, true) else (e.count, decide (e.physical = 0))
  ⟨e.logical + count, st.ranges ++ [⟨e.logical, e.physical, count, sparse⟩]⟩

/-- The loop over the entries of a leaf, extents_tree.rs:158-214, with the number of entries left and the
data offset. -/
def leafLoop (data : List Byte) : Nat → Nat → State → R (State × Nat)
  | 0, offset, st => .ok (st, offset)
  | n + 1, offset, st => do
    let entry ← readDescriptor (← R.slice data offset (offset + 12))
    leafLoop data n (offset + 12) (addExtent st entry)

/-- `read_node_at_position`, extents_tree.rs:237-263, and the computation of the position, 135. -/
def atPosition (U : List Byte) (bs : Nat) (step : List Byte → State → R State) (block : Nat) (st : State) : R State := do
  let offset ← R.mulU 64 block bs
  let data ← readExactAt U offset bs
  step data st

/-- The loop over the entries of an index node, extents_tree.rs:113-156. -/
def indexLoop (U : List Byte) (bs : Nat) (step : List Byte → State → R State) (data : List Byte) :
    Nat → Nat → State → R (State × Nat)
  | 0, offset, st => .ok (st, offset)
  | n + 1, offset, st => do
    let block ← readIndex (← R.slice data offset (offset + 12))
    let st ← atPosition U bs step block st
    indexLoop U bs step data n (offset + 12) st

/-- extents_tree.rs:216-232: the footer is read and not used. -/
def readFooter (data : List Byte) (offset : Nat) : R Unit := do
  let rest ← R.subU data.length offset
  if 4 ≤ rest then do
    let _ ← R.slice data offset (offset + 4)
    return ()
  else return ()

/-- extents_tree.rs:106-214: the entries of a node. `step` reads a sub node of a node of the given depth. -/
def nodeEntries (U : List Byte) (bs : Nat) (step : Nat → List Byte → State → R State) (data : List Byte) (entries : Nat) :
    Nat → State → R (State × Nat)
  | 0, st => leafLoop data entries 12 st
  | depth + 1, st => indexLoop U bs (step (depth + 1)) data entries 12 st

/-- `read_node_data`, extents_tree.rs:82-234, with the recursion as the argument `step`. -/
def nodeWith (U : List Byte) (bs : Nat) (step : Nat → List Byte → State → R State) (parentDepth : Nat) (data : List Byte)
    (st : State) : R State := do
  let h ← readHeader (← R.slice data 0 12)
  R.require (h.2 < parentDepth)
  let r ← nodeEntries U bs step data h.1 h.2 st
  readFooter data r.2
  return r.1

/-- `read_node_data`, extents_tree.rs:82-234. `fuel` bounds the depth of the recursion; running out of it is
reported as `panic`. -/
def readNode (U : List Byte) (bs : Nat) : Nat → Nat → List Byte → State → R State
  | 0 => nodeWith U bs fun _ _ _ => .panic
  | fuel + 1 => nodeWith U bs (readNode U bs fuel)

/-- extents_tree.rs:69-77, block_numbers_tree.rs:126-137: a sparse range up to the number of blocks. -/
def fillEnd (blocks : Nat) (st : State) : List Range :=
  if st.logical < blocks then st.ranges ++ [⟨st.logical, 0, blocks - st.logical, true⟩] else st.ranges

/-- `ExtExtentsTree::read_data_reference`, extents_tree.rs:48-79. -/
def readExtents (U : List Byte) (bs blocks : Nat) (reference : List Byte) : R (List Range) := do
  let st ← readNode U bs 6 6 reference ⟨0, []⟩
  return fillEnd blocks st

/-! ## Block number trees -/

/-- block_numbers_tree.rs:184-186: multiply once per level. -/
def power (perBlock : Nat) : Nat → Nat → R Nat
  | 0, n => .ok n
  | d + 1, n => do
    let n ← R.mulU 64 n perBlock
    power perBlock d n

/-- block_numbers_tree.rs:182-191: the number of blocks an entry stands for. -/
def entryBlocks (perBlock remaining block depth : Nat) : R Nat :=
  if block = 0 then do
    let n ← power perBlock depth 1
    return min n remaining
  else .ok 1

/-- block_numbers_tree.rs:192-239: extend the last range or add one. -/
def addBlocks (ranges : List Range) (logical block count : Nat) : List Range :=
  match ranges.getLast? with
  | some last =>
    if (last.sparse = false ∧ block = last.physical + last.count) ∨ (last.sparse = true ∧ block = 0) then
      ranges.dropLast ++ [{ last with count := last.count + count }]
    else ranges ++ [⟨logical, block, count, decide (block = 0)⟩]
  | none => ranges ++ [⟨logical, block, count, decide (block = 0)⟩]

/-- One iteration of the loop, block_numbers_tree.rs:156-240. `step` reads a sub node. -/
def numberStep (U : List Byte) (bs perBlock blocks depth : Nat) (step : List Byte → State → R State) (block : Nat)
    (st : State) : R State :=
  if block ≠ 0 ∧ 0 < depth then atPosition U bs step block st
  else do
    let count ← entryBlocks perBlock (blocks - st.logical) block depth
    let logical ← R.addU 64 st.logical count
    return ⟨logical, addBlocks st.ranges st.logical block count⟩

/-- The loop of `read_node_data`, block_numbers_tree.rs:152-241, with the number of iterations left. -/
def numbersLoop (blocks : Nat) (entry : Nat → State → R State) (data : List Byte) : Nat → Nat → State → R State
  | 0, _, st => .ok st
  | n + 1, offset, st =>
    if blocks ≤ st.logical then .ok st
    else do
      let block ← u32le data offset
      let st ← entry block st
      numbersLoop blocks entry data n (offset + 4) st

/-- `read_node_data`, block_numbers_tree.rs:142-243, and `read_node_at_position`, 246-272. The range
`(0..data_size).step_by(4)` has `data_size` divided by 4, rounded up, elements. -/
def readNumbers (U : List Byte) (bs blocks : Nat) : Nat → List Byte → State → R State
  | 0, data, st => numbersLoop blocks (numberStep U bs (bs / 4) blocks 0 (fun _ _ => .panic)) data ((data.length + 3) / 4) 0 st
  | depth + 1, data, st =>
    numbersLoop blocks (numberStep U bs (bs / 4) blocks (depth + 1) (readNumbers U bs blocks depth)) data ((data.length + 3) / 4) 0 st

/-- `ExtBlockNumbersTree::read_data_reference`, block_numbers_tree.rs:50-139. -/
def readBlockNumbers (U : List Byte) (bs blocks : Nat) (reference : List Byte) : R (List Range) := do
  let st ← readNumbers U bs blocks 0 (← R.slice reference 0 48) ⟨0, []⟩
  let st ← readNumbers U bs blocks 1 (← R.slice reference 48 52) st
  let st ← readNumbers U bs blocks 2 (← R.slice reference 52 56) st
  let st ← readNumbers U bs blocks 3 (← R.slice reference 56 60) st
  return fillEnd blocks st

/-! ## Block streams -/

/-- The loop of `ExtBlockStream::open`, block_stream.rs:62-77. -/
def openLoop (bs : Nat) : List Range → BlockTree.Tree Range → R (BlockTree.Tree Range)
  | [], tree => .ok tree
  | range :: ranges, tree => do
    let offset ← R.mulU 64 range.logical bs
    let size ← R.mulU 64 range.count bs
    let tree ← BlockTree.insert tree offset size range
    openLoop bs ranges tree

/-- `ExtBlockStream::open`, block_stream.rs:53-81. -/
def openTree (bs blocks : Nat) (ranges : List Range) : R (BlockTree.Tree Range) := do
  let size ← R.mulU 64 blocks bs
  openLoop bs ranges (BlockTree.new size 0 bs)

/-- block_stream.rs:115-138 -/
def readRange (U : List Byte) (bs : Nat) (range : Range) (relative n : Nat) : R (List Byte) :=
  if range.sparse then .ok (List.replicate n 0#8)
  else do
    let physical ← R.mulU 64 range.physical bs
    let position ← R.addU 64 physical relative
    return Blocks.readAt U position n

/-- One iteration of `read_data_from_blocks`, block_stream.rs:93-138. -/
def piece (U : List Byte) (bs : Nat) (tree : BlockTree.Tree Range) (_ : Unit) (current want : Nat) : R (List Byte × Unit) := do
  let range ← Fat.orErr (← BlockTree.get tree current)
  let logical ← R.mulU 64 range.logical bs
  let size ← R.mulU 64 range.count bs
  let relative ← R.subU current logical
  let remainder ← R.subU size relative
  let out ← readRange U bs range relative (min want remainder)
  return (out, ())

/-- `ExtBlockStream` after `open`, for `ExtBlockStream::new(block_size, size)`. -/
def stream (U : List Byte) (bs : Nat) (tree : BlockTree.Tree Range) (size : Nat) : Reader Unit :=
  Blocks.reader (piece U bs tree) size

end Keramics.Ext
