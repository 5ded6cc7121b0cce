import Verif.Model.LazyBlocks

/-! # Model: sector bitmaps of VHD and VHDX images -/

namespace Keramics.SectorBitmap

/-- The bits of a byte, in the order of the inner loop of `read_data`, vhd/sector_bitmap.rs:71-75 and
vhdx/sector_bitmap.rs:71-75: the lowest bit, shift, and so on. -/
def byteBits (b : Byte) : List Bool := (List.range 8).map fun i => b.getLsbD i

/-- The bits of the bitmap, in the order of the loops. -/
def bits (data : List Byte) : List Bool := data.flatMap byteBits

/-- The state of the loops of `read_data`, vhd/sector_bitmap.rs:66-68: offset, offset and bit of the range and the ranges
(size and whether the bit is set). -/
structure State where
  offset : Nat
  start : Nat
  value : Bool
  ranges : List (Nat × Bool)
deriving DecidableEq, Repr

/-- The body of the loops, vhd/sector_bitmap.rs:74-87, vhdx/sector_bitmap.rs:74-87. The offsets are below 2^64, as a bitmap
fits into memory. -/
def step (perBit : Nat) (s : State) (bit : Bool) : State :=
  if bit ≠ s.value then ⟨s.offset + perBit, s.offset, bit, s.ranges ++ [(s.offset - s.start, s.value)]⟩
  else ⟨s.offset + perBit, s.start, s.value, s.ranges⟩

/-- `read_data`, vhd/sector_bitmap.rs:65-97 and vhdx/sector_bitmap.rs:65-97. The two loops are one over the bits. VHD starts with the
highest bit of the first byte, VHDX with its lowest. -/
def ranges (perBit : Nat) (initial : Bool) (bits : List Bool) : List (Nat × Bool) :=
  let s := bits.foldl (step perBit) ⟨0, 0, initial, []⟩
  s.ranges ++ [(s.offset - s.start, s.value)]

/-- The loop of `read_sector_bitmap`, vhd/file.rs:294-331 and vhdx/file.rs:681-711. `unset` is the type of the range of
sectors whose bit is not set. -/
def insertRanges (unset : Lazy.Kind) : List (Nat × Bool) → Nat → Nat → Lazy.Tree → R Lazy.Tree
  | [], _, _, tree => .ok tree
  | (size, set) :: rest, media, data, tree => do
    let tree ← BlockTree.insert tree media size (if set then ⟨media, data, size, .inFile⟩ else ⟨media, 0, size, unset⟩)
    let media ← R.addU 64 media size
    let data ← R.addU 64 data size
    insertRanges unset rest media data tree

end Keramics.SectorBitmap
