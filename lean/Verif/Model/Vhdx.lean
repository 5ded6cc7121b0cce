import Verif.Model.SectorBitmap
import Verif.Base.Ints

/-!
# Model: VHDX images

The file and image headers, the region tables and the metadata table (vhdx/file.rs:148-243 and 273-563) are modelled in VhdxOpen.lean: the values
they give are those of `Metadata`. The log of an image is not replayed by the code. `set_parent` (807-834) is not modelled: the parent,
if there is one, is the bytes of its media.
-/

namespace Keramics.Vhdx

/-- `VhdxDiskType`, vhdx/enums.rs. -/
inductive DiskType where
  | fixed | dynamic | differential | unknown
deriving DecidableEq, Repr

/-- The values of the metadata items and of the region of the block allocation table: the block size and flags of the file parameters,
the virtual disk size, the logical sector size, and the offset and size of the region. -/
structure Metadata where
  blockSize : Nat
  flags : Nat
  mediaSize : Nat
  sectorSize : Nat
  tableOffset : Nat
  tableSize : Nat
deriving DecidableEq, Repr

/-- vhdx/file.rs:316-321. -/
def diskTypeOf (flags : Nat) : DiskType :=
  if flags % 4 = 0 then .fixed else if flags % 4 = 1 then .dynamic else if flags % 4 = 2 then .differential else .unknown

/-- `VhdxFile`, vhdx/file.rs:36-84, without the tree. -/
structure Image where
  diskType : DiskType
  sectorSize : Nat
  blockSize : Nat
  mediaSize : Nat
  tableOffset : Nat
  entries : Nat
  perChunk : Nat
  bitmapSize : Nat
deriving DecidableEq, Repr

/-- The checks of the values, vhdx/file.rs:332-337 and 406-412, and the end of `read_metadata`, 244-268. -/
def openImage (m : Metadata) : R (Image × Lazy.Tree) := do
  R.require (1048576 ≤ m.blockSize ∧ m.blockSize ≤ 268435456)
  R.require (m.sectorSize = 512 ∨ m.sectorSize = 4096)
  let perChunk := 8388608 * m.sectorSize / m.blockSize
  R.check (perChunk ≠ 0)
  let bitmapSize := 1048576 / perChunk
  let entries := m.tableSize / 8
  let dataSize ← R.mulU 64 entries m.blockSize
  R.require (m.mediaSize ≤ dataSize)
  return (⟨diskTypeOf m.flags, m.sectorSize, m.blockSize, m.mediaSize, m.tableOffset, entries, perChunk, bitmapSize⟩,
    BlockTree.new dataSize (m.blockSize / m.sectorSize) m.sectorSize)

/-- `VhdxBlockAllocationTable::read_entry`, vhdx/block_allocation_table.rs:88-132, and the entry, 50-62: state and offset. -/
def readEntry (image : Image) (file : List Byte) (index : Nat) : R (Nat × Nat) := do
  R.require (index < image.entries)
  let offset ← R.addU 64 image.tableOffset (index * 8)
  let data ← readExactAt file offset 8
  let entry ← u64le data 0
  return (entry % 8, entry / 1048576 * 1048576)

/-- The sector bitmap, vhdx/sector_bitmap.rs:65-120: reading fails for a bitmap of size 0, with a panic. -/
def readBitmap (image : Image) (file : List Byte) (offset : Nat) : R (List (Nat × Bool)) := do
  let data ← readExactAt file offset image.bitmapSize
  let first ← R.get data 0
  return SectorBitmap.ranges image.sectorSize (first.getLsbD 0) (SectorBitmap.bits data)

/-- `read_sector_bitmap`, vhdx/file.rs:637-713. The number of a block is at most that of the bytes of the media and of what was read, so
that the index does not overflow. -/
def fillBitmap (image : Image) (file : List Byte) (block blockOffset : Nat) (tree : Lazy.Tree) : R Lazy.Tree := do
  let index := (1 + block / image.perChunk) * (image.perChunk + 1) - 1
  let (_, offset) ← readEntry image file (index % 2 ^ 32)
  let offset ← R.addU 64 offset (block % image.perChunk * image.bitmapSize)
  let ranges ← readBitmap image file offset
  let media ← R.mulU 64 block image.blockSize
  SectorBitmap.insertRanges .inParent ranges media blockOffset tree

/-- The part of `read_block_allocation_entry` for a block without bitmap, vhdx/file.rs:602-631. -/
def fillBlock (image : Image) (block state offset : Nat) (tree : Lazy.Tree) : R Lazy.Tree := do
  let media ← R.mulU 64 block image.blockSize
  BlockTree.insert tree media image.blockSize
    (if state < 6 then ⟨media, 0, image.blockSize, .sparse⟩ else ⟨media, offset, image.blockSize, .inFile⟩)

/-- The index of the entry of a block, vhdx/file.rs:573-578. -/
def entryIndex (image : Image) (block : Nat) : Nat :=
  if image.diskType = .fixed then block else block / image.perChunk * (image.perChunk + 1) + block % image.perChunk

/-- `read_block_allocation_entry`, vhdx/file.rs:566-634. The position is not used. -/
def fill (image : Image) (file : List Byte) (block _ : Nat) (tree : Lazy.Tree) : R Lazy.Tree := do
  let (state, offset) ← readEntry image file (entryIndex image block % 2 ^ 32)
  if image.diskType = .differential ∧ state ≠ 6 then fillBitmap image file block offset tree
  else fillBlock image block state offset tree

/-- The data stream, vhdx/file.rs:716-804 and 837-883. -/
def stream (image : Image) (file : List Byte) (parent : Option (List Byte)) : Reader Lazy.Tree :=
  Lazy.stream (fill image file) file parent image.blockSize image.mediaSize

end Keramics.Vhdx
