import Verif.Model.SectorBitmap
import Verif.Base.Ints

/-!
# Model: VHD images

Debug output is left out, as are the identifiers and the name of the parent (vhd/file.rs:92-111, 150-152, 183-186) and `set_parent`
(427-454): the parent, if there is one, is the bytes of its media.
-/

namespace Keramics.Vhd

/-- `VhdDiskType`, vhd/enums.rs; the type of a footer is checked before. -/
inductive DiskType where
  | fixed | dynamic | differential
deriving DecidableEq, Repr

/-- `VhdFileFooter`, vhd/file_footer.rs:41-58, without the identifier. -/
structure Footer where
  nextOffset : Nat
  dataSize : Nat
  diskType : DiskType
deriving DecidableEq, Repr

/-- The supported types, vhd/file_footer.rs:101-106, constants.rs:14-28 and file.rs:141-146. -/
def diskTypeOf (n : Nat) : R DiskType :=
  if n = 2 then .ok .fixed else if n = 3 then .ok .dynamic else if n = 4 then .ok .differential else .err

/-- `VhdFileFooter::read_data`, vhd/file_footer.rs:75-121, for the last 512 bytes (file.rs:134). -/
def readFooter (file : List Byte) : R Footer := do
  let data ← readExactAt file (file.length - 512) 512
  R.require ((← R.slice data 0 8) = [0x63#8, 0x6f#8, 0x6e#8, 0x65#8, 0x63#8, 0x74#8, 0x69#8, 0x78#8])
  let version ← u32be data 12
  R.require (version = 65536)
  let nextOffset ← u64be data 16
  let dataSize ← u64be data 40
  let diskType ← diskTypeOf (← u32be data 60)
  R.require (if diskType = .fixed then nextOffset = 18446744073709551615 else 512 ≤ nextOffset)
  return ⟨nextOffset, dataSize, diskType⟩

/-- `VhdDynamicDiskHeader`, vhd/dynamic_disk_header.rs:41-57: offset of the table, number of blocks and block size. -/
structure Header where
  tableOffset : Nat
  blocks : Nat
  blockSize : Nat
deriving DecidableEq, Repr

/-- `VhdDynamicDiskHeader::read_data`, vhd/dynamic_disk_header.rs:72-114. -/
def readHeader (file : List Byte) (offset : Nat) : R Header := do
  let data ← readExactAt file offset 1024
  R.require ((← R.slice data 0 8) = [0x63#8, 0x78#8, 0x73#8, 0x70#8, 0x61#8, 0x72#8, 0x73#8, 0x65#8])
  let version ← u32be data 24
  R.require (version = 65536)
  let nextOffset ← u64be data 8
  R.require (nextOffset = 18446744073709551615)
  let tableOffset ← u64be data 16
  let blocks ← u32be data 28
  let blockSize ← u32be data 32
  R.require (blockSize ≠ 0)
  return ⟨tableOffset, blocks, blockSize⟩

/-- `VhdFile`, vhd/file.rs:31-70, without the tree. -/
structure Image where
  diskType : DiskType
  mediaSize : Nat
  tableOffset : Nat
  blocks : Nat
  blockSize : Nat
  bitmapSize : Nat
deriving DecidableEq, Repr

/-- The second part of `read_metadata`, vhd/file.rs:153-199. -/
def openBlocks (file : List Byte) (footer : Footer) : R (Image × Lazy.Tree) := do
  let header ← readHeader file footer.nextOffset
  let dataSize ← R.mulU 64 header.blocks header.blockSize
  R.require (footer.dataSize ≤ dataSize)
  let sectors := header.blockSize / 512
  let bitmapSize ← R.mulU 32 (BlockTree.divCeil (sectors / 8) 512) 512
  return (⟨footer.diskType, footer.dataSize, header.tableOffset, header.blocks, header.blockSize, bitmapSize⟩,
    BlockTree.new dataSize sectors 512)

/-- `read_metadata`, vhd/file.rs:131-201: the image and its empty tree. -/
def openImage (file : List Byte) : R (Image × Lazy.Tree) := do
  let footer ← readFooter file
  if footer.diskType = .fixed then
    return (⟨.fixed, footer.dataSize, 0, 0, 0, 0⟩, BlockTree.new 0 0 0)
  else openBlocks file footer

/-- `VhdBlockAllocationTable::read_entry`, vhd/block_allocation_table.rs:74-118. -/
def readEntry (image : Image) (file : List Byte) (index : Nat) : R Nat := do
  R.require (index < image.blocks)
  let offset ← R.addU 64 image.tableOffset (index * 4)
  let data ← readExactAt file offset 4
  u32be data 0

/-- The type of a range that is not in the file, vhd/file.rs:235-249 and 302-316. -/
def unset (image : Image) : Lazy.Kind := if image.diskType = .dynamic then .sparse else .inParent

/-- The sector bitmap, vhd/sector_bitmap.rs:65-120: reading fails for a bitmap of size 0, with a panic. -/
def readBitmap (image : Image) (file : List Byte) (offset : Nat) : R (List (Nat × Bool)) := do
  let data ← readExactAt file offset image.bitmapSize
  let first ← R.get data 0
  return SectorBitmap.ranges 512 (first.getLsbD 7) (SectorBitmap.bits data)

/-- `read_sector_bitmap`, vhd/file.rs:268-333. -/
def fillBitmap (image : Image) (file : List Byte) (block sector : Nat) (tree : Lazy.Tree) : R Lazy.Tree := do
  let offset := sector * 512
  let ranges ← readBitmap image file offset
  let media ← R.mulU 64 block image.blockSize
  SectorBitmap.insertRanges (unset image) ranges media (offset + image.bitmapSize) tree

/-- `read_block_allocation_entry`, vhd/file.rs:204-265. The position is not used. -/
def fill (image : Image) (file : List Byte) (block _ : Nat) (tree : Lazy.Tree) : R Lazy.Tree := do
  let sector ← readEntry image file (block % 2 ^ 32)
  if sector ≠ 4294967295 then fillBitmap image file block sector tree
  else do
    let media ← R.mulU 64 block image.blockSize
    BlockTree.insert tree media image.blockSize ⟨media, 0, image.blockSize, unset image⟩

/-- The data stream of a dynamic or differential disk, vhd/file.rs:336-424 and 464-517. -/
def stream (image : Image) (file : List Byte) (parent : Option (List Byte)) : Reader Lazy.Tree :=
  Lazy.stream (fill image file) file parent image.blockSize image.mediaSize

/-- The data stream of a fixed disk, vhd/file.rs:464-499: its bytes are those at the start of the file. -/
def fixedStream (image : Image) (file : List Byte) : Reader Unit where
  size := image.mediaSize
  readData _ pos n := .ok (Blocks.readAt file pos n, ())

end Keramics.Vhd
