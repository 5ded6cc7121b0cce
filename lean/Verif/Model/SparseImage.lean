import Verif.Model.Blocks
import Verif.Model.BlockTree
import Verif.Model.Fat

/-!
# Model: sparse disk images (.sparseimage)

Debug output through the mediator is left out. The data stream of the file is its bytes.
-/

namespace Keramics.SparseImage

/-- `SparseImageFileHeader::read_data`, sparseimage/file_header.rs:54-75: sectors per band and number of sectors. -/
def readHeader (data : List Byte) : R (Nat × Nat) := do
  R.require (data.length = 64)
  R.require ((← R.slice data 0 4) = [0x73#8, 0x70#8, 0x72#8, 0x73#8])
  let sectorsPerBand ← u32be data 8
  let sectors ← u32be data 16
  R.require (sectorsPerBand ≠ 0)
  return (sectorsPerBand, sectors)

/-- `SparseImageFile`, sparseimage/file.rs:31-52, and `SparseImageBlockRange`, block_range.rs: the values of the tree are
data offsets. -/
structure Image where
  blockSize : Nat
  mediaSize : Nat
  tree : BlockTree.Tree Nat

/-- The insertion of a band, sparseimage/file.rs:162-183. -/
def addBand (blockSize index band : Nat) (tree : BlockTree.Tree Nat) : R (BlockTree.Tree Nat) :=
  if band = 0 then .ok tree else do
    let media ← R.mulU 64 (band - 1) blockSize
    let relative ← R.mulU 64 index blockSize
    let offset ← R.addU 64 4096 relative
    BlockTree.insert tree media blockSize offset

/-- The loop over the band numbers, sparseimage/file.rs:148-184, with the number of bands left. -/
def bandsLoop (data : List Byte) (blockSize : Nat) : Nat → Nat → BlockTree.Tree Nat → R (BlockTree.Tree Nat)
  | 0, _, tree => .ok tree
  | n + 1, index, tree => do
    let band ← u32be data (64 + 4 * index)
    let tree ← addBand blockSize index band tree
    bandsLoop data blockSize n (index + 1) tree

/-- `read_header_block`, sparseimage/file.rs:81-194. -/
def openImage (file : List Byte) : R Image := do
  let data ← readExactAt file 0 4096
  let (sectorsPerBand, sectors) ← readHeader (← R.slice data 0 64)
  let bands := BlockTree.divCeil sectors sectorsPerBand
  R.require (bands ≤ (4096 - 64) / 4)
  R.require (sectorsPerBand ≤ 4294967295 / 512)
  let blockSize ← R.mulU 32 sectorsPerBand 512
  let mediaSize ← R.mulU 64 sectors 512
  let treeSize ← R.mulU 64 bands blockSize
  let tree ← bandsLoop data blockSize bands 0 (BlockTree.new treeSize sectorsPerBand 512)
  return ⟨blockSize, mediaSize, tree⟩

/-- The bytes of one iteration, sparseimage/file.rs:218-240: of the file where there is a band, otherwise zeros. -/
def pieceBytes (file : List Byte) (relative count : Nat) : Option Nat → R (List Byte)
  | some offset => do
    let position ← R.addU 64 offset relative
    return Blocks.readAt file position count
  | none => .ok (List.replicate count 0#8)

/-- One iteration of `read_data_from_bands`, sparseimage/file.rs:206-248, with the relative offset in and the remaining
size of the band, that are set to those of a whole band for the next iteration. -/
def piece (file : List Byte) (image : Image) (range : Nat × Nat) (current want : Nat) : R (List Byte × (Nat × Nat)) := do
  let count := min want range.2
  let out ← pieceBytes file range.1 count (← BlockTree.get image.tree current)
  return (out, (0, image.blockSize))

/-- `read_data_from_bands`, sparseimage/file.rs:197-204: the relative offset and remaining size for the first iteration. -/
def start (image : Image) (_ : Unit) (current : Nat) : Nat × Nat :=
  let relative := current - current / image.blockSize * image.blockSize
  (relative, image.blockSize - relative)

/-- The data stream of the media, sparseimage/file.rs:254-299. -/
def stream (file : List Byte) (image : Image) : Reader Unit :=
  Blocks.readerWith (piece file image) image.mediaSize (start image) fun _ => ()

end Keramics.SparseImage
