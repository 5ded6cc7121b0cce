import Verif.Model.LazyBlocks
import Verif.Model.Fat

/-!
# Model: QCOW images

Debug output through the mediator is left out. The data stream of the file is its bytes, the backing file the bytes of its
media. The compression method (qcow/file.rs:174-179), the compression shift and mask (which are computed, but not used) and the
number and offset of snapshots are left out, as they do not influence reading; the subtraction for the compression shift can
overflow and is therefore kept. The name of the backing file is represented by whether there is one.
-/

namespace Keramics.Qcow

/-- `QcowFileHeader`, qcow/file_header.rs:34-70, the fields that are used. -/
structure Header where
  version : Nat
  headerSize : Nat
  nameOffset : Nat
  nameSize : Nat
  clusterBits : Nat
  mediaSize : Nat
  encryption : Nat
  l1Entries : Nat
  l1Offset : Nat
  l2Bits : Nat
deriving DecidableEq, Repr

/-- `QcowFileHeaderV1::read_data`, qcow/file_header_v1.rs:44-81, and file_header.rs:136. The signature and version have been
checked before. -/
def readV1 (data : List Byte) : R Header := do
  let nameOffset ← u64be data 8
  let nameSize ← u32be data 16
  let mediaSize ← u64be data 24
  let clusterBits := (← R.get data 32).toNat
  let l2Bits := (← R.get data 33).toNat
  let encryption ← u32be data 36
  let l1Offset ← u64be data 40
  R.require (clusterBits ≤ 63)
  R.require (l2Bits ≤ 63)
  return ⟨1, 48, nameOffset, nameSize, clusterBits, mediaSize, encryption, 0, l1Offset, l2Bits⟩

/-- The fields versions 2 and 3 have in common: `QcowFileHeaderV2::read_data`, qcow/file_header_v2.rs:62-79,
`QcowFileHeaderV3::read_data`, qcow/file_header_v3.rs:87-106, and file_header.rs:153-154 and 171. -/
def readCommon (data : List Byte) (version headerSize : Nat) : R Header := do
  let nameOffset ← u64be data 8
  let nameSize ← u32be data 16
  let clusterBits ← u32be data 20
  let mediaSize ← u64be data 24
  let encryption ← u32be data 32
  let l1Entries ← u32be data 36
  let l1Offset ← u64be data 40
  R.require (8 < clusterBits ∧ clusterBits ≤ 63)
  let l2Bits ← R.subU clusterBits 3
  return ⟨version, headerSize, nameOffset, nameSize, clusterBits, mediaSize, encryption, l1Entries, l1Offset, l2Bits⟩

/-- `QcowFileHeaderV3::read_data`, qcow/file_header_v3.rs:52-114. -/
def readV3 (data : List Byte) : R Header := do
  let incompatible ← u64be data 72
  R.require (incompatible ≤ 1)
  let compatible ← u64be data 80
  R.require (compatible ≤ 1)
  let headerSize ← u32be data 100
  let h ← readCommon data 3 headerSize
  R.require (headerSize = 104 ∨ headerSize = 112)
  return h

/-- The header of a version, qcow/file_header.rs:120-179. -/
def readVersion (data : List Byte) (version : Nat) : R Header :=
  if version = 1 then readV1 data
  else if version = 2 then readCommon data 2 72
  else if version = 3 then readV3 data
  else .err

/-- `QcowFileHeader::read_at_position`, qcow/file_header.rs:92-181. -/
def readHeader (file : List Byte) : R Header := do
  let data ← readExactAt file 0 112
  R.require ((← R.slice data 0 4) = [0x51#8, 0x46#8, 0x49#8, 0xfb#8])
  let version ← u32be data 4
  readVersion data version

/-- `QcowFile`, qcow/file.rs:32-98, without the tree. -/
structure Image where
  offsetMask : Nat
  flagMask : Nat
  l1Shift : Nat
  l2Mask : Nat
  l2Entries : Nat
  clusterBits : Nat
  clusterSize : Nat
  l1Offset : Nat
  l1Entries : Nat
  backing : Bool
  mediaSize : Nat
deriving DecidableEq, Repr

/-- The masks and the checked compression shift, qcow/file.rs:180-188: offset mask and compression flag mask. -/
def masks (h : Header) : R (Nat × Nat) :=
  if h.version = 1 then do
    let _ ← R.subU 63 h.clusterBits
    return (0x7fffffffffffffff, 1 <<< 63)
  else do
    let _ ← R.subU 62 h.clusterBits
    return (0x3fffffffffffffff, 1 <<< 62)

/-- The number of level 1 references, qcow/file.rs:207-227 and the conversion of 246. -/
def l1Count (h : Header) (clusterSize l2Entries : Nat) : R Nat :=
  if h.version = 1 then do
    R.require (clusterSize ≤ 18446744073709551615 / l2Entries)
    let size ← R.mulU 64 clusterSize l2Entries
    let count := BlockTree.divCeil h.mediaSize size
    R.require (count ≤ 4294967295)
    return count
  else .ok h.l1Entries

/-- `read_backing_file_name`, qcow/file.rs:282-319, and the condition for it, 256: whether there is a name. -/
def readName (file : List Byte) (h : Header) : R Bool :=
  if 0 < h.nameOffset ∧ 0 < h.nameSize then do
    R.require (h.headerSize ≤ h.nameOffset)
    R.require (h.nameSize ≤ 65536)
    let _ ← readExactAt file h.nameOffset h.nameSize
    return true
  else .ok false

/-- `read_file_header`, qcow/file.rs:153-279: the image and its empty tree. -/
def openImage (file : List Byte) : R (Image × Lazy.Tree) := do
  let h ← readHeader file
  let (offsetMask, flagMask) ← masks h
  let l1Shift := h.clusterBits + h.l2Bits
  R.require (l1Shift ≤ 63)
  let clusterSize := 1 <<< h.clusterBits
  let l2Entries := 1 <<< h.l2Bits
  let l1Entries ← l1Count h clusterSize l2Entries
  let dataSize ← R.mulU 64 (BlockTree.divCeil h.mediaSize clusterSize) clusterSize
  let backing ← readName file h
  R.require (h.encryption = 0)
  return (⟨offsetMask, flagMask, l1Shift, l2Entries - 1, l2Entries, h.clusterBits, clusterSize, h.l1Offset, l1Entries, backing, h.mediaSize⟩,
    BlockTree.new dataSize l2Entries clusterSize)

/-- `QcowClusterTable::read_entry`, qcow/cluster_table.rs:75-116. -/
def readEntry (file : List Byte) (offset entries index : Nat) : R Nat := do
  R.require (index < entries)
  let position ← R.addU 64 offset (index * 8)
  let data ← readExactAt file position 8
  u64be data 0

/-- The type of the range of a level 2 entry, qcow/file.rs:391-409. Encrypted images have been rejected. -/
def rangeKind (image : Image) (entry : Nat) : Lazy.Kind :=
  if entry &&& image.offsetMask = 0 then
    if image.backing then .inParent else .sparse
  else if entry &&& image.flagMask = 0 then .inFile else .compressed

/-- The level 2 part of `read_cluster_block_entry`, qcow/file.rs:369-428. -/
def fillCluster (image : Image) (file : List Byte) (current l1Media l2Offset : Nat) (tree : Lazy.Tree) : R Lazy.Tree := do
  let index := (current >>> image.clusterBits) &&& image.l2Mask
  let entry ← readEntry file l2Offset (image.l2Entries % 2 ^ 32) (index % 2 ^ 32)
  let relative ← R.mulU 64 index image.clusterSize
  let media ← R.addU 64 l1Media relative
  BlockTree.insert tree media image.clusterSize ⟨media, entry &&& image.offsetMask, image.clusterSize, rangeKind image entry⟩

/-- `read_cluster_block_entry`, qcow/file.rs:322-431. -/
def fill (image : Image) (file : List Byte) (_ current : Nat) (tree : Lazy.Tree) : R Lazy.Tree := do
  let index := current >>> image.l1Shift
  let entry ← readEntry file image.l1Offset image.l1Entries (index % 2 ^ 32)
  let l1Media := index <<< image.l1Shift
  if entry &&& image.offsetMask = 0 then
    BlockTree.insert tree l1Media (1 <<< image.l1Shift) ⟨l1Media, 0, 1 <<< image.l1Shift, .sparse⟩
  else fillCluster image file current l1Media (entry &&& image.offsetMask) tree

/-- The data stream of the media, qcow/file.rs:434-581. -/
def stream (image : Image) (file : List Byte) (backing : Option (List Byte)) : Reader Lazy.Tree :=
  Lazy.stream (fill image file) file backing image.clusterSize image.mediaSize

end Keramics.Qcow
