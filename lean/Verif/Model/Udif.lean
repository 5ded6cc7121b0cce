import Verif.Model.Blocks
import Verif.Model.BlockTree
import Verif.Model.LruCache
import Verif.Model.Fat

/-!
# Model: UDIF images

Debug output is left out. The XML property list (plist/, udif/file.rs:137-189) is a parameter: a function from the bytes of the
list to the bytes of the `Data` values of its `blkx` array. So are the decompressors: functions from the type of the entries, the
compressed data and the size of the buffer to the buffer they leave.
-/

namespace Keramics.Udif

/-- `UdifFileFooter`, udif/file_footer.rs:53-65. -/
structure Footer where
  forkOffset : Nat
  forkSize : Nat
  plistOffset : Nat
  plistSize : Nat
deriving DecidableEq, Repr

/-- `UdifFileFooter::read_data`, udif/file_footer.rs:79-104, for the last 512 bytes (file.rs:102). -/
def readFooter (file : List Byte) : R Footer := do
  let data ← readExactAt file (file.length - 512) 512
  R.require ((← R.slice data 0 4) = [0x6b#8, 0x6f#8, 0x6c#8, 0x79#8])
  let version ← u32be data 4
  R.require (version = 4)
  let forkOffset ← u64be data 24
  let forkSize ← u64be data 32
  let plistOffset ← u64be data 216
  let plistSize ← u64be data 224
  return ⟨forkOffset, forkSize, plistOffset, plistSize⟩

/-- `UdifBlockTableEntry`, udif/block_table_entry.rs:32-47. -/
structure Entry where
  entryType : Nat
  startSector : Nat
  numberOfSectors : Nat
  dataOffset : Nat
  dataSize : Nat
deriving DecidableEq, Repr

/-- `UdifBlockTableEntry::read_data`, udif/block_table_entry.rs:62-75. -/
def readEntry (data : List Byte) : R Entry := do
  R.require (data.length = 40)
  let entryType ← u32be data 0
  let startSector ← u64be data 8
  let numberOfSectors ← u64be data 16
  let dataOffset ← u64be data 24
  let dataSize ← u64be data 32
  return ⟨entryType, startSector, numberOfSectors, dataOffset, dataSize⟩

/-- The loop over the entries, udif/block_table.rs:65-96, with the number of entries left. -/
def readEntries (data : List Byte) : Nat → Nat → R (List Entry)
  | 0, _ => .ok []
  | n + 1, offset => do
    R.require (offset + 40 ≤ data.length)
    let entry ← readEntry (← R.slice data offset (offset + 40))
    let rest ← readEntries data n (offset + 40)
    return entry :: rest

/-- `UdifBlockTable::read_data` and `UdifBlockTableHeader::read_data`, udif/block_table.rs:43-98 and
block_table_header.rs:59-83: the start sector and the entries. -/
def readTable (data : List Byte) : R (Nat × List Entry) := do
  R.require (204 ≤ data.length)
  let header ← R.slice data 0 204
  R.require ((← R.slice header 0 4) = [0x6d#8, 0x69#8, 0x73#8, 0x68#8])
  let version ← u32be header 4
  R.require (version = 1)
  let startSector ← u64be header 8
  let numberOfEntries ← u32be header 200
  let entries ← readEntries data numberOfEntries 204
  return (startSector, entries)

/-- `UdifBlockRangeType`, udif/block_range.rs:16-20. -/
inductive Kind where
  | compressed | inFile | sparse
deriving DecidableEq, Repr

/-- `UdifBlockRange`, udif/block_range.rs:24-39. -/
structure Range where
  mediaOffset : Nat
  dataOffset : Nat
  size : Nat
  compressedSize : Nat
  kind : Kind
deriving DecidableEq, Repr

/-- The variables of the loops, udif/file.rs:175-178. The ranges are in the order of the vector. -/
structure Loop where
  ranges : List Range
  mediaSector : Nat
  mediaOffset : Nat
  method : Nat
deriving DecidableEq, Repr

/-- `MAXIMUM_NUMBER_OF_SECTORS`, udif/file.rs:29. -/
def maximum : Nat := 36028797018963967

/-- The range of an entry and the type of the compressed entries, udif/file.rs:258-301. -/
def rangeOf (s : Loop) (e : Entry) (mediaSize : Nat) : R (Range × Nat) :=
  if e.entryType = 0 ∨ e.entryType = 2 then .ok (⟨s.mediaOffset, 0, mediaSize, 0, .sparse⟩, s.method)
  else if e.entryType = 1 then .ok (⟨s.mediaOffset, e.dataOffset, mediaSize, 0, .inFile⟩, s.method)
  else if 0x80000004 ≤ e.entryType ∧ e.entryType < 0x80000008 then do
    R.require (e.numberOfSectors ≤ 2048)
    R.require (s.method = 0 ∨ e.entryType = s.method)
    return (⟨s.mediaOffset, e.dataOffset, mediaSize, e.dataSize % 2 ^ 32, .compressed⟩, e.entryType)
  else .err

/-- One entry that is used, udif/file.rs:222-305. -/
def addEntry (forkOffset forkEnd tableStart : Nat) (s : Loop) (e : Entry) : R Loop := do
  let limit ← R.subU maximum tableStart
  R.require (e.startSector ≤ limit)
  let start ← R.addU 64 tableStart e.startSector
  R.require (start = s.mediaSector)
  R.require (e.numberOfSectors ≠ 0 ∧ e.numberOfSectors ≤ maximum)
  R.require (forkOffset ≤ e.dataOffset ∧ e.dataOffset < forkEnd)
  let room ← R.subU forkEnd e.dataOffset
  R.require (e.dataSize ≤ room)
  let mediaSize ← R.mulU 64 e.numberOfSectors 512
  let (range, method) ← rangeOf s e mediaSize
  let mediaOffset ← R.addU 64 s.mediaOffset mediaSize
  let mediaSector ← R.addU 64 s.mediaSector e.numberOfSectors
  return ⟨s.ranges ++ [range], mediaSector, mediaOffset, method⟩

/-- The loop over the entries of a table, udif/file.rs:215-306. -/
def entriesLoop (forkOffset forkEnd tableStart : Nat) : List Entry → Loop → R Loop
  | [], s => .ok s
  | e :: es, s =>
    if e.entryType = 0xffffffff then .ok s
    else if e.entryType = 0x7ffffffe then entriesLoop forkOffset forkEnd tableStart es s
    else do
      let s ← addEntry forkOffset forkEnd tableStart s e
      entriesLoop forkOffset forkEnd tableStart es s

/-- The loop over the tables, udif/file.rs:180-307. -/
def tablesLoop (forkOffset forkEnd : Nat) : List (List Byte) → Loop → R Loop
  | [], s => .ok s
  | data :: rest, s => do
    let (tableStart, entries) ← readTable data
    R.require (tableStart = s.mediaSector)
    let s ← entriesLoop forkOffset forkEnd tableStart entries s
    tablesLoop forkOffset forkEnd rest s

/-- The loop that fills the tree, udif/file.rs:327-341, over the ranges from the last one on. -/
def fillTree : List Range → BlockTree.Tree Range → R (BlockTree.Tree Range)
  | [], tree => .ok tree
  | r :: rs, tree => do
    let tree ← BlockTree.insert tree r.mediaOffset r.size r
    fillTree rs tree

/-- `UdifFile`, udif/file.rs:32-62, without the cache. The method is the type of the compressed entries (308-315), 0 if there
are none. -/
structure Image where
  forkOffset : Nat
  hasRanges : Bool
  mediaSize : Nat
  method : Nat
  tree : BlockTree.Tree Range

/-- udif/file.rs:175-341: the image made of block tables. -/
def openTables (forkOffset forkEnd : Nat) (tables : List (List Byte)) : R Image := do
  let s ← tablesLoop forkOffset forkEnd tables ⟨[], 0, 0, 0⟩
  let sectors ← R.mulU 64 (BlockTree.divCeil s.mediaSector 16384) 16384
  let treeSize ← R.mulU 64 sectors 512
  let tree ← fillTree s.ranges.reverse (BlockTree.new treeSize 16384 512)
  return ⟨0, true, s.mediaOffset, s.method, tree⟩

/-- `read_metadata`, udif/file.rs:99-344. The property list is read with a plain read into zeros (123-129). -/
def openImage (plist : List Byte → R (List (List Byte))) (file : List Byte) : R Image := do
  let footer ← readFooter file
  let forkEnd ← R.addU 64 footer.forkOffset footer.forkSize
  if footer.plistSize = 0 then return ⟨footer.forkOffset, false, footer.forkSize, 0, BlockTree.new 0 0 0⟩
  else do
    R.require (footer.plistSize ≤ 65536)
    let read := Blocks.readAt file footer.plistOffset footer.plistSize
    let tables ← plist (read ++ List.replicate (footer.plistSize - read.length) 0#8)
    openTables footer.forkOffset forkEnd tables

/-- The cache of decompressed blocks, udif/file.rs:48-49. -/
abbrev Cache := LruCache.Cache Nat (List Byte)

/-- `read_compressed_block`, udif/file.rs:440-533: into a buffer of the size of the range. -/
def readCompressed (decompress : Nat → List Byte → Nat → R (List Byte)) (file : List Byte) (image : Image) (r : Range) :
    R (List Byte) := do
  let data ← readExactAt file r.dataOffset r.compressedSize
  if image.method = 0 then .err else decompress image.method data r.size

/-- The cache with the decompressed block, udif/file.rs:381-395. -/
def cached (decompress : Nat → List Byte → Nat → R (List Byte)) (file : List Byte) (image : Image) (cache : Cache) (r : Range) :
    R Cache :=
  if cache.contains r.dataOffset then .ok cache else do
    let data ← readCompressed decompress file image r
    cache.insert r.dataOffset data

/-- The bytes for one range, udif/file.rs:376-429. -/
def rangeBytes (decompress : Nat → List Byte → Nat → R (List Byte)) (file : List Byte) (image : Image) (cache : Cache) (r : Range)
    (relative count : Nat) : R (List Byte × Cache) := match r.kind with
  | .compressed => do
    let cache ← cached decompress file image cache r
    match cache.get r.dataOffset with
    | none => .err
    | some data => do
      let out ← R.slice data relative (relative + count)
      return (out, cache)
  | .inFile => do
    let position ← R.addU 64 r.dataOffset relative
    return (Blocks.readAt file position count, cache)
  | .sparse => .ok (List.replicate count 0#8, cache)

/-- One iteration of `read_data_from_blocks`, udif/file.rs:356-434. -/
def piece (decompress : Nat → List Byte → Nat → R (List Byte)) (file : List Byte) (image : Image) (cache : Cache)
    (current want : Nat) : R (List Byte × Cache) := do
  match ← BlockTree.get image.tree current with
  | none => .err
  | some r => do
    let relative ← R.subU current r.mediaOffset
    let remainder ← R.subU r.size relative
    rangeBytes decompress file image cache r relative (min want remainder)

/-- The data stream of the media with block ranges, udif/file.rs:347-437 and 536-598. -/
def stream (decompress : Nat → List Byte → Nat → R (List Byte)) (file : List Byte) (image : Image) : Reader Cache :=
  Blocks.reader (piece decompress file image) image.mediaSize

/-- The data stream of the media without block ranges, udif/file.rs:561-575. -/
def forkStream (file : List Byte) (image : Image) : Reader Unit where
  size := image.mediaSize
  readData _ current n := do
    let position ← R.addU 64 image.forkOffset current
    return (Blocks.readAt file position n, ())

/-- A new cache, udif/file.rs:73. -/
def newCache : Cache := LruCache.new 64

end Keramics.Udif
