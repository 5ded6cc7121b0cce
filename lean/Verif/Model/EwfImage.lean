import Verif.Model.Adler32
import Verif.Model.Blocks
import Verif.Model.BlockTree
import Verif.Model.LruCache
import Verif.Model.Fat

/-!
# Model: EWF images

Debug output is left out. The segment files are a function from segment numbers to the bytes of the file that the file resolver
has for the name with the extension of the number (image.rs:606-639; the extensions are modelled in Model/Tools.lean). Sections
that do not describe chunks ("data", "digest", "error2", "hash", "header", "header2", "table2") are read by a parameter: only if
reading one of them fails matters here. The decompression of zlib data is a parameter as well: a function from the compressed data
and the size of the buffer to the buffer it leaves.
-/

namespace Keramics.EwfImage

/-- `Adler32Context::new(1)`, `update` and `finalize`. -/
def checksum (data : List Byte) : R Nat := do
  let c ← (Adler32.Ctx.new 1#32).update data
  return c.finalize.1.toNat

/-- `EwfFileHeader::read_data`, ewf/file_header.rs:45-69: the segment number. -/
def readFileHeader (file : List Byte) : R Nat := do
  let data ← readExactAt file 0 13
  R.require ((← R.slice data 0 8) = [0x45#8, 0x56#8, 0x46#8, 0x09#8, 0x0d#8, 0x0a#8, 0xff#8, 0x00#8])
  R.require ((← R.get data 8) = 1#8)
  R.require ((← R.slice data 11 13) = [0#8, 0#8])
  u16le data 9

/-- `EwfSectionHeader`, ewf/section_header.rs:33-42. -/
structure Section where
  kind : List Byte
  next : Nat
  size : Nat
deriving DecidableEq, Repr

/-- `EwfSectionHeader::read_data`, ewf/section_header.rs:55-78. -/
def readSectionHeader (file : List Byte) (offset : Nat) : R Section := do
  let data ← readExactAt file offset 76
  let stored ← u32le data 72
  let calculated ← checksum (← R.slice data 0 72)
  R.require (stored = calculated)
  let kind ← R.slice data 0 16
  let next ← u64le data 16
  let size ← u64le data 24
  return ⟨kind, next, size⟩

/-- ewf/constants.rs:34-36, 62-64, 29-31, 84-86, 67-69 and 74-76. -/
def kindDone : List Byte := [0x64#8, 0x6f#8, 0x6e#8, 0x65#8, 0#8, 0#8, 0#8, 0#8, 0#8, 0#8, 0#8, 0#8, 0#8, 0#8, 0#8, 0#8]
def kindNext : List Byte := [0x6e#8, 0x65#8, 0x78#8, 0x74#8, 0#8, 0#8, 0#8, 0#8, 0#8, 0#8, 0#8, 0#8, 0#8, 0#8, 0#8, 0#8]
def kindDisk : List Byte := [0x64#8, 0x69#8, 0x73#8, 0x6b#8, 0#8, 0#8, 0#8, 0#8, 0#8, 0#8, 0#8, 0#8, 0#8, 0#8, 0#8, 0#8]
def kindVolume : List Byte := [0x76#8, 0x6f#8, 0x6c#8, 0x75#8, 0x6d#8, 0x65#8, 0#8, 0#8, 0#8, 0#8, 0#8, 0#8, 0#8, 0#8, 0#8, 0#8]
def kindSectors : List Byte := [0x73#8, 0x65#8, 0x63#8, 0x74#8, 0x6f#8, 0x72#8, 0x73#8, 0#8, 0#8, 0#8, 0#8, 0#8, 0#8, 0#8, 0#8, 0#8]
def kindTable : List Byte := [0x74#8, 0x61#8, 0x62#8, 0x6c#8, 0x65#8, 0#8, 0#8, 0#8, 0#8, 0#8, 0#8, 0#8, 0#8, 0#8, 0#8, 0#8]

/-- The checked size of a section, and if it is the last one, ewf/file.rs:110-149. -/
def sectionSize (s : Section) (offset : Nat) : R (Nat × Bool) :=
  if s.kind = kindDone ∨ s.kind = kindNext then do
    R.require (s.size = 0 ∨ s.size = 76)
    R.require (s.next = offset)
    return (76, true)
  else do
    R.require (offset < s.next)
    R.require (s.size = 0 ∨ s.size = s.next - offset)
    R.require (76 ≤ s.next - offset)
    return (s.next - offset, false)

/-- The loop over the sections, ewf/file.rs:91-159: the sections with their checked size and the offset behind them. The fuel
bounds the number of iterations. -/
def sectionsLoop (file : List Byte) : Nat → Nat → R (List Section × Nat)
  | 0, _ => .panic
  | n + 1, offset =>
    if offset < file.length then do
      let s ← readSectionHeader file offset
      let (size, last) ← sectionSize s offset
      let behind ← R.addU 64 offset size
      if last then return ([⟨s.kind, s.next, size⟩], behind)
      else do
        let (rest, final) ← sectionsLoop file n behind
        return (⟨s.kind, s.next, size⟩ :: rest, final)
    else .ok ([], offset)

/-- `EwfFile::read_sections`, ewf/file.rs:79-168: the segment number and the sections. -/
def readFile (file : List Byte) : R (Nat × List Section) := do
  let number ← readFileHeader file
  let (sections, final) ← sectionsLoop file (file.length + 1) 13
  R.require (final = file.length)
  return (number, sections)

/-- The loop over the entries, ewf/table.rs:94-117, with the number of entries left. -/
def readEntries (data : List Byte) : Nat → Nat → R (List Nat)
  | 0, _ => .ok []
  | n + 1, offset => do
    let e ← u32le (← R.slice data offset (offset + 4)) 0
    let rest ← readEntries data n (offset + 4)
    return e :: rest

/-- `EwfTable::read_at_position`, ewf/table.rs:47-147, and the header and footer, table_header.rs:50-72 and
table_footer.rs:39-48: the base offset and the entries. -/
def readTable (file : List Byte) (position size : Nat) : R (Nat × List Nat) := do
  R.require (28 ≤ size ∧ size ≤ 16777216)
  let data ← readExactAt file position size
  let stored ← u32le data 20
  let calculated ← checksum (← R.slice data 0 20)
  R.require (stored = calculated)
  let number ← u32le data 0
  let base ← u64le data 8
  let footer ← R.slice data (24 + number * 4) (24 + number * 4 + 4)
  let stored ← u32le footer 0
  let calculated ← checksum (← R.slice data 24 (24 + number * 4))
  R.require (stored = calculated)
  let entries ← readEntries data number 24
  return (base, entries)

/-- `EwfBlockRange`, ewf/block_range.rs. -/
structure Range where
  mediaOffset : Nat
  segment : Nat
  dataOffset : Nat
  dataSize : Nat
  compressed : Bool
deriving DecidableEq, Repr

/-- `EwfImage`, ewf/image.rs:44-98, and the variables of the loop over the segments (601-603). -/
structure State where
  blockSize : Nat
  mediaSize : Nat
  tree : BlockTree.Tree Range
  media : Nat
  last : Bool

/-- The offset of an entry, ewf/image.rs:722-726, 729-733 and 801-805. -/
def entryOffset (overflow : Bool) (e : Nat) : Nat := if overflow then e else e % 2 ^ 31

/-- If the chunk of an entry is compressed, ewf/image.rs:717-721 and 796-800. -/
def entryCompressed (overflow : Bool) (e : Nat) : Bool := if overflow then false else decide (e / 2 ^ 31 % 2 = 1)

/-- The size of a chunk, ewf/image.rs:734-753. `todo!()` is a panic. -/
def chunkSize (current next full : Nat) : R Nat :=
  if current < next then .ok (next - current) else if current < full then .ok (full - current) else .panic

/-- The chunks of a table, ewf/image.rs:713-846, from an entry on: the tree and the media offset behind the chunks. `last` is
the end of the last chunk (812-817). -/
def tableLoop (segment base last blockSize : Nat) : List Nat → Nat → Bool → Nat → BlockTree.Tree Range → R (BlockTree.Tree Range × Nat)
  | [], e, overflow, media, tree => do
    let offset ← R.addU 64 base (entryOffset overflow e)
    let size ← R.subU last offset
    let tree ← BlockTree.insert tree media blockSize ⟨media, segment, offset, size % 2 ^ 32, entryCompressed overflow e⟩
    let media ← R.addU 64 media blockSize
    return (tree, media)
  | next :: rest, e, overflow, media, tree => do
    let size ← chunkSize (entryOffset overflow e) (entryOffset overflow next) next
    let offset ← R.addU 64 base (entryOffset overflow e)
    let tree ← BlockTree.insert tree media blockSize ⟨media, segment, offset, size, entryCompressed overflow e⟩
    let media ← R.addU 64 media blockSize
    let behind ← R.addU 32 (entryOffset overflow e) size
    tableLoop segment base last blockSize rest next (overflow || decide (2 ^ 31 - 1 < behind)) media tree

/-- The chunks of the entries, ewf/image.rs:708-713. -/
def tableChunks (segment base last blockSize media : Nat) (tree : BlockTree.Tree Range) : List Nat → R (BlockTree.Tree Range × Nat)
  | [] => .err
  | e :: rest => tableLoop segment base last blockSize rest e false media tree

/-- `read_table_section`, ewf/image.rs:679-849. -/
def readTableSection (segment : Nat) (file : List Byte) (offset : Nat) (s : Section) (sectors : Option Nat) (state : State) : R State := do
  R.require (¬ (state.blockSize = 0 ∨ state.mediaSize = 0))
  let dataSize ← R.subU s.size 76
  let position ← R.addU 64 offset 76
  let (base, entries) ← readTable file position dataSize
  let (tree, media) ← tableChunks segment base (sectors.getD s.next) state.blockSize state.media state.tree entries
  return { state with tree := tree, media := media }

/-- `EwfS01Volume::read_data` and `EwfE01Volume::read_data`, ewf/volume.rs:172-196 and 96-125: `n` bytes and a checksum. -/
def readVolume (file : List Byte) (position n : Nat) : R (Nat × Nat × Nat × Nat) := do
  let data ← readExactAt file position (n + 4)
  let stored ← u32le data n
  let calculated ← checksum (← R.slice data 0 n)
  R.require (stored = calculated)
  let chunks ← u32le data 4
  let sectorsPerChunk ← u32le data 8
  let bytesPerSector ← u32le data 12
  let sectors ← u32le data 16
  return (chunks, sectorsPerChunk, bytesPerSector, sectors)

/-- The number of bytes of the volume, ewf/image.rs:872-920. -/
def volumeSize (size : Nat) : R Nat := if size = 170 then .ok 90 else if size = 1128 then .ok 1048 else .err

/-- `read_volume_section`, ewf/image.rs:852-932. -/
def readVolumeSection (segment : Nat) (file : List Byte) (offset : Nat) (s : Section) (state : State) : R State := do
  R.require (segment = 1)
  R.require (¬ (state.blockSize ≠ 0 ∨ state.mediaSize ≠ 0))
  let n ← volumeSize s.size
  let position ← R.addU 64 offset 76
  let (chunks, sectorsPerChunk, bytesPerSector, sectors) ← readVolume file position n
  let blockSize ← R.mulU 32 sectorsPerChunk bytesPerSector
  let mediaSize ← R.mulU 64 sectors bytesPerSector
  let treeSize ← R.mulU 64 chunks blockSize
  return { state with blockSize := blockSize, mediaSize := mediaSize, tree := BlockTree.new treeSize sectorsPerChunk bytesPerSector }

/-- One section, ewf/image.rs:365-558: the state and the end of the last section "sectors". -/
def sectionStep (other : Nat → Nat → Section → R Unit) (segment : Nat) (file : List Byte) (offset : Nat) (sectors : Option Nat) (s : Section)
    (state : State) : R (State × Option Nat) :=
  if s.kind = kindDisk ∨ s.kind = kindVolume then do return (← readVolumeSection segment file offset s state, sectors)
  else if s.kind = kindDone then .ok ({ state with last := true }, sectors)
  else if s.kind = kindNext then .ok ({ state with last := false }, sectors)
  else if s.kind = kindSectors then .ok (state, some s.next)
  else if s.kind = kindTable then do return (← readTableSection segment file offset s sectors state, sectors)
  else do
    other segment offset s
    return (state, sectors)

/-- `read_sections`, ewf/image.rs:352-562. -/
def runSections (other : Nat → Nat → Section → R Unit) (segment : Nat) (file : List Byte) :
    List Section → Nat → Option Nat → State → R State
  | [], _, _, state => .ok state
  | s :: rest, offset, sectors, state => do
    let (state, sectors) ← sectionStep other segment file offset sectors s state
    let offset ← R.addU 64 offset s.size
    runSections other segment file rest offset sectors state

/-- `segment_file_cache`, ewf/image.rs:55: a file without a data stream is `none`. -/
abbrev Files := LruCache.Cache Nat (Option (List Byte))

/-- One segment, ewf/image.rs:640-671. -/
def readSegment (other : Nat → Nat → Section → R Unit) (k : Nat) (file : List Byte) (state : State) (cache : Files) : R (State × Files) := do
  let (number, sections) ← readFile file
  R.require (number = k)
  let state ← runSections other k file sections 13 none state
  let cache ← cache.insert k (some file)
  return (state, cache)

/-- The loop over the segments, ewf/image.rs:605-674. The fuel bounds the number of iterations. -/
def segmentsLoop (other : Nat → Nat → Section → R Unit) (files : Nat → Option (List Byte)) : Nat → Nat → State → Files → R (State × Files)
  | 0, _, _, _ => .panic
  | n + 1, k, state, cache =>
    if state.last then .ok (state, cache)
    else match files k with
      | none => .err
      | some file => do
        let (state, cache) ← readSegment other k file state cache
        let k ← R.addU 16 k 1
        segmentsLoop other files n k state cache

/-- `open` and `read_segment_files`, ewf/image.rs:186-201 and 565-676. There are at most 65535 segments as the number has 16
bits. -/
def openImage (other : Nat → Nat → Section → R Unit) (files : Nat → Option (List Byte)) : R (State × Files) :=
  segmentsLoop other files 65536 1 ⟨0, 0, BlockTree.new 0 0 0, 0, false⟩ (LruCache.new 16)

/-- The cache of segment files and that of decompressed chunks, ewf/image.rs:55 and 76. -/
structure Caches where
  files : Files
  blocks : LruCache.Cache Nat (List Byte)

/-- The segment file of a range, ewf/image.rs:224-232: one that is not in the cache is made new, without a data stream. -/
def fileCached (cache : Files) (segment : Nat) : R Files :=
  if cache.contains segment then .ok cache else cache.insert segment none

/-- `EwfFile::read_exact_at_position`, ewf/file.rs:45-59, for a file of the cache (image.rs:233-242). -/
def readExact (cache : Files) (segment position n : Nat) : R (List Byte) := match cache.get segment with
  | none => .err
  | some none => .err
  | some (some file) => readExactAt file position n

/-- The cache with the decompressed chunk, ewf/image.rs:257-302. -/
def chunkCached (decompress : List Byte → Nat → R (List Byte)) (image : State) (c : Caches) (r : Range) : R Caches :=
  if c.blocks.contains r.dataOffset then .ok c else do
    let data ← readExact c.files r.segment r.dataOffset r.dataSize
    let out ← decompress data image.blockSize
    let blocks ← c.blocks.insert r.dataOffset out
    return ⟨c.files, blocks⟩

/-- The bytes for one range, ewf/image.rs:252-341. -/
def rangeBytes (decompress : List Byte → Nat → R (List Byte)) (image : State) (c : Caches) (r : Range) (relative count : Nat) :
    R (List Byte × Caches) :=
  if r.compressed then do
    let c ← chunkCached decompress image c r
    match c.blocks.get r.dataOffset with
    | none => .err
    | some data => do
      let out ← R.slice data relative (relative + count)
      return (out, c)
  else do
    let position ← R.addU 64 r.dataOffset relative
    let out ← readExact c.files r.segment position count
    return (out, c)

/-- One iteration of `read_data_from_blocks`, ewf/image.rs:209-347. -/
def piece (decompress : List Byte → Nat → R (List Byte)) (image : State) (c : Caches) (current want : Nat) : R (List Byte × Caches) := do
  match ← BlockTree.get image.tree current with
  | none => .err
  | some r => do
    let files ← fileCached c.files r.segment
    let relative ← R.subU current r.mediaOffset
    let remainder ← R.subU image.blockSize relative
    rangeBytes decompress image ⟨files, c.blocks⟩ r relative (min want remainder)

/-- The data stream of the media, ewf/image.rs:204-208, 348 and 935-981. -/
def stream (decompress : List Byte → Nat → R (List Byte)) (image : State) : Reader Caches :=
  Blocks.reader (piece decompress image) image.mediaSize

/-- The caches of an opened image, ewf/image.rs:107 and 114. -/
def caches (files : Files) : Caches := ⟨files, LruCache.new 64⟩

end Keramics.EwfImage
