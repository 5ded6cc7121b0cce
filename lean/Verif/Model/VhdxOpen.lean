import Verif.Model.Vhdx
import Verif.Model.Vfs
import Verif.Model.Crc32

/-!
# Model: the headers, region tables, metadata and parent locator of VHDX images

The mediator's debug output is not modelled. A `HashMap` is the list of what was inserted, the newest first; `get` finds the
newest. Seeking past the end of a stream is no error, and reading there gives no bytes.
-/

namespace Keramics.Vhdx

/-- The checksum of a structure, image_header.rs:80-86 and region_table.rs:60-66: the bytes 4 to 8 count as zeros. -/
def checksum (data : List Byte) (size : Nat) : R Nat := do
  let a ← R.slice data 0 4
  let b ← R.slice data 8 size
  let c ← [a, List.replicate 4 0#8, b].foldlM Crc32.Ctx.revUpdate (Crc32.Ctx.new 0x82f63b78#32 0#32)
  return c.finalize.1.toNat

/-- `VhdxFileHeader::read_data`, file_header.rs:40-52, and reading at the start, vhdx/file.rs:151-157. -/
def readFileHeader (file : List Byte) : R Unit := do
  let d ← readExactAt file 0 65536
  let s ← R.slice d 0 8
  R.require (s = [0x76#8, 0x68#8, 0x64#8, 0x78#8, 0x66#8, 0x69#8, 0x6c#8, 0x65#8])

/-- `VhdxImageHeader`, image_header.rs:41-50. -/
structure ImageHeader where
  sequence : Nat
  identifier : Uuid.Uuid
  version : Nat
deriving DecidableEq, Repr

/-- `VhdxImageHeader::read_data`, image_header.rs:63-95, on what is read at a position. -/
def readImageHeader (file : List Byte) (pos : Nat) : R ImageHeader := do
  let d ← readExactAt file pos 4096
  let s ← R.slice d 0 4
  R.require (s = [0x68#8, 0x65#8, 0x61#8, 0x64#8])
  let stored ← u32le d 4
  let sequence ← u64le d 8
  let identifier ← Uuid.fromLeBytes (← R.slice d 32 48)
  let version ← u16le d 66
  let calculated ← checksum d 4096
  R.require (¬ (stored ≠ 0 ∧ stored ≠ calculated))
  return ⟨sequence, identifier, version⟩

/-- An entry of a region table or of a metadata table: `VhdxRegionTableEntry`, region_table_entry.rs:30-42, without the flag
that the code never uses, and `VhdxMetadataTableEntry`, metadata_table_entry.rs:30-39. -/
structure Place where
  id : Uuid.Uuid
  offset : Nat
  size : Nat
deriving DecidableEq, Repr

/-- `VhdxRegionTableEntry::read_data`, region_table_entry.rs:56-73. -/
def regionEntry (data : List Byte) : R Place := do
  R.require (data.length = 32)
  return ⟨← Uuid.fromLeBytes (← R.slice data 0 16), ← u64le data 16, ← u32le data 24⟩

/-- `VhdxMetadataTableEntry::read_data`, metadata_table_entry.rs:52-69. -/
def itemEntry (data : List Byte) : R Place := do
  R.require (data.length = 32)
  let p : Place := ⟨← Uuid.fromLeBytes (← R.slice data 0 16), ← u32le data 16, ← u32le data 20⟩
  R.require (¬ p.offset < 65536)
  return p

/-- The loops over the entries, region_table.rs:75-102 and metadata_table.rs:62-89, with the number of iterations left. -/
def entriesLoop (entry : List Byte → R Place) (data : List Byte) : Nat → Nat → List Place → R (List Place)
  | 0, _, places => .ok places
  | n + 1, offset, places => do
    let e ← R.slice data offset (offset + 32)
    let p ← entry e
    entriesLoop entry data n (offset + 32) (p :: places)

/-- `VhdxRegionTable::read_at_position` and `read_data`, region_table.rs:44-126, with the header, region_table_header.rs:50-71. -/
def readRegions (file : List Byte) (pos : Nat) : R (List Place) := do
  let d ← readExactAt file pos 65536
  let s ← R.slice d 0 4
  R.require (s = [0x72#8, 0x65#8, 0x67#8, 0x69#8])
  let stored ← u32le d 4
  let number ← u32le d 8
  R.require (¬ 2047 < number)
  let calculated ← checksum d 65536
  R.require (¬ (stored ≠ 0 ∧ stored ≠ calculated))
  entriesLoop regionEntry d number 16 []

/-- `VhdxMetadataTable::read_at_position` and `read_data`, metadata_table.rs:43-113, with the header, metadata_table_header.rs:46-60. -/
def readItems (file : List Byte) (pos : Nat) : R (List Place) := do
  let d ← readExactAt file pos 65536
  let s ← R.slice d 0 8
  R.require (s = [0x6d#8, 0x65#8, 0x74#8, 0x61#8, 0x64#8, 0x61#8, 0x74#8, 0x61#8])
  let number ← u16le d 10
  entriesLoop itemEntry d number 32 []

/-- `entries.get`. -/
def find (places : List Place) (id : Uuid.Uuid) : Option Place := places.find? (·.id = id)

/-- An entry that has to be there, as in vhdx/file.rs:209-225 and 233-243. -/
def required (places : List Place) (id : Uuid.Uuid) : R Place :=
  match find places id with
  | some p => .ok p
  | none => .err

/-- vhdx/constants.rs. -/
def batId : Uuid.Uuid := ⟨0x2dc27766, 0xf623, 0x4200, 0x9d64, 0x115e9bfd4a08⟩
/-- vhdx/constants.rs. -/
def metadataId : Uuid.Uuid := ⟨0x8b7ca206, 0x4790, 0x4b9a, 0xb8fe, 0x575f050f886e⟩
/-- vhdx/constants.rs. -/
def diskSizeId : Uuid.Uuid := ⟨0x2fa54224, 0xcd1b, 0x4876, 0xb211, 0x5dbed83bf4b8⟩
/-- vhdx/constants.rs. -/
def logicalId : Uuid.Uuid := ⟨0x8141bf1d, 0xa96f, 0x4709, 0xba47, 0xf233a8faab5f⟩
/-- vhdx/constants.rs. -/
def locatorId : Uuid.Uuid := ⟨0xa8d35f2d, 0xb30b, 0x454d, 0xabf7, 0xd3d84834ab0c⟩
/-- vhdx/constants.rs. -/
def diskIdId : Uuid.Uuid := ⟨0xbeca12ab, 0xb2e6, 0x4523, 0x93ef, 0xc309e000c746⟩
/-- vhdx/constants.rs. -/
def parametersId : Uuid.Uuid := ⟨0xcaa16737, 0xfa36, 0x4d43, 0xb3b6, 0x33f0aa44e76b⟩
/-- vhdx/constants.rs. -/
def physicalId : Uuid.Uuid := ⟨0xcda348c7, 0x445d, 0x4471, 0x9cc9, 0xe9885251c556⟩

/-- The data of a metadata item of a fixed size, for example vhdx/file.rs:295-311: one read, what was not read are zeros. -/
def readItem (file : List Byte) (base : Nat) (p : Place) (size : Nat) : R (List Byte) := do
  R.require (p.size = size)
  let pos ← R.addU 64 base p.offset
  let d := Blocks.readAt file pos size
  return d ++ List.replicate (size - d.length) 0#8

/-- The block size and flags, vhdx/file.rs:293-344. -/
def parameters (file : List Byte) (base : Nat) (items : List Place) : R (Nat × Nat) := do
  let p ← required items parametersId
  let d ← readItem file base p 8
  let flags ← u32le d 4
  let blockSize ← u32le d 0
  R.require (¬ (blockSize < 1048576 ∨ 268435456 < blockSize))
  return (blockSize, flags)

/-- The virtual disk size, vhdx/file.rs:345-377. -/
def diskSize (file : List Byte) (base : Nat) (items : List Place) : R Nat := do
  let p ← required items diskSizeId
  let d ← readItem file base p 8
  u64le d 0

/-- The sector size in an item, vhdx/file.rs:383-413 and 426-455. -/
def sectorSize (file : List Byte) (base : Nat) (p : Place) : R Nat := do
  let d ← readItem file base p 4
  let n ← u32le d 0
  R.require (¬ (n ≠ 512 ∧ n ≠ 4096))
  return n

/-- The logical sector size, vhdx/file.rs:378-419. -/
def logicalSector (file : List Byte) (base : Nat) (items : List Place) : R Nat := do
  let p ← required items logicalId
  sectorSize file base p

/-- The physical sector size, vhdx/file.rs:420-456, which may be missing. -/
def physicalSector (file : List Byte) (base : Nat) (items : List Place) : R Unit :=
  match find items physicalId with
  | some p => do let _ ← sectorSize file base p; return ()
  | none => .ok ()

/-- The virtual disk identifier, vhdx/file.rs:457-491. -/
def diskIdentifier (file : List Byte) (base : Nat) (items : List Place) : R Unit := do
  let p ← required items diskIdId
  let d ← readItem file base p 16
  let _ ← Uuid.fromLeBytes d
  return ()

/-- An iteration of the loop of `VhdxParentLocator::read_data`, parent_locator.rs:64-160, with the entry,
parent_locator_entry.rs:56-68: the text of the key, and the value. -/
def locatorEntry (data : List Byte) (offset : Nat) : R (List Nat × List Nat) := do
  R.require (¬ data.length < offset + 12)
  let e ← R.slice data offset (offset + 12)
  let keyOffset ← u32le e 0
  let valueOffset ← u32le e 4
  let keySize ← u16le e 8
  let valueSize ← u16le e 10
  R.require (¬ (keyOffset < 20 ∨ data.length ≤ keyOffset))
  R.require (¬ data.length - keyOffset < keySize)
  R.require (¬ (valueOffset < 20 ∨ data.length ≤ valueOffset))
  R.require (¬ data.length - valueOffset < valueSize)
  let key ← Ucs2.fromLeBytes (← R.slice data keyOffset (keyOffset + keySize))
  let value ← Ucs2.fromLeBytes (← R.slice data valueOffset (valueOffset + valueSize))
  return (Path.ucs2Text key, value)

/-- The loop, parent_locator.rs:63-161, with the number of iterations left. -/
def locatorLoop (data : List Byte) : Nat → Nat → List (List Nat × List Nat) → R (List (List Nat × List Nat))
  | 0, _, pairs => .ok pairs
  | n + 1, offset, pairs => do
    let p ← locatorEntry data offset
    locatorLoop data n (offset + 12) (p :: pairs)

/-- `VhdxParentLocator::read_at_position` and `read_data`, parent_locator.rs:43-191, with the header, parent_locator_header.rs:45-59. -/
def readLocator (file : List Byte) (size pos : Nat) : R (List (List Nat × List Nat)) := do
  R.require (¬ (size < 20 ∨ 65536 < size))
  let d ← readExactAt file pos size
  let s ← R.slice d 0 16
  R.require (s = [0xb7#8, 0xef#8, 0x4a#8, 0xb0#8, 0x9e#8, 0xd1#8, 0x81#8, 0x4a#8, 0xb7#8, 0x89#8, 0x25#8, 0xb8#8, 0xe9#8, 0x44#8, 0x59#8, 0x13#8])
  let number ← u16le d 18
  locatorLoop d number 20 []

/-- `entries.get` with a text. -/
def findText (pairs : List (List Nat × List Nat)) (key : String) : Option (List Nat) :=
  (pairs.find? (·.1 = key.toList.map Char.toNat)).map Prod.snd

/-- The identifier of the parent, vhdx/file.rs:518-536. -/
def linkage (pairs : List (List Nat × List Nat)) : R (Option Uuid.Uuid) :=
  match findText pairs "parent_linkage" with
  | some s => do
    let u ← Uuid.fromString ((Path.ucs2Text s).flatMap Path.utf8)
    return some u
  | none => .ok none

/-- The name of the parent, vhdx/file.rs:537-559. -/
def parentName (pairs : List (List Nat × List Nat)) : Option (List Nat) :=
  match findText pairs "absolute_win32_path" with
  | some s => some s
  | none => match findText pairs "volume_path" with
    | some s => some s
    | none => findText pairs "relative_path"

/-- The parent locator, vhdx/file.rs:495-562, which may be missing. -/
def parent (file : List Byte) (base : Nat) (items : List Place) : R (Option Uuid.Uuid × Option (List Nat)) :=
  match find items locatorId with
  | some p => do
    let pos ← R.addU 64 base p.offset
    let pairs ← readLocator file p.size pos
    let u ← linkage pairs
    return (u, parentName pairs)
  | none => .ok (none, none)

/-- `VhdxFile`, vhdx/file.rs:36-84: what opening it determines. -/
structure File where
  identifier : Uuid.Uuid
  version : Nat
  metadata : Metadata
  image : Image
  tree : Lazy.Tree
  parentIdentifier : Option Uuid.Uuid
  parentName : Option (List Nat)

/-- vhdx/file.rs:179-185: the header in use. -/
def currentHeader (primary secondary : ImageHeader) : ImageHeader :=
  if secondary.sequence < primary.sequence then primary else secondary

/-- `read_data_stream`, `read_metadata` and `read_metadata_values`, vhdx/file.rs:131-563. The checks of the block and sector sizes are
also in `openImage`. -/
def openFile (file : List Byte) : R File := do
  readFileHeader file
  let primary ← readImageHeader file 65536
  let secondary ← readImageHeader file 131072
  let header := currentHeader primary secondary
  let regions ← readRegions file 196608
  let _ ← readRegions file 262144
  let metadata ← required regions metadataId
  R.require (¬ metadata.size < 65536)
  let items ← readItems file metadata.offset
  let (blockSize, flags) ← parameters file metadata.offset items
  let mediaSize ← diskSize file metadata.offset items
  let sectors ← logicalSector file metadata.offset items
  physicalSector file metadata.offset items
  diskIdentifier file metadata.offset items
  let (parentId, name) ← parent file metadata.offset items
  let bat ← required regions batId
  let m : Metadata := ⟨blockSize, flags, mediaSize, sectors, bat.offset, bat.size⟩
  let (image, tree) ← openImage m
  return ⟨header.identifier, header.version, m, image, tree, parentId, name⟩

/-- The search of `get_parent_file_name` for the last backslash, vhdx/file.rs:117-122, over the elements from the end: the index
after it. -/
def afterBackslash : List (Nat × Nat) → Nat
  | [] => 0
  | (index, c) :: rest => if c = 0x5c then index + 1 else afterBackslash rest

/-- `get_parent_file_name`, vhdx/file.rs:110-128. -/
def parentFileName (name : Option (List Nat)) : R (Option (List Nat)) :=
  match name with
  | none => .ok none
  | some s => do
    let t ← R.slice s (afterBackslash ((List.range s.length).zip s).reverse) s.length
    return some t

end Keramics.Vhdx
