import Verif.Model.Fat
import Verif.Model.FatDirectory

/-!
# Model: FAT file systems

Debug output through the mediator is left out. The data stream is a list of bytes, read to the end of what is asked for as long as there are bytes.
-/

namespace Keramics.FatFs
open Keramics.Fat (Format Table)
open Keramics.FatDir (State Entry)

/-- `FatBootRecord`, fat/boot_record.rs:23-56. -/
structure Boot where
  bytesPerSector : Nat
  sectorsPerCluster : Nat
  reserved : Nat
  tables : Nat
  rootEntries : Nat
  tableSectors : Nat
  sectors : Nat
  rootCluster : Nat
  serial : Nat
  label : List Byte
deriving DecidableEq, Repr

/-- The fields of both boot records, boot_record_fat12.rs:53-84, boot_record_fat32.rs:64-92: bytes per sector, sectors per cluster block, reserved sectors,
allocation tables. The data always has 512 bytes. -/
def readCommon (data : List Byte) : R (Nat × Nat × Nat × Nat) := do
  R.require (512 ≤ data.length)
  R.require ((← R.slice data 510 512) = [0x55#8, 0xaa#8])
  let bytesPerSector ← u16le data 11
  R.require (bytesPerSector ∈ [512, 1024, 2048, 4096])
  let sectorsPerCluster ← R.get data 13
  R.require (sectorsPerCluster.toNat ∈ [1, 2, 4, 8, 16, 32, 64, 128])
  let reserved ← u16le data 14
  let tables ← R.get data 16
  return (bytesPerSector, sectorsPerCluster.toNat, reserved, tables.toNat)

/-- The serial number and the label at an offset, if the extended boot signature is there, boot_record_fat12.rs:98-108, boot_record_fat32.rs:128-138. -/
def readExtended (data : List Byte) (at_ : Nat) : R (Nat × List Byte) := do
  let signature ← R.get data at_
  if signature = 0x29#8 then
    let serial ← u32le data (at_ + 1)
    let label ← R.slice data (at_ + 5) (at_ + 16)
    return (serial, FatDir.trim label)
  else return (0, [])

/-- `if number_of_sectors_32bit != 0 …`, boot_record_fat12.rs:93-97. -/
def chooseSectors (sectors16 sectors32 : Nat) : Nat := if sectors32 ≠ 0 then sectors32 else sectors16

/-- `Fat12BootRecord::read_data`, boot_record_fat12.rs:53-110. -/
def readBoot12 (data : List Byte) : R Boot := do
  let (bytesPerSector, sectorsPerCluster, reserved, tables) ← readCommon data
  let rootEntries ← u16le data 17
  let sectors16 ← u16le data 19
  let tableSectors ← u16le data 22
  let sectors32 ← u32le data 32
  let (serial, label) ← readExtended data 38
  return ⟨bytesPerSector, sectorsPerCluster, reserved, tables, rootEntries, tableSectors, chooseSectors sectors16 sectors32, 0, serial, label⟩

/-- `Fat32BootRecord::read_data`, boot_record_fat32.rs:63-140. -/
def readBoot32 (data : List Byte) : R Boot := do
  let (bytesPerSector, sectorsPerCluster, reserved, tables) ← readCommon data
  R.require ((← u16le data 17) = 0)
  R.require ((← u16le data 19) = 0)
  R.require ((← u16le data 22) = 0)
  let sectors ← u32le data 32
  let tableSectors ← u32le data 36
  let rootCluster ← u32le data 44
  R.require (¬ rootCluster < 2)
  let (serial, label) ← readExtended data 66
  return ⟨bytesPerSector, sectorsPerCluster, reserved, tables, 0, tableSectors, sectors, rootCluster, serial, label⟩

/-- Which of the two, boot_record.rs:92-120. -/
def readBootData (data : List Byte) : R Boot := do
  let a ← R.slice data 17 21
  let b ← R.slice data 22 24
  if a = [0#8, 0#8, 0#8, 0#8] ∧ b = [0#8, 0#8] then readBoot32 data else readBoot12 data

/-- `FatBootRecord::read_at_position`, boot_record.rs:76-126, at the start of the stream. -/
def readBoot (U : List Byte) : R Boot := do
  let data ← readExactAt U 0 512
  readBootData data

/-- `FatFileSystem`, file_system.rs:35-76. -/
structure Volume where
  table : Table
  rootOffset : Nat
  rootSize : Nat
  rootCluster : Nat
  serial : Nat
  label : Option (List Byte)
  rootLabel : Option (List Byte)

/-- file_system.rs:366-373 -/
def formatOf (rootCluster clusters : Nat) : Format :=
  if rootCluster ≠ 0 ∨ clusters ≥ 65525 then .fat32 else if clusters ≥ 4085 then .fat16 else .fat12

/-- The offset and size of the root directory and the offset of the first cluster, file_system.rs:386-390. -/
def rootArea (b : Boot) (first : Nat) : R (Nat × Nat × Nat) :=
  if b.rootCluster = 0 then do
    let size ← R.mulU 32 b.rootEntries 32
    let first' ← R.addU 64 first size
    return (first, size, first')
  else return (0, 0, first)

/-- `read_metadata` before the root directory is read, file_system.rs:352-397. -/
def metadata (b : Boot) : R Volume := do
  let clusters ← R.subU b.sectors b.reserved
  let clusters ← R.subU clusters (← R.mulU 64 b.tables b.tableSectors)
  R.check (b.sectorsPerCluster ≠ 0)
  let clusters := clusters / b.sectorsPerCluster
  let tableOffset ← R.mulU 64 b.reserved b.bytesPerSector
  let tableSize ← R.mulU 64 b.tableSectors b.bytesPerSector
  let first ← R.addU 64 tableOffset (← R.mulU 64 b.tables tableSize)
  let clusterSize ← R.mulU 32 b.bytesPerSector b.sectorsPerCluster
  let (rootOffset, rootSize, first) ← rootArea b first
  return ⟨⟨formatOf b.rootCluster clusters, tableOffset, clusters % 2 ^ 32, first, clusterSize⟩, rootOffset, rootSize, b.rootCluster, b.serial,
    if b.label = [] then none else some b.label, none⟩

/-- The loop of `read_at_cluster_block`, directory_entries.rs:231-294. `fuel` bounds the number of iterations; running out of it is reported as
`panic`. -/
def clusterLoop (fold : Nat → Option Nat) (t : Table) (U : List Byte) : Nat → Nat → List Nat → State → R State
  | fuel, cluster, visited, st =>
    if 2 ≤ cluster ∧ cluster < Fat.largest t then
      match fuel with
      | 0 => .panic
      | fuel + 1 => do
        R.require (cluster ∉ visited)
        let relative ← R.mulU 64 (cluster - 2) t.clusterSize
        let offset ← R.addU 64 t.firstCluster relative
        let data ← readExactAt U offset t.clusterSize
        let st ← FatDir.readData fold offset st data
        let next ← Fat.readEntry t U cluster
        clusterLoop fold t U fuel next (cluster :: visited) st
    else .ok st

/-- `read_at_cluster_block`, directory_entries.rs:213-299. Every iteration visits another entry of the table, so one more
iteration than there are entries is enough. -/
def readClusters (fold : Nat → Option Nat) (t : Table) (U : List Byte) (cluster : Nat) : R State :=
  clusterLoop fold t U (t.entries + 1) cluster [] FatDir.init

/-- `read_at_position`, directory_entries.rs:302-352. -/
def readRegion (fold : Nat → Option Nat) (U : List Byte) (size offset : Nat) : R State := do
  R.require (¬ (size < 32 ∨ size > 2097152))
  let data ← readExactAt U offset size
  FatDir.readData fold offset FatDir.init data

/-- `read_root_directory`, file_system.rs:422-474. -/
def readRoot (fold : Nat → Option Nat) (U : List Byte) (v : Volume) : R State :=
  if v.rootSize > 0 then readRegion fold U v.rootSize v.rootOffset else readClusters fold v.table U v.rootCluster

/-- `read_data_stream`, file_system.rs:230-244 and 341-418. -/
def openVolume (fold : Nat → Option Nat) (U : List Byte) : R Volume := do
  let boot ← readBoot U
  let v ← metadata boot
  let root ← readRoot fold U v
  return { v with rootLabel := root.label }

/-- `get_volume_label`, file_system.rs:101-106. -/
def volumeLabel (v : Volume) : Option (List Byte) := v.rootLabel.or v.label

/-- `FatFileEntry`, file_entry.rs:26-42: the directory entry, none for the root directory, and the sub directory entries if they have been read. -/
structure FileEntry where
  entry : Option Entry
  entries : Option State

/-- `is_directory`, file_entry.rs:248-256. -/
def isDirectory (e : FileEntry) : Bool := match e.entry with
  | some entry => entry.short.attributes &&& 0x58#8 = 0x10#8
  | none => true

/-- `get_root_directory`, file_system.rs:194-228. -/
def rootEntry (fold : Nat → Option Nat) (U : List Byte) (v : Volume) : R FileEntry := do
  return ⟨none, some (← readRoot fold U v)⟩

/-- `read_sub_directory_entries`, file_entry.rs:264-290. -/
def readSub (fold : Nat → Option Nat) (U : List Byte) (v : Volume) (e : FileEntry) : R State := match e.entry with
  | some entry => readClusters fold v.table U entry.short.startCluster
  | none => .err

/-- The sub directory entries after they have been read if need be, file_entry.rs:203-214. -/
def subEntries (fold : Nat → Option Nat) (U : List Byte) (v : Volume) (e : FileEntry) : R State := match e.entries with
  | some st => .ok st
  | none => if isDirectory e then readSub fold U v e else .ok FatDir.init

/-- `get_sub_file_entry_by_name`, file_entry.rs:199-245, with a UCS-2 string as name. -/
def subEntry (fold : Nat → Option Nat) (U : List Byte) (v : Volume) (e : FileEntry) (name : List Nat) : R (Option FileEntry) := do
  let st ← subEntries fold U v e
  return (FatDir.find st (Ucs2.caseFold fold name)).map fun entry => ⟨some entry, none⟩

/-- The loop of `get_file_entry_by_path`, file_system.rs:166-190. -/
def walk (fold : Nat → Option Nat) (U : List Byte) (v : Volume) : FileEntry → List (List Nat) → R (Option FileEntry)
  | e, [] => .ok (some e)
  | e, name :: rest => do
    match ← subEntry fold U v e name with
    | some e' => walk fold U v e' rest
    | none => return none

/-- `get_file_entry_by_path`, file_system.rs:150-192, for paths of UCS-2 strings. -/
def byPath (fold : Nat → Option Nat) (U : List Byte) (v : Volume) (components : List (List Nat)) : R (Option FileEntry) :=
  match components with
  | [] => .ok none
  | first :: rest => if first.length ≠ 0 then .ok none else do
    let root ← rootEntry fold U v
    walk fold U v root rest

/-- `get_size`, file_entry.rs:113-118. -/
def size (e : FileEntry) : Nat := match e.entry with
  | some entry => entry.short.size
  | none => 0

/-- `get_name`, file_entry.rs:98-110: the long name or the short name. -/
def name (e : FileEntry) : Option (List Nat ⊕ List Byte) := e.entry.map fun entry => match entry.long with
  | some long => .inl long
  | none => .inr entry.short.name

/-- `get_data_stream`, file_entry.rs:121-151: the size and the tree of the block stream. -/
def dataStream (U : List Byte) (v : Volume) (e : FileEntry) : R (Option (Nat × BlockTree.Tree Fat.Range)) := match e.entry with
  | some entry =>
    if isDirectory e then .ok none else do
      let tree ← Fat.openTree v.table U v.table.clusterSize entry.short.size entry.short.startCluster
      return some (entry.short.size, tree)
  | none => .ok none

end Keramics.FatFs
