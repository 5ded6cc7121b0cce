import Verif.Model.Stream
import Verif.Model.DataStreams
import Verif.Model.Crc32
import Verif.Model.Types

/-!
# Model: GPT, MBR and APM volume systems

The sources are in keramics-formats/src/{gpt,mbr,apm}. The `read_at_position` methods made by the `LayoutMap` macro read
exactly the size of the structure and call `read_data`. Debug output is left out. A partition is the window
(`Window.Win`) of the stream that `partition.open` gives it.
-/

namespace Keramics.Gpt

/-- `GptPartitionTableHeader`, gpt/partition_table_header.rs:45-54. -/
structure Header where
  backup : Nat
  areaStart : Nat
  areaEnd : Nat
  disk : Uuid.Uuid
  entriesStart : Nat
  number : Nat
  entrySize : Nat
  checksum : Nat
deriving DecidableEq, Repr

/-- The CRC-32 of some chunks, partition_table_header.rs:101-106, volume_system.rs:220, 234, 273. -/
def crc (chunks : List (List Byte)) : R Nat := do
  let c ← chunks.foldlM Crc32.Ctx.revUpdate (Crc32.Ctx.new 0xedb88320#32 0#32)
  return c.finalize.1.toNat

/-- `GptPartitionTableHeader::read_data`, partition_table_header.rs:72-124. -/
def readHeader (data : List Byte) : R Header := do
  R.require (data.length = 92)
  R.require ((← R.slice data 0 8) = [0x45#8, 0x46#8, 0x49#8, 0x20#8, 0x50#8, 0x41#8, 0x52#8, 0x54#8])
  R.require ((← u32le data 8) = 0x00010000)
  R.require ((← u32le data 12) = 92)
  let stored ← u32le data 16
  let calculated ← crc [← R.slice data 0 16, List.replicate 4 0#8, ← R.slice data 20 92]
  R.require (¬ (stored ≠ 0 ∧ stored ≠ calculated))
  return ⟨← u64le data 32, ← u64le data 40, ← u64le data 48, ← Uuid.fromLeBytes (← R.slice data 56 72), ← u64le data 72,
    ← u32le data 80, ← u32le data 84, ← u32le data 88⟩

/-- `GptPartitionTableHeader::read_at_position`. -/
def readHeaderAt (U : List Byte) (pos : Nat) : R Header := do readHeader (← readExactAt U pos 92)

/-- volume_system.rs:151-166: try the supported sector sizes. -/
def detect (U : List Byte) : List Nat → R (Nat × Header)
  | [] => .err
  | bps :: rest => match readHeaderAt U bps with
    | .ok h => .ok (bps, h)
    | .err => detect U rest
    | .panic => .panic

/-- volume_system.rs:135-167; `set` is the sector size set before, 0 if there is none. -/
def primary (U : List Byte) (set : Nat) : R (Nat × Header) :=
  if set ≠ 0 then do return (set, ← readHeaderAt U set) else detect U [512, 4096]

/-- volume_system.rs:184-196: the header in the last sector. Seeking before the start is an error, as with files. -/
def lastSector (U : List Byte) (bps : Nat) : R Header :=
  if bps ≤ U.length then readHeaderAt U (U.length - bps) else .err

/-- volume_system.rs:173-199: the backup header at an offset, or else in the last sector. -/
def backup (U : List Byte) (bps offset : Nat) : R Unit :=
  if 0 < offset then match readHeaderAt U offset with
    | .ok _ => .ok ()
    | .err => do let _ ← lastSector U bps; return ()
    | .panic => .panic
  else .ok ()

/-- `GptPartitionEntry`, gpt/partition_entry.rs:32-40, without flags and name. -/
structure Entry where
  index : Nat
  typeId : Uuid.Uuid
  id : Uuid.Uuid
  start : Nat
  end_ : Nat
deriving DecidableEq, Repr

/-- `GptPartitionEntry::read_data`, partition_entry.rs:57-71. -/
def readEntry (index : Nat) (data : List Byte) : R Entry := do
  R.require (data.length = 128)
  return ⟨index, ← Uuid.fromLeBytes (← R.slice data 0 16), ← Uuid.fromLeBytes (← R.slice data 16 32), ← u64le data 32, ← u64le data 40⟩

/-- volume_system.rs:248-271: keep the entry if it has a type. -/
def keep (areaStart : Nat) (e : Entry) (entries : List Entry) : R (List Entry) :=
  if Uuid.isNil e.typeId = false then do
    R.require (¬ e.start < areaStart)
    R.require (¬ e.end_ < e.start)
    return entries ++ [e]
  else .ok entries

/-- volume_system.rs:226-272, with the number of iterations left. Returns the chunks given to the checksum. -/
def entriesLoop (U : List Byte) (areaStart : Nat) : Nat → Nat → Nat → List (List Byte) → List Entry → R (List (List Byte) × List Entry)
  | 0, _, _, chunks, entries => .ok (chunks, entries)
  | n + 1, index, offset, chunks, entries => do
    let data ← readExactAt U offset 128
    let offset ← R.addU 64 offset 128
    let e ← readEntry index data
    let entries ← keep areaStart e entries
    entriesLoop U areaStart n (index + 1) offset (chunks ++ [data]) entries

/-- `GptVolumeSystem`, volume_system.rs:28-44. -/
structure System where
  bps : Nat
  disk : Uuid.Uuid
  entries : List Entry
deriving DecidableEq, Repr

/-- `read_partition_table`, volume_system.rs:131-284, on a new volume system with `set` bytes per sector. -/
def readTable (U : List Byte) (set : Nat) : R System := do
  let p ← primary U set
  let backupOffset ← R.mulU 64 p.2.backup p.1
  backup U p.1 backupOffset
  R.require (p.2.entrySize = 128)
  R.require (¬ (32 * p.1) / p.2.entrySize < p.2.number)
  let offset ← R.mulU 64 p.2.entriesStart p.1
  let r ← entriesLoop U p.2.areaStart p.2.number 0 offset [] []
  let calculated ← crc r.1
  R.require (¬ (p.2.checksum ≠ 0 ∧ p.2.checksum ≠ calculated))
  return ⟨p.1, if Uuid.isNil p.2.disk then ⟨0, 0, 0, 0, 0⟩ else p.2.disk, r.2⟩

/-- `get_partition_by_index`, volume_system.rs:64-109. -/
def getPartition (s : System) (i : Nat) : R Window.Win :=
  match s.entries[i]? with
  | some e => do
    let offset ← R.mulU 64 e.start s.bps
    let blocks ← R.subU e.end_ e.start
    let blocks ← R.addU 64 blocks 1
    let size ← R.mulU 64 blocks s.bps
    return ⟨offset, size⟩
  | none => .err

end Keramics.Gpt

namespace Keramics.Mbr

/-- `MbrPartitionEntry`, mbr/partition_entry.rs:32-47. -/
structure Entry where
  index : Nat
  flags : Nat
  kind : Nat
  start : Nat
  sectors : Nat
deriving DecidableEq, Repr

/-- `MbrPartitionEntry::read_data`, partition_entry.rs:62-74. -/
def readEntry (data : List Byte) : R Entry := do
  R.require (data.length = 16)
  return ⟨0, (← R.get data 0).toNat, (← R.get data 4).toNat, ← u32le data 8, ← u32le data 12⟩

/-- master_boot_record.rs:71-78, extended_boot_record.rs:66-73: the entries at some offsets. -/
def readEntries (data : List Byte) : List Nat → R (List Entry)
  | [] => .ok []
  | off :: rest => do
    let e ← readEntry (← R.slice data off (off + 16))
    let es ← readEntries data rest
    return e :: es

/-- `MbrMasterBootRecord::read_data`, master_boot_record.rs:58-80, and `MbrExtendedBootRecord::read_data`,
extended_boot_record.rs:53-75, on 512 bytes. Returns the disk identity and the entries. -/
def readRecord (data : List Byte) : R (Nat × List Entry) := do
  R.require (data.length = 512)
  R.require ((← R.slice data 510 512) = [0x55#8, 0xaa#8])
  let identity ← u32le data 440
  let es ← readEntries data [446, 462, 478, 494]
  return (identity, es)

/-- mbr/volume_system.rs:151-164: the first sector size with a signature in the extended boot record, 0 if there is
none. A short read leaves the rest of the buffer as it was. -/
def detectSize (U : List Byte) (lba : Nat) : List Nat → List Byte → R Nat
  | [], _ => .ok 0
  | bps :: rest, buffer => do
    let offset ← R.mulU 64 lba bps
    let position ← R.addU 64 offset 510
    let out := (U.drop position).take 2
    let buffer := out ++ buffer.drop out.length
    if buffer = [0x55#8, 0xaa#8] then return bps else detectSize U lba rest buffer

/-- volume_system.rs:146-168 -/
def detect (U : List Byte) (entries : List Entry) (set : Nat) : R Nat :=
  if set = 0 then
    match entries.find? (fun e => e.kind = 5 ∨ e.kind = 15) with
    | some e => detectSize U e.start [512, 1024, 2048, 4096] [0#8, 0#8]
    | none => .ok 0
  else .ok set

/-- volume_system.rs:172-191: the entries of the master boot record. Returns the partitions and the offset of the
extended boot record, 0 if there is none. -/
def masterLoop (bps : Nat) : List Entry → Nat → Nat → List Entry → R (List Entry × Nat)
  | [], _, extended, acc => .ok (acc, extended)
  | e :: es, index, extended, acc =>
    if e.kind = 5 ∨ e.kind = 15 then do
      R.require (bps ≠ 0)
      R.require (extended = 0)
      let offset ← R.mulU 64 e.start bps
      masterLoop bps es (index + 1) offset acc
    else if e.kind ≠ 0 then masterLoop bps es (index + 1) extended (acc ++ [{ e with index := index }])
    else masterLoop bps es (index + 1) extended acc

/-- volume_system.rs:263-280: the entries of an extended boot record. -/
def extendedLoop (bps first firstIndex : Nat) : List Entry → Nat → Nat → List Entry → R (List Entry × Nat)
  | [], _, next, acc => .ok (acc, next)
  | e :: es, index, next, acc =>
    if e.kind = 0 then extendedLoop bps first firstIndex es index next acc
    else if e.kind = 5 then do
      R.require (next = 0)
      let relative ← R.mulU 64 e.start bps
      let offset ← R.addU 64 first relative
      extendedLoop bps first firstIndex es (index + 1) offset acc
    else extendedLoop bps first firstIndex es (index + 1) next (acc ++ [{ e with index := firstIndex + index }])

/-- `read_extended_boot_record`, volume_system.rs:234-298. `fuel` bounds the recursion; running out of it is reported
as `panic`. -/
def readExtended (U : List Byte) (bps first : Nat) : Nat → Nat → Nat → List Entry → R (List Entry)
  | 0, _, _, _ => .panic
  | fuel + 1, offset, firstIndex, acc => do
    R.require (¬ 1024 ≤ firstIndex)
    let record ← readRecord (← readExactAt U offset 512)
    let r ← extendedLoop bps first firstIndex record.2 0 0 acc
    if r.2 ≠ 0 then readExtended U bps first fuel r.2 (firstIndex + 4) r.1 else return r.1

/-- volume_system.rs:192-205 -/
def readLogical (U : List Byte) (bps offset : Nat) (acc : List Entry) : R (List Entry) :=
  if offset ≠ 0 then readExtended U bps offset 256 offset 4 acc else .ok acc

/-- `max_by_key(|element| element.start_address_lba)`, volume_system.rs:207-210: the last of the largest. -/
def lastEntry : List Entry → Option Entry
  | [] => none
  | e :: es => some (es.foldl (fun m x => if m.start ≤ x.start then x else m) e)

/-- volume_system.rs:218-223 -/
def guessSize (size end_ : Nat) : List Nat → Nat → Nat
  | [], found => found
  | bps :: rest, found => if size / bps < end_ then found else guessSize size end_ rest bps

/-- volume_system.rs:206-227 -/
def guess (U : List Byte) (entries : List Entry) (bps : Nat) : Nat :=
  if bps = 0 then
    match lastEntry entries with
    | some e => guessSize U.length (e.start + e.sectors) [512, 1024, 2048, 4096] 0
    | none => 0
  else bps

/-- `MbrVolumeSystem`, volume_system.rs:27-42. -/
structure System where
  bps : Nat
  first : Nat
  identity : Nat
  entries : List Entry
deriving DecidableEq, Repr

/-- `read_boot_records`, volume_system.rs:133-231, on a new volume system with `set` bytes per sector. -/
def readBoot (U : List Byte) (set : Nat) : R System := do
  let record ← readRecord (← readExactAt U 0 512)
  let bps ← detect U record.2 set
  let m ← masterLoop bps record.2 0 0 []
  let entries ← readLogical U bps m.2 m.1
  return ⟨guess U entries bps, m.2, record.1, entries⟩

/-- volume_system.rs:84-86 -/
def place (first : Nat) (e : Entry) (offset : Nat) : R Nat := if 4 ≤ e.index then R.addU 64 offset first else .ok offset

/-- `get_partition_by_index`, volume_system.rs:62-113. -/
def getPartition (s : System) (i : Nat) : R Window.Win :=
  match s.entries[i]? with
  | some e => do
    R.require (s.bps ≠ 0)
    let offset ← R.mulU 64 e.start s.bps
    let size ← R.mulU 64 e.sectors s.bps
    let offset ← place s.first e offset
    return ⟨offset, size⟩
  | none => .err

end Keramics.Mbr

namespace Keramics.Apm

/-- `ApmPartitionMapEntry`, apm/partition_map_entry.rs:49-67. -/
structure Entry where
  number : Nat
  start : Nat
  sectors : Nat
  name : List Byte
  typeId : List Byte
  flags : Nat
deriving DecidableEq, Repr

/-- `ApmPartitionMapEntry::read_data`, partition_map_entry.rs:84-103. `ByteString::from` stops at the first 0. -/
def readEntry (data : List Byte) : R Entry := do
  R.require (data.length = 512)
  R.require ((← R.slice data 0 2) = [0x50#8, 0x4d#8])
  return ⟨← u32be data 4, ← u32be data 8, ← u32be data 12, (← R.slice data 16 48).takeWhile (· ≠ 0#8),
    (← R.slice data 48 80).takeWhile (· ≠ 0#8), ← u32be data 88⟩

/-- "Apple_partition_map", apm/constants.rs. -/
def mapType : List Byte := [0x41#8, 0x70#8, 0x70#8, 0x6c#8, 0x65#8, 0x5f#8, 0x70#8, 0x61#8, 0x72#8, 0x74#8, 0x69#8, 0x74#8, 0x69#8, 0x6f#8,
  0x6e#8, 0x5f#8, 0x6d#8, 0x61#8, 0x70#8]

/-- The iterations of apm/volume_system.rs:120-157 after the first, with the number left. -/
def mapLoop (U : List Byte) (number : Nat) : Nat → Nat → List Entry → R (List Entry)
  | 0, _, acc => .ok acc
  | n + 1, offset, acc => do
    let e ← readEntry (← readExactAt U offset 512)
    R.require (e.number = number)
    let offset ← R.addU 64 offset 512
    mapLoop U number n offset (acc ++ [e])

/-- `read_partition_map`, apm/volume_system.rs:113-159, on a new volume system. Returns the entries; the number of
bytes per sector is 512. -/
def readMap (U : List Byte) : R (List Entry) := do
  let e ← readEntry (← readExactAt U 512 512)
  R.require (e.typeId = mapType)
  mapLoop U e.number (e.number - 1) 1024 []

/-- `get_partition_by_index`, apm/volume_system.rs:50-93. -/
def getPartition (entries : List Entry) (i : Nat) : R Window.Win :=
  match entries[i]? with
  | some e => do
    let offset ← R.mulU 64 e.start 512
    let size ← R.mulU 64 e.sectors 512
    return ⟨offset, size⟩
  | none => .err

end Keramics.Apm
