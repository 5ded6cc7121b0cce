import Verif.Model.Ntfs
import Verif.Model.Types
import Verif.Model.DataStreams
import Verif.Model.Lznt1
import Verif.Model.LruCache

/-!
# Model: NTFS boot record, MFT entries, attributes, the master file table and the file system

Debug output through the mediator is left out. Positions are reached with one seek; a file system is read once, from a
volume that does not change.
-/

namespace Keramics.NtfsFs
open Keramics.Ntfs (DataRun Group Range)

/-! ## Boot record -/

/-- `NtfsBootRecord`, ntfs/boot_record.rs:57-78. -/
structure Boot where
  bytesPerSector : Nat
  clusterSize : Nat
  entrySize : Nat
  indexSize : Nat
  mftBlock : Nat
  mirrorBlock : Nat
  serial : Nat
deriving DecidableEq, Repr

/-- boot_record.rs:115-129: the sectors of a cluster block. -/
def sectorsOf (value : Nat) : R Nat :=
  if value ≤ 128 then .ok value
  else if 12 < 256 - value then .err
  else .ok (2 ^ (256 - value))

/-- boot_record.rs:138-158 and 171-191: the size of an MFT entry or of an index entry. A shift of a 32-bit value by
32 bits overflows. -/
def recordSize (clusterSize value : Nat) : R Nat :=
  if value = 0 ∨ 255 < value then .err
  else if value < 128 then R.mulU 32 value clusterSize
  else if 32 < 256 - value then .err
  else if 256 - value = 32 then .panic
  else .ok (2 ^ (256 - value))

/-- `NtfsBootRecord::read_data`, boot_record.rs:95-208. -/
def readBoot (data : List Byte) : R Boot := do
  R.require (512 ≤ data.length)
  let signature ← R.slice data 3 11
  R.require (signature = [0x4e#8, 0x54#8, 0x46#8, 0x53#8, 0x20#8, 0x20#8, 0x20#8, 0x20#8])
  let bytesPerSector ← u16le data 11
  R.require (bytesPerSector ∈ [256, 512, 1024, 2048, 4096])
  let sectors ← R.get data 13
  let factor ← sectorsOf sectors.toNat
  let clusterSize ← R.mulU 32 factor bytesPerSector
  R.require (clusterSize ∈ [256, 512, 1024, 2048, 4096, 8192, 16384, 32768, 65536, 131072, 262144, 524288, 1048576, 2097152])
  let value ← u32le data 64
  let entrySize ← recordSize clusterSize value
  R.require (42 ≤ entrySize ∧ entrySize ≤ 65535)
  let mftBlock ← u64le data 48
  let mirrorBlock ← u64le data 56
  let serial ← u64le data 72
  let value ← u32le data 68
  let indexSize ← recordSize clusterSize value
  R.require (32 ≤ indexSize ∧ indexSize ≤ 16777216)
  let sectors ← u64le data 40
  R.require (sectors ≤ (2 ^ 64 - 1) / bytesPerSector)
  return ⟨bytesPerSector, clusterSize, entrySize, indexSize, mftBlock, mirrorBlock, serial⟩

/-! ## MFT entries -/

/-- `NtfsMftEntry`, mft_entry.rs:28-55. -/
structure Entry where
  data : List Byte
  sequence : Nat
  base : Nat
  journal : Nat
  attributesOffset : Nat
  empty : Bool
  bad : Bool
  allocated : Bool
deriving DecidableEq, Repr

/-- mft_entry.rs:160-164: the size of the header. -/
def headerSize (fixupOffset : Nat) : Nat := if fixupOffset = 42 then 42 else 48

/-- mft_entry.rs:130-192 with `NtfsMftEntryHeader::read_data`, mft_entry_header.rs:80-100: an entry that is neither empty
nor marked as bad. -/
def readUsed (data : List Byte) : R Entry := do
  R.require (42 ≤ data.length)
  let signature ← R.slice data 0 4
  R.require (signature = [0x46#8, 0x49#8, 0x4c#8, 0x45#8])
  let fixupOffset ← u16le data 4
  let fixups ← u16le data 6
  let journal ← u64le data 8
  let sequence ← u16le data 16
  let attributesOffset ← u16le data 20
  let size ← u32le data 28
  let base ← u64le data 32
  R.require (size = data.length)
  R.require (42 ≤ fixupOffset ∧ fixupOffset ≤ data.length)
  R.require (headerSize fixupOffset ≤ attributesOffset ∧ attributesOffset ≤ data.length)
  R.require (fixupOffset < attributesOffset)
  let data ← Ntfs.applyFixups data fixupOffset fixups
  return ⟨data, sequence, base, journal, attributesOffset, false, false, true⟩

/-- `NtfsMftEntry::read_data`, mft_entry.rs:112-193, and the assignment of the data, line 232. -/
def readEntry (data : List Byte) : R Entry := do
  let signature ← R.slice data 0 4
  if signature = [0#8, 0#8, 0#8, 0#8] then return ⟨data, 0, 0, 0, 0, true, false, false⟩
  else if signature = [0x42#8, 0x41#8, 0x41#8, 0x44#8] then return ⟨data, 0, 0, 0, 0, false, true, false⟩
  else readUsed data

/-- `NtfsMftEntry::read_at_position`, mft_entry.rs:196-235. -/
def readEntryAt (U : List Byte) (size position : Nat) : R Entry := do
  R.require (42 ≤ size ∧ size ≤ 65535)
  let data ← readExactAt U position size
  readEntry data

/-! ## Attributes -/

/-- `NtfsMftAttribute`, mft_attribute.rs:25-64. -/
structure Attr where
  kind : Nat
  size : Nat
  name : Option (List Nat)
  allocated : Nat
  dataSize : Nat
  validSize : Nat
  unit : Nat
  compressedSize : Nat
  resident : List Byte
  groups : List (Nat × Nat × List DataRun)
  nonResident : Byte
  flags : Nat
deriving DecidableEq, Repr

/-- `is_resident`, mft_attribute.rs:113-115. -/
def Attr.isResident (a : Attr) : Bool := a.nonResident &&& 1#8 = 0#8

/-- `is_compressed`, mft_attribute.rs:108-110. -/
def Attr.isCompressed (a : Attr) : Bool := a.flags &&& 0xff ≠ 0

/-- What `NtfsBlockStream::open` uses of an attribute. -/
def Attr.opens (a : Attr) : Ntfs.Attribute :=
  ⟨a.isResident, a.isCompressed, a.allocated, a.dataSize, a.validSize, a.groups.map fun g => ⟨g.1, g.2.1, g.2.2⟩⟩

/-- `NtfsMftAttributeNonResident`, mft_attribute_non_resident.rs:38-60. -/
structure NonResident where
  first : Nat
  last : Nat
  runsOffset : Nat
  unit : Nat
  allocated : Nat
  dataSize : Nat
  validSize : Nat
  compressedSize : Nat

/-- mft_attribute_non_resident.rs:84-100 and 108-110: the size of the compression unit and the compressed data size. -/
def readUnit (data : List Byte) (value : Nat) : R (Nat × Nat) :=
  if 0 < value then do
    R.require (56 ≤ data.length)
    R.require (value ≤ 31)
    let compressed ← u64le data 48
    return (2 ^ value, compressed)
  else .ok (0, 0)

/-- `NtfsMftAttributeNonResident::read_data`, mft_attribute_non_resident.rs:77-112. -/
def readNonResident (data : List Byte) : R NonResident := do
  R.require (48 ≤ data.length)
  let value ← u16le data 18
  let (unit, compressed) ← readUnit data value
  let first ← u64le data 0
  let last ← u64le data 8
  let runs ← u16le data 16
  let allocated ← u64le data 24
  let dataSize ← u64le data 32
  let validSize ← u64le data 40
  return ⟨first, last, runs, unit, allocated, dataSize, validSize, compressed⟩

/-- `read_name`, mft_attribute.rs:330-357, with the checks of the caller, lines 218-241: the name and the offset behind
it. -/
def readName (data : List Byte) (offset nameSize nameOffset : Nat) : R (Option (List Nat) × Nat) :=
  if 0 < nameSize then do
    R.require (offset ≤ nameOffset ∧ nameOffset < data.length)
    R.require (nameOffset + nameSize * 2 ≤ data.length)
    let bytes ← R.slice data nameOffset (nameOffset + nameSize * 2)
    let name ← Ucs2.fromLeBytes bytes
    return (some name, nameOffset + nameSize * 2)
  else .ok (none, offset)

/-- mft_attribute.rs:243-281: the resident data. -/
def residentData (data : List Byte) (offset dataSize dataOffset : Nat) : R (List Byte) :=
  if 0 < dataSize then do
    R.require (offset ≤ dataOffset ∧ dataOffset < data.length)
    R.require (dataOffset + dataSize ≤ data.length)
    R.slice data dataOffset (dataOffset + dataSize)
  else .ok []

/-- mft_attribute.rs:173-188, 218-284 for a resident attribute; `NtfsMftAttributeResident::read_data`,
mft_attribute_resident.rs:48-58. -/
def readResidentAttr (data : List Byte) (kind size flags nameSize nameOffset : Nat) (nonResident : Byte) : R Attr := do
  let rest ← R.slice data 16 data.length
  R.require (8 ≤ rest.length)
  let dataSize ← u32le rest 0
  let dataOffset ← u16le rest 4
  let (name, offset) ← readName data 24 nameSize nameOffset
  let bytes ← residentData data offset dataSize dataOffset
  return ⟨kind, size, name, 0, dataSize, 0, 0, 0, bytes, [], nonResident, flags⟩

/-- mft_attribute.rs:189-241, 285-315 for a non-resident attribute. -/
def readNonResidentAttr (data : List Byte) (kind size flags nameSize nameOffset : Nat) (nonResident : Byte) : R Attr := do
  let rest ← R.slice data 16 data.length
  let nr ← readNonResident rest
  let (name, offset) ← readName data (if nr.unit = 0 then 64 else 72) nameSize nameOffset
  R.require (offset ≤ nr.runsOffset ∧ nr.runsOffset < data.length)
  let (_, runs) ← Ntfs.readRuns data nr.runsOffset
  return ⟨kind, size, name, nr.allocated, nr.dataSize, nr.validSize, nr.unit, nr.compressedSize, [], [(nr.first, nr.last, runs)], nonResident,
    flags⟩

/-- `NtfsMftAttribute::read_data`, mft_attribute.rs:154-327, with `NtfsMftAttributeHeader::read_data`,
mft_attribute_header.rs:67-81. -/
def readAttr (data : List Byte) : R Attr := do
  R.require (16 ≤ data.length)
  let kind ← u32le data 0
  let size ← u32le data 4
  let nonResident ← R.get data 8
  let nameSize ← R.get data 9
  let nameOffset ← u16le data 10
  let flags ← u16le data 12
  R.require (flags &&& 0xff ≤ 1)
  if nonResident &&& 1#8 = 0#8 then readResidentAttr data kind size flags nameSize.toNat nameOffset nonResident
  else readNonResidentAttr data kind size flags nameSize.toNat nameOffset nonResident

/-- A group is put behind the groups that do not begin after it: one step of a stable sort by first VCN. -/
def insertGroup (g : Nat × Nat × List DataRun) : List (Nat × Nat × List DataRun) → List (Nat × Nat × List DataRun)
  | [] => [g]
  | h :: rest => if g.1 < h.1 then g :: h :: rest else h :: insertGroup g rest

/-- `sort_by_key`, mft_attribute.rs:147-148: a stable sort by first VCN. -/
def sortGroups (groups : List (Nat × Nat × List DataRun)) : List (Nat × Nat × List DataRun) :=
  groups.foldl (fun sorted g => insertGroup g sorted) []

/-- mft_attribute.rs:131-137: the sizes are those of the part with the first cluster. -/
def takeSizes (self other : Attr) (first : Nat) : Attr :=
  if first = 0 then
    { self with
      allocated := other.allocated, dataSize := other.dataSize, validSize := other.validSize, unit := other.unit,
      compressedSize := other.compressedSize }
  else self

/-- `merge`, mft_attribute.rs:125-151. -/
def merge (self other : Attr) : R Attr := do
  R.require (other.isResident = false)
  let g ← R.get other.groups 0
  let self := takeSizes self other g.1
  return { self with groups := sortGroups (self.groups ++ other.groups) }

/-- A time, `NotSet` if 0: standard_information.rs:92-119, file_name.rs:104-131. -/
def readTime (data : List Byte) (offset : Nat) : R (Option Nat) := do
  let value ← u64le data offset
  return if value = 0 then none else some value

/-- `NtfsStandardInformation`, standard_information.rs:34-60. -/
structure Standard where
  creation : Option Nat
  modification : Option Nat
  change : Option Nat
  access : Option Nat
  fileFlags : Nat
  maxVersions : Nat
  version : Nat
  owner : Option Nat
deriving DecidableEq, Repr

/-- standard_information.rs:124-126 -/
def readOwner (data : List Byte) : R (Option Nat) :=
  if 52 ≤ data.length then do return some (← u32le data 48) else .ok none

/-- `NtfsStandardInformation::read_data` and `from_attribute`, standard_information.rs:84-153, for an attribute of its
type. -/
def readStandard (a : Attr) : R Standard := do
  R.require (a.isResident = true)
  let data := a.resident
  R.require (48 ≤ data.length)
  let creation ← readTime data 0
  let modification ← readTime data 8
  let change ← readTime data 16
  let access ← readTime data 24
  let fileFlags ← u32le data 32
  let maxVersions ← u32le data 36
  let version ← u32le data 40
  let owner ← readOwner data
  return ⟨creation, modification, change, access, fileFlags, maxVersions, version, owner⟩

/-- `NtfsReparsePoint`, reparse_point.rs:25-38. The data of a junction is never read, see `read_data`, lines 68-74. -/
inductive Reparse where
  | wof (method : Nat)
  | junction
  | link (substitute display : List Nat)
  | other (tag : Nat)
deriving DecidableEq, Repr

/-- symbolic_link_reparse_data.rs:57-75 and 77-95: a name of a symbolic link. -/
def linkName (data : List Byte) (at_ : Nat) : R (List Nat) := do
  let offset ← u16le data at_
  let size ← u16le data (at_ + 2)
  R.require (offset + 12 < data.length)
  R.require (offset + 12 + size ≤ data.length)
  let bytes ← R.slice data (offset + 12) (offset + 12 + size)
  Ucs2.readDataLe [] bytes

/-- `NtfsReparsePoint::new` and `read_data`, reparse_point.rs:42-74; wof_reparse_data.rs:44-54;
symbolic_link_reparse_data.rs:49-98. -/
def reparseData (tag : Nat) (data : List Byte) : R Reparse :=
  if tag = 0x80000017 then do
    R.require (data.length = 16)
    return .wof (← u32le data 12)
  else if tag = 0xa0000003 then .ok .junction
  else if tag = 0xa000000c then do
    R.require (12 ≤ data.length)
    let substitute ← linkName data 0
    let display ← linkName data 4
    return .link substitute display
  else .ok (.other tag)

/-- `NtfsReparsePoint::from_attribute`, reparse_point.rs:77-133, for an attribute of its type. -/
def readReparse (a : Attr) : R Reparse := do
  R.require (a.isResident = true)
  R.require (8 ≤ a.resident.length)
  let tag ← u32le a.resident 0
  let data ← R.slice a.resident 8 a.resident.length
  reparseData tag data

/-- `NtfsMftAttributes`, mft_attributes.rs:30-48. The maps from names to groups and from types to indexes are one list of
name, type and index; `names` are the keys of the first map. -/
structure Attrs where
  list : List Attr
  index : List (Option (List Nat) × Nat × Nat)
  names : List (Option (List Nat))
  attributeList : Option Nat
  dataAttributes : List Nat
  reparse : Option Reparse
  standard : Option Standard
deriving DecidableEq, Repr

/-- `NtfsMftAttributes::new`, mft_attributes.rs:52-61. -/
def Attrs.empty : Attrs := ⟨[], [], [], none, [], none, none⟩

/-- The index of an attribute: `get_attribute_group` and `get_attribute_index`, mft_attributes.rs:201-203,
mft_attribute_group.rs:36-38. -/
def Attrs.find (attrs : Attrs) (name : Option (List Nat)) (kind : Nat) : Option Nat :=
  (attrs.index.find? fun e => e.1 = name ∧ e.2.1 = kind).map (·.2.2)

/-- `get_attribute`, mft_attributes.rs:211-220. -/
def Attrs.get (attrs : Attrs) (name : Option (List Nat)) (kind : Nat) : Option Attr :=
  (attrs.find name kind).bind fun i => attrs.list[i]?

/-- `has_attribute_group`, mft_attributes.rs:206-208. -/
def Attrs.has (attrs : Attrs) (name : Option (List Nat)) : Bool := attrs.names.contains name

/-- mft_attributes.rs:65-74: the group of the name is there. -/
def Attrs.addName (attrs : Attrs) (name : Option (List Nat)) : Attrs :=
  if attrs.names.contains name then attrs else { attrs with names := attrs.names ++ [name] }

/-- mft_attributes.rs:107-157: what depends on the type. -/
def noteKind (attrs : Attrs) (a : Attr) : R Attrs :=
  if a.kind = 0x20 then do
    R.require (attrs.attributeList = none)
    return { attrs with attributeList := some attrs.list.length }
  else if a.kind = 0x80 then .ok { attrs with dataAttributes := attrs.dataAttributes ++ [attrs.list.length] }
  else if a.kind = 0xc0 then do
    R.require (attrs.reparse = none)
    let r ← readReparse a
    return { attrs with reparse := some r }
  else if a.kind = 0x10 then do
    R.require (attrs.standard = none)
    let s ← readStandard a
    return { attrs with standard := some s }
  else .ok attrs

/-- mft_attributes.rs:158-162 -/
def Attrs.push (attrs : Attrs) (a : Attr) : Attrs :=
  { attrs with
    index := if a.kind = 0x30 then attrs.index else attrs.index ++ [(a.name, a.kind, attrs.list.length)],
    list := attrs.list ++ [a] }

/-- `add_attribute`, mft_attributes.rs:64-166. -/
def Attrs.add (attrs : Attrs) (a : Attr) : R Attrs :=
  match attrs.find a.name a.kind with
  | some i => do
    let old ← Fat.orErr (attrs.list[i]?)
    let new ← merge old a
    return { attrs.addName a.name with list := attrs.list.set i new }
  | none => do
    let attrs ← noteKind (attrs.addName a.name) a
    return attrs.push a

/-- The loop of `read_attributes`, mft_entry.rs:82-107. `fuel` bounds the number of iterations. -/
def attrsLoop (data : List Byte) : Nat → Nat → Attrs → R Attrs
  | 0, _, _ => .panic
  | fuel + 1, offset, attrs => do
    let last ← R.subU data.length 4
    R.require (offset ≤ last)
    let marker ← R.slice data offset (offset + 4)
    if marker = [0xff#8, 0xff#8, 0xff#8, 0xff#8] then return attrs
    else do
      let rest ← R.slice data offset data.length
      let a ← readAttr rest
      let attrs ← attrs.add a
      attrsLoop data fuel (offset + a.size) attrs

/-- `NtfsMftEntry::read_attributes`, mft_entry.rs:74-109. Attributes that are not of size 0 lead to an end or an error after at
most as many iterations as there are bytes. An attribute of size 0 is read again: it is merged with itself (an error, or no
end) or, being a file name, added without an end. Not ending is reported as `panic`. -/
def readAttributes (e : Entry) (attrs : Attrs) : R Attrs := attrsLoop e.data (e.data.length + 3) e.attributesOffset attrs

/-! ## Attribute lists -/

/-- The loop of `NtfsAttributeList::read_data`, attribute_list.rs:36-66, with `NtfsAttributeListEntry::read_data`,
attribute_list_entry.rs:65-77: the file references. An entry of size 0 is read for ever; `fuel` bounds the iterations. -/
def listLoop (data : List Byte) : Nat → Nat → R (List Nat)
  | 0, _ => .panic
  | fuel + 1, offset =>
    if offset < data.length then do
      let rest ← R.slice data offset data.length
      R.require (26 ≤ rest.length)
      let size ← u16le rest 4
      let reference ← u64le rest 16
      let more ← listLoop data fuel (offset + size)
      return reference :: more
    else .ok []

/-- `NtfsAttributeList::read_data` -/
def listData (data : List Byte) : R (List Nat) := listLoop data (data.length + 1) 0

/-- The loop over the cluster blocks, attribute_list.rs:110-134: every block is parsed on its own. `fuel` bounds the
number of blocks. -/
def listBlocks (r : Reader Unit) (bs : Nat) : Nat → Stream Unit → R (List Nat)
  | 0, _ => .panic
  | fuel + 1, s => do
    let (block, s) ← s.read r bs
    if block.length = 0 then return []
    else do
      let entries ← listData block
      let more ← listBlocks r bs fuel s
      return entries ++ more

/-- `NtfsAttributeList::read_attribute`, attribute_list.rs:69-137, for an attribute of its type. -/
def readList (U : List Byte) (bs : Nat) (a : Attr) : R (List Nat) := do
  R.require (a.isCompressed = false)
  if a.isResident then listData a.resident
  else do
    let s ← Ntfs.openStream bs a.opens
    listBlocks (Ntfs.stream U bs s) bs (s.size + 1) ⟨(), 0⟩

/-- The sorted vector of a set of numbers, with one number more. -/
def insertNumber (n : Nat) : List Nat → List Nat
  | [] => [n]
  | m :: rest => if n < m then n :: m :: rest else if n = m then m :: rest else m :: insertNumber n rest

/-- master_file_table.rs:256-266, file_entry.rs:488-498: the MFT entry numbers other than `self`, sorted, without
duplicates. -/
def otherEntries (self : Nat) (references : List Nat) : List Nat :=
  references.foldl (fun numbers r => if r % 2 ^ 48 ≠ self then insertNumber (r % 2 ^ 48) numbers else numbers) []

/-! ## Master file table -/

/-- `NtfsMasterFileTable`, master_file_table.rs:31-43. -/
structure Mft where
  clusterSize : Nat
  entrySize : Nat
  count : Nat
  tree : BlockTree.Tree Range

/-- The loop of `add_cluster_group`, master_file_table.rs:62-98: the table, the virtual cluster number and the virtual
cluster offset. -/
def addRuns : List DataRun → Mft → Nat → Nat → R (Mft × Nat)
  | [], m, vcn, _ => .ok (m, vcn)
  | run :: runs, m, vcn, offset => do
    let size ← R.mulU 64 run.count m.clusterSize
    R.check (m.entrySize ≠ 0)
    R.require (size % m.entrySize = 0)
    let count ← R.addU 64 m.count (size / m.entrySize)
    R.require (run.kind = .inFile)
    let tree ← BlockTree.insert m.tree offset size ⟨offset, run.block, run.count, false⟩
    let vcn ← R.addU 64 vcn run.count
    let offset ← R.addU 64 offset size
    addRuns runs { m with count := count, tree := tree } vcn offset

/-- `add_cluster_group`, master_file_table.rs:57-109. -/
def addGroup (m : Mft) (g : Nat × Nat × List DataRun) : R Mft := do
  let offset ← R.mulU 64 g.1 m.clusterSize
  let (m, vcn) ← addRuns g.2.2 m g.1 offset
  Ntfs.lastOk g.2.1 vcn
  return m

/-- master_file_table.rs:117-134: the place of an entry on the volume. -/
def entryPlace (m : Mft) (number : Nat) : R Nat := do
  let offset ← R.mulU 64 number m.entrySize
  let range ← Fat.orErr (← BlockTree.get m.tree offset)
  let relative ← R.subU offset range.logical
  let start ← R.mulU 64 range.block m.clusterSize
  R.addU 64 start relative

/-- `get_entry`, master_file_table.rs:112-148. -/
def getEntry (U : List Byte) (m : Mft) (number : Nat) : R Entry := do
  let position ← entryPlace m number
  readEntryAt U m.entrySize position

/-- `attribute_list` of the attributes read, as an attribute: master_file_table.rs:232-246, file_entry.rs:459-487. -/
def listOf (U : List Byte) (bs : Nat) (attrs : Attrs) : R (List Nat) :=
  match attrs.attributeList with
  | some i => do
    let a ← Fat.orErr (attrs.list[i]?)
    readList U bs a
  | none => .ok []

/-- master_file_table.rs:286-303: the cluster groups of an extension entry. -/
def addData (m : Mft) (attrs : Attrs) : R Mft :=
  match attrs.get none 0x80 with
  | some a => do
    let g ← R.get a.groups 0
    addGroup m g
  | none => .ok m

/-- The loop over the extension entries, master_file_table.rs:268-304. -/
def addEntries (U : List Byte) : List Nat → Mft → R Mft
  | [], m => .ok m
  | n :: rest, m => do
    let e ← getEntry U m n
    let attrs ← readAttributes e .empty
    let m ← addData m attrs
    addEntries U rest m

/-- The size of the block tree, master_file_table.rs:200-211. -/
def treeSize (entrySize allocated : Nat) : R Nat := do
  R.check (entrySize ≠ 0)
  R.require (allocated / entrySize < 2 ^ 32 - 1)
  return allocated / entrySize * entrySize

/-- `NtfsMasterFileTable::initialize`, master_file_table.rs:151-307, with the check of the caller,
file_system.rs:374-379. -/
def readMft (U : List Byte) (b : Boot) : R Mft := do
  R.require (b.mftBlock ≤ (2 ^ 64 - 1) / b.clusterSize)
  let position ← R.mulU 64 b.mftBlock b.clusterSize
  let e ← readEntryAt U b.entrySize position
  R.require (e.bad = false)
  R.require (e.allocated = true)
  let attrs ← readAttributes e .empty
  let a ← Fat.orErr (attrs.get none 0x80)
  R.require (a.isResident = false)
  R.require (a.isCompressed = false)
  let size ← treeSize b.entrySize a.allocated
  let g ← R.get a.groups 0
  let m ← addGroup ⟨b.clusterSize, b.entrySize, 0, BlockTree.new size 0 b.entrySize⟩ g
  let references ← listOf U b.clusterSize attrs
  addEntries U (otherEntries 0 references) m

/-! ## File system -/

/-- `NtfsVolumeInformation`, volume_information.rs:33-43. -/
structure Information where
  major : Nat
  minor : Nat
  flags : Nat
deriving DecidableEq, Repr

/-- `NtfsVolumeInformation::from_attribute` and `read_data`, volume_information.rs:55-98, for an attribute of its type. -/
def readInformation (a : Attr) : R Information := do
  R.require (a.isCompressed = false)
  R.require (a.isResident = true)
  R.require (12 ≤ a.resident.length)
  let major ← R.get a.resident 8
  let minor ← R.get a.resident 9
  let flags ← u16le a.resident 10
  return ⟨major.toNat, minor.toNat, flags⟩

/-- `NtfsFileSystem`, file_system.rs:33-63. The map of case foldings is a partial function. -/
structure Volume where
  boot : Boot
  mft : Mft
  folds : Nat → Option Nat
  information : Option Information
  label : Option (List Nat)

/-- file_system.rs:269-308 and 410-449: the attributes of a metadata file. -/
def metaAttributes (U : List Byte) (m : Mft) (number : Nat) : R Attrs := do
  let e ← getEntry U m number
  R.require (e.bad = false)
  R.require (e.allocated = true)
  let attrs ← readAttributes e .empty
  R.require (attrs.attributeList = none)
  return attrs

/-- file_system.rs:450-468 -/
def readLabel (attrs : Attrs) : R (Option (List Nat)) :=
  match attrs.get none 0x60 with
  | some a => do
    R.require (a.isResident = true)
    R.require (a.isCompressed = false)
    let label ← Ucs2.fromLeBytes a.resident
    return some label
  | none => .ok none

/-- file_system.rs:469-485 -/
def volumeInformation (attrs : Attrs) : R (Option Information) :=
  match attrs.get none 0x70 with
  | some a => do
    let i ← readInformation a
    return some i
  | none => .ok none

/-- file_system.rs:347-358: the mapping of a character, if it differs. The characters are visited in turn by the code. -/
def foldOf (data : List Byte) (c : Nat) : Option Nat :=
  if c < 65536 then
    let v := leNat ((data.drop (2 * c)).take 2)
    if c ≠ v then some v else none
  else none

/-- `read_case_folding_mappings`, file_system.rs:265-366. -/
def readFolds (U : List Byte) (m : Mft) : R (Nat → Option Nat) := do
  let attrs ← metaAttributes U m 10
  let a ← Fat.orErr (attrs.get none 0x80)
  R.require (a.isResident = false)
  R.require (a.isCompressed = false)
  let s ← Ntfs.openStream m.clusterSize a.opens
  let (data, _) ← (Stream.mk () 0).read (Ntfs.stream U m.clusterSize s) 131072
  R.require (data.length = 131072)
  return foldOf data

/-- `read_data_stream`, file_system.rs:202-235. -/
def openVolume (U : List Byte) : R Volume := do
  let data ← readExactAt U 0 512
  let boot ← readBoot data
  let mft ← readMft U boot
  let attrs ← metaAttributes U mft 3
  let label ← readLabel attrs
  let information ← volumeInformation attrs
  let folds ← readFolds U mft
  return ⟨boot, mft, folds, information, label⟩

/-! ## Compressed streams -/

/-- `NtfsCompressionRange`, compression_range.rs:23-32. -/
structure UnitRange where
  offset : Nat
  size : Nat
  compressed : Bool
deriving DecidableEq, Repr

/-- The local variables of `open`: the range that is being put together, the type of the last data run and the tree. The
virtual cluster offset is the offset of the range. -/
structure Gathering where
  range : UnitRange
  last : Ntfs.RunType
  tree : BlockTree.Tree UnitRange

/-- compressed_stream.rs:136-144: how much of a range is inserted. -/
def flushSize (unit : Nat) (r : UnitRange) : Nat := if r.compressed then unit else r.size / unit * unit

/-- compressed_stream.rs:135-170: whole units are inserted, what is left begins a new range. -/
def flush (unit : Nat) (g : Gathering) : R Gathering := do
  let size := flushSize unit g.range
  let remaining ← R.subU g.range.size size
  let tree ← BlockTree.insert g.tree g.range.offset size { g.range with size := size }
  let offset ← R.addU 64 g.range.offset size
  return { g with range := ⟨offset, remaining, false⟩, tree := tree }

/-- compressed_stream.rs:135: only if there is a whole unit. -/
def flushOnce (unit : Nat) (g : Gathering) : R Gathering := if unit ≤ g.range.size then flush unit g else .ok g

/-- The rest of the loop after the data run was added, compressed_stream.rs:134-191. A compressed range gives one unit, and what is
left of it all whole units at once, so that three iterations are enough. -/
def flushLoop (unit : Nat) : Nat → Gathering → R Gathering
  | 0, _ => .panic
  | fuel + 1, g => if unit ≤ g.range.size then do
      let g ← flush unit g
      flushLoop unit fuel g
    else .ok g

/-- compressed_stream.rs:175-184: a sparse data run after a regular one marks a compressed range. -/
def marks (last kind : Ntfs.RunType) : Bool := kind ≠ last ∧ last = .inFile ∧ kind = .sparse

/-- The loop of a data run, compressed_stream.rs:132-191. -/
def gatherRun (bs unit : Nat) (g : Gathering) (run : DataRun) : R Gathering := do
  let g ← flushOnce unit g
  let size ← R.mulU 64 run.count bs
  let size ← R.addU 64 g.range.size size
  flushLoop unit 3 { g with range := ⟨g.range.offset, size, g.range.compressed || marks g.last run.kind⟩, last := run.kind }

/-- The loops over the data runs of the groups, compressed_stream.rs:130-193. -/
def gatherRuns (bs unit : Nat) : List DataRun → Gathering → R Gathering
  | [], g => .ok g
  | run :: runs, g => do
    let g ← gatherRun bs unit g run
    gatherRuns bs unit runs g

def gatherGroups (bs unit : Nat) : List (Nat × Nat × List DataRun) → Gathering → R Gathering
  | [], g => .ok g
  | group :: groups, g => do
    let g ← gatherRuns bs unit group.2.2 g
    gatherGroups bs unit groups g

/-- compressed_stream.rs:194-208: what is left at the end. -/
def gatherEnd (g : Gathering) : R (BlockTree.Tree UnitRange) :=
  if 0 < g.range.size then BlockTree.insert g.tree g.range.offset g.range.size g.range else .ok g.tree

/-- compressed_stream.rs:122-209 -/
def unitTree (bs unit : Nat) (a : Attr) (tree : BlockTree.Tree UnitRange) : R (BlockTree.Tree UnitRange) :=
  if 0 < a.allocated then do
    let g ← gatherGroups bs unit a.groups ⟨⟨0, 0, false⟩, .endOfList, tree⟩
    gatherEnd g
  else .ok tree

/-- `NtfsCompressedStream`, compressed_stream.rs:31-55, without the cache and the offset. -/
structure Compressed where
  blocks : Ntfs.Opened
  tree : BlockTree.Tree UnitRange
  unit : Nat
  size : Nat

/-- `NtfsCompressedStream::open`, compressed_stream.rs:73-213. -/
def openCompressed (bs : Nat) (a : Attr) : R Compressed := do
  R.require (a.isCompressed = true)
  R.require (a.isResident = false)
  R.require (a.unit ≠ 0)
  let blocks ← Ntfs.openStream bs a.opens
  let unit ← R.mulU 64 a.unit bs
  R.check (unit ≠ 0)
  R.require (a.allocated % unit = 0)
  let treeSize ← R.mulU 64 (BlockTree.divCeil a.allocated unit) unit
  let tree ← unitTree bs unit a (BlockTree.new treeSize 0 unit)
  return ⟨blocks, tree, unit, a.validSize⟩

/-- The cache of decompressed units, compressed_stream.rs:47-48, 67. -/
abbrev UnitCache := LruCache.Cache Nat (List Byte)

def newUnitCache : UnitCache := LruCache.new 8

/-- compressed_stream.rs:255-288: a unit is read, exactly, and decompressed. -/
def readUnitData (U : List Byte) (bs : Nat) (c : Compressed) (r : UnitRange) : R (List Byte) := do
  let (data, _) ← (Stream.mk () r.offset).read (Ntfs.stream U bs c.blocks) r.size
  R.require (data.length = r.size)
  let (out, _) ← Lznt1.decompress data (List.replicate c.unit 0#8)
  return out

/-- compressed_stream.rs:254-290: the cache with the unit. -/
def cachedUnit (U : List Byte) (bs : Nat) (c : Compressed) (cache : UnitCache) (r : UnitRange) : R UnitCache :=
  if cache.contains r.offset then .ok cache else do
    let data ← readUnitData U bs c r
    cache.insert r.offset data

/-- compressed_stream.rs:247-321: the bytes of a range. -/
def unitBytes (U : List Byte) (bs : Nat) (c : Compressed) (cache : UnitCache) (r : UnitRange) (current relative remainder want : Nat) :
    R (List Byte × UnitCache) :=
  if r.compressed then do
    let cache ← cachedUnit U bs c cache r
    let data ← Fat.orErr (cache.get r.offset)
    let out ← R.slice data relative (relative + min want c.unit)
    return (out, cache)
  else do
    let (out, _) ← (Stream.mk () current).read (Ntfs.stream U bs c.blocks) (min want remainder)
    return (out, cache)

/-- One iteration of `read_data_from_blocks`, compressed_stream.rs:221-327. -/
def unitPiece (U : List Byte) (bs : Nat) (c : Compressed) (cache : UnitCache) (current want : Nat) : R (List Byte × UnitCache) := do
  let range ← Fat.orErr (← BlockTree.get c.tree current)
  let relative ← R.subU current range.offset
  let last ← R.addU 64 range.offset range.size
  let inside ← R.subU (min last c.size) range.offset
  let remainder ← R.subU inside relative
  unitBytes U bs c cache range current relative remainder want

/-- `NtfsCompressedStream` after `open`. -/
def compressedStream (U : List Byte) (bs : Nat) (c : Compressed) : Reader UnitCache := Blocks.reader (unitPiece U bs c) c.size

/-! ## File entries -/

/-- The parts of `NtfsFileEntry` that come from the MFT, file_entry.rs:38-74. -/
structure File where
  number : Nat
  entry : Entry
  attrs : Attrs
  hasIndex : Bool

/-- The loop over the other entries of a file, file_entry.rs:500-522. -/
def readOthers (U : List Byte) (m : Mft) : List Nat → Attrs → R Attrs
  | [], attrs => .ok attrs
  | n :: rest, attrs => do
    let e ← getEntry U m n
    let attrs ← readAttributes e attrs
    readOthers U m rest attrs

/-- "$I30" -/
def i30 : Option (List Nat) := some [0x24, 0x49, 0x33, 0x30]

/-- `NtfsFileEntry::read_attributes`, file_entry.rs:451-531, after `get_entry`, file_system.rs:123-148,
file_entry.rs:421-446. -/
def readFile (U : List Byte) (v : Volume) (number : Nat) : R File := do
  let e ← getEntry U v.mft number
  let attrs ← readAttributes e .empty
  let references ← listOf U v.mft.clusterSize attrs
  let attrs ← readOthers U v.mft (otherEntries number references) attrs
  return ⟨number, e, attrs, attrs.has i30⟩

/-- `get_file_entry_by_identifier`, file_system.rs:107-150. -/
def fileByNumber (U : List Byte) (v : Volume) (number : Nat) : R File := do
  R.require (number < v.mft.count)
  readFile U v number

/-- `get_size`, file_entry.rs:178-186. -/
def File.size (f : File) : Nat := match f.attrs.get none 0x80 with
  | some a => a.dataSize
  | none => 0

/-- `get_file_reference`, file_entry.rs:144-149, for an entry found by its number. -/
def File.reference (f : File) : Nat := f.number ||| (f.entry.sequence <<< 48)

/-- What `get_data_stream_by_name` opens. -/
inductive Opened where
  | fake (data : List Byte) (size : Nat)
  | blocks (s : Ntfs.Opened)
  | compressed (c : Compressed)
  | wof (a : Attr) (size method : Nat)

/-- "WofCompressedData" -/
def wofName : Option (List Nat) :=
  some [0x57, 0x6f, 0x66, 0x43, 0x6f, 0x6d, 0x70, 0x72, 0x65, 0x73, 0x73, 0x65, 0x64, 0x44, 0x61, 0x74, 0x61]

/-- mft_attributes.rs:249-255: the method, if the unnamed stream is compressed by the Windows Overlay Filter. -/
def wofMethod (attrs : Attrs) (name : Option (List Nat)) : Option Nat :=
  match attrs.reparse with
  | some (.wof method) => if name = none then some method else none
  | _ => none

/-- mft_attributes.rs:256-292. For opening the stream see `Wof.openWof`. -/
def openWof (attrs : Attrs) (a : Attr) (method : Nat) : R (Option Opened) := do
  R.require (a.isResident = false)
  let w ← Fat.orErr (attrs.get wofName 0x80)
  return some (.wof w a.validSize method)

/-- mft_attributes.rs:293-318 -/
def openData (bs : Nat) (a : Attr) : R (Option Opened) :=
  if a.isResident then .ok (some (.fake a.resident a.dataSize))
  else if a.isCompressed then do
    let c ← openCompressed bs a
    return some (.compressed c)
  else do
    let s ← Ntfs.openStream bs a.opens
    return some (.blocks s)

/-- `get_data_stream_by_name`, mft_attributes.rs:237-319, file_entry.rs:200-218. -/
def openNamed (bs : Nat) (attrs : Attrs) (name : Option (List Nat)) : R (Option Opened) :=
  match attrs.get name 0x80 with
  | none => .ok none
  | some a => match wofMethod attrs name with
    | some method => openWof attrs a method
    | none => openData bs a

/-- The stream of an opened attribute that is not compressed; for those that are see `compressedStream`, for streams of the Windows Overlay Filter
see `Wof.stream`. -/
def Opened.reader (U : List Byte) (bs : Nat) : Opened → Option (Reader Unit)
  | .fake data size => some (FakeDataStream.reader data size)
  | .blocks s => some (Ntfs.stream U bs s)
  | .compressed _ => none
  | .wof _ _ _ => none

/-- `get_number_of_data_forks`, file_entry.rs:221-223, mft_attributes.rs:223-225. -/
def File.forkCount (f : File) : Nat := f.attrs.dataAttributes.length

/-- `get_data_fork_by_index`, file_entry.rs:226-245, with `get_data_attribute_by_index`, mft_attributes.rs:228-233, and
`get_name`, data_fork.rs:74-76: the name of the data fork. -/
def File.forkName (f : File) (i : Nat) : R (Option (List Nat)) := do
  let k ← Fat.orErr (f.attrs.dataAttributes[i]?)
  let a ← Fat.orErr (f.attrs.list[k]?)
  return a.name

/-- `get_data_stream_by_name`, file_entry.rs:209-218; without a name it is `get_data_stream`, lines 200-206. -/
def File.stream (v : Volume) (f : File) (name : Option (List Nat)) : R (Option Opened) := openNamed v.mft.clusterSize f.attrs name

/-- `get_data_stream` of a data fork, data_fork.rs:51-71. -/
def File.forkStream (v : Volume) (f : File) (i : Nat) : R Opened := do
  let name ← f.forkName i
  let r ← f.stream v name
  Fat.orErr r

/-- `get_number_of_attributes`, file_entry.rs:248-250, mft_attributes.rs:169-171. -/
def File.attributeCount (f : File) : Nat := f.attrs.list.length

/-- `get_creation_time`, file_entry.rs:128-133. A time that is not set is `some none`. -/
def File.creation (f : File) : Option (Option Nat) := f.attrs.standard.map (·.creation)

/-- `get_modification_time`, file_entry.rs:157-162. -/
def File.modification (f : File) : Option (Option Nat) := f.attrs.standard.map (·.modification)

/-- `get_change_time`, file_entry.rs:120-125. -/
def File.change (f : File) : Option (Option Nat) := f.attrs.standard.map (·.change)

/-- `get_access_time`, file_entry.rs:107-112. -/
def File.access (f : File) : Option (Option Nat) := f.attrs.standard.map (·.access)

/-- `get_file_attribute_flags`, file_entry.rs:136-141. -/
def File.flags (f : File) : Nat := match f.attrs.standard with
  | some s => s.fileFlags
  | none => 0

/-- `get_base_record_file_reference`, file_entry.rs:115-117. -/
def File.base (f : File) : Nat := f.entry.base

/-- `get_journal_sequence_number`, file_entry.rs:152-154. -/
def File.journal (f : File) : Nat := f.entry.journal

/-- `is_allocated`, file_entry.rs:608-610. -/
def File.isAllocated (f : File) : Bool := f.entry.allocated

/-- `is_bad`, file_entry.rs:613-615. -/
def File.isBad (f : File) : Bool := f.entry.bad

/-- `is_directory`, file_entry.rs:618-620. -/
def File.isDirectory (f : File) : Bool := f.hasIndex

/-- `is_empty`, file_entry.rs:623-625. -/
def File.isEmpty (f : File) : Bool := f.entry.empty

/-- `is_junction`, file_entry.rs:628-633. -/
def File.isJunction (f : File) : Bool := match f.attrs.reparse with
  | some .junction => true
  | _ => false

/-- `is_root_directory`, file_entry.rs:636-638. -/
def File.isRoot (f : File) : Bool := f.number = 5

/-- `is_symbolic_link`, file_entry.rs:641-646. -/
def File.isLink (f : File) : Bool := match f.attrs.reparse with
  | some (.link _ _) => true
  | _ => false

/-- `get_symbolic_link_target`, file_entry.rs:189-197. -/
def File.target (f : File) : Option (List Nat) := match f.attrs.reparse with
  | some (.link substitute _) => some substitute
  | _ => none

end Keramics.NtfsFs
