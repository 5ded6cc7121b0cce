import Verif.Model.NtfsVolume

/-!
# Model: NTFS directory indexes, sub file entries and paths

Debug output through the mediator is left out.
-/

namespace Keramics.NtfsFs
open Keramics.Ntfs (DataRun Group Range)

/-! ## File names -/

/-- `NtfsFileName`, file_name.rs:37-75. -/
structure FileName where
  parent : Nat
  creation : Option Nat
  modification : Option Nat
  change : Option Nat
  access : Option Nat
  dataSize : Nat
  fileFlags : Nat
  nameSize : Nat
  space : Nat
  name : List Nat
  tag : Option Nat
deriving DecidableEq, Repr

/-- file_name.rs:135-137 -/
def readTag (data : List Byte) (flags : Nat) : R (Option Nat) :=
  if flags &&& 0x400 ≠ 0 then do return some (← u32le data 60) else .ok none

/-- file_name.rs:141-151 -/
def readFileNameName (data : List Byte) (nameSize : Nat) : R (List Nat) :=
  if 66 < data.length then do
    R.require (66 + nameSize * 2 ≤ data.length)
    let bytes ← R.slice data 66 (66 + nameSize * 2)
    Ucs2.readDataLe [] bytes
  else .ok []

/-- `NtfsFileName::read_data`, file_name.rs:95-153. -/
def readFileName (data : List Byte) : R FileName := do
  R.require (66 ≤ data.length)
  let parent ← u64le data 0
  let creation ← readTime data 8
  let modification ← readTime data 16
  let change ← readTime data 24
  let access ← readTime data 32
  let dataSize ← u64le data 48
  let flags ← u32le data 56
  let tag ← readTag data flags
  let nameSize ← R.get data 64
  let space ← R.get data 65
  let name ← readFileNameName data nameSize.toNat
  return ⟨parent, creation, modification, change, access, dataSize, flags, nameSize.toNat, space.toNat, name, tag⟩

/-- `NtfsDirectoryEntry`, directory_entry.rs:20-30. The short file name is never set, see `getByIndex`. -/
structure DirEntry where
  reference : Nat
  name : FileName
  short : Option FileName
deriving DecidableEq, Repr

/-- `NtfsDirectoryEntries`, directory_entries.rs:23-31. -/
structure DirEntries where
  entries : List DirEntry
  shorts : List (Nat × FileName)
deriving DecidableEq, Repr

/-- `add`, directory_entries.rs:43-62. -/
def DirEntries.add (d : DirEntries) (reference : Nat) (n : FileName) : R DirEntries := do
  let first ← (if n.nameSize = 1 then R.get n.name 0 else .ok 0 : R Nat)
  if first = 0x2e then return d
  else if n.space = 2 then do
    R.require (d.shorts.any (·.1 = reference) = false)
    return { d with shorts := d.shorts ++ [(reference, n)] }
  else return { d with entries := d.entries ++ [⟨reference, n, none⟩] }

/-- `get_entry_by_index`, directory_entries.rs:70-91. The short name is looked up only if there already is one. -/
def DirEntries.getByIndex (d : DirEntries) (i : Nat) : R DirEntry := do
  let e ← Fat.orErr (d.entries[i]?)
  return if e.name.space = 1 ∧ e.short.isSome then
    { e with short := match d.shorts.find? (·.1 = e.reference) with
        | some s => some s.2
        | none => e.short }
  else e

/-! ## Index entries -/

/-- `NtfsIndex`, index.rs:26-35. -/
structure Index where
  clusterSize : Nat
  entrySize : Nat
  tree : BlockTree.Tree Range

/-- The loop over the data runs of a group, index.rs:132-163. -/
def indexRuns (bs : Nat) : List DataRun → Nat → Nat → BlockTree.Tree Range → R (Nat × Nat × BlockTree.Tree Range)
  | [], vcn, offset, tree => .ok (vcn, offset, tree)
  | run :: runs, vcn, offset, tree => do
    let size ← R.mulU 64 run.count bs
    R.require (run.kind = .inFile)
    let tree ← BlockTree.insert tree offset size ⟨offset, run.block, run.count, false⟩
    let vcn ← R.addU 64 vcn run.count
    let offset ← R.addU 64 offset size
    indexRuns bs runs vcn offset tree

/-- The loop over the groups, index.rs:125-172. -/
def indexGroups (bs : Nat) : List (Nat × Nat × List DataRun) → Nat → Nat → BlockTree.Tree Range → R (BlockTree.Tree Range)
  | [], _, _, tree => .ok tree
  | group :: groups, vcn, offset, tree => do
    R.require (group.1 = vcn)
    let (vcn, offset, tree) ← indexRuns bs group.2.2 vcn offset tree
    Ntfs.lastOk group.2.1 vcn
    indexGroups bs groups vcn offset tree

/-- `NtfsIndex::initialize`, index.rs:102-176. -/
def openIndex (bs entrySize : Nat) (a : Attr) : R Index := do
  R.require (a.isResident = false)
  R.require (a.isCompressed = false)
  R.check (bs ≠ 0)
  let tree ← indexGroups bs a.groups 0 0 (BlockTree.new (a.allocated / bs * bs) 0 bs)
  return ⟨bs, entrySize, tree⟩

/-- `NtfsIndexEntry::read_data`, index_entry.rs:42-80, with `NtfsIndexEntryHeader::read_data`,
index_entry_header.rs:51-66. -/
def readIndexEntry (data : List Byte) : R (List Byte) := do
  R.require (24 ≤ data.length)
  let signature ← R.slice data 0 4
  R.require (signature = [0x49#8, 0x4e#8, 0x44#8, 0x58#8])
  let offset ← u16le data 4
  let number ← u16le data 6
  R.require (32 ≤ offset ∧ offset ≤ data.length)
  Ntfs.applyFixups data offset number

/-- `get_entry_at_cluster_block`, index.rs:48-99, with `NtfsIndexEntry::read_at_position`, index_entry.rs:83-117: the data
of the index entry. -/
def indexEntryAt (U : List Byte) (x : Index) (vcn : Nat) : R (List Byte) := do
  let offset ← R.mulU 64 vcn x.clusterSize
  let range ← Fat.orErr (← BlockTree.get x.tree offset)
  let relative ← R.subU offset range.logical
  let start ← R.mulU 64 range.block x.clusterSize
  let position ← R.addU 64 start relative
  let size ← R.mulU 64 range.count x.clusterSize
  let remaining ← R.subU size relative
  R.require (x.entrySize ≤ remaining)
  R.require (42 ≤ x.entrySize ∧ x.entrySize ≤ 65535)
  let data ← readExactAt U position x.entrySize
  readIndexEntry data

/-! ## Index nodes -/

/-- `read_index_node_header`, directory_index.rs:554-592, with `NtfsIndexNodeHeader::read_data`,
index_node_header.rs:52-63: the size and the offset of the values. -/
def readNodeHeader (data : List Byte) (node : Nat) : R (Nat × Nat) := do
  let rest ← R.slice data node data.length
  R.require (16 ≤ rest.length)
  let offset ← u32le rest 0
  let size ← u32le rest 4
  R.require (size ≤ data.length)
  R.require (16 ≤ offset ∧ offset < size)
  return (size, offset)

/-- `NtfsIndexValue`, index_value.rs:25-37. -/
structure IndexValue where
  reference : Nat
  size : Nat
  keySize : Nat
  flags : Nat

/-- `read_index_value`, directory_index.rs:595-638, with `NtfsIndexValue::read_data`, index_value.rs:56-68. -/
def readIndexValue (data : List Byte) (offset last : Nat) : R IndexValue := do
  R.require (offset + 16 ≤ last)
  let rest ← R.slice data offset data.length
  R.require (16 ≤ rest.length)
  let reference ← u64le rest 0
  let size ← u16le rest 8
  let keySize ← u16le rest 10
  let flags ← u32le rest 12
  R.require (size ≤ rest.length)
  return ⟨reference, size, keySize, flags⟩

/-- directory_index.rs:220-240, 380-404: the value at `offset` with the offset behind its key, and the size of what
follows. -/
def valueAt (data : List Byte) (offset last : Nat) : R (IndexValue × Nat × Nat) := do
  let v ← readIndexValue data offset last
  R.require (v.keySize = 0 ∨ offset + 16 + v.keySize ≤ last)
  let rest ← R.subU v.size 16
  let rest ← R.subU rest v.keySize
  return (v, offset + 16 + v.keySize, rest)

/-- Where the next value starts, directory_index.rs:289-297, 478-486. -/
def nextValue (offset size : Nat) : Nat :=
  if (offset + size) % 8 > 0 then offset + size + (8 - (offset + size) % 8) else offset + size

/-- `read_index_branch_value`, directory_index.rs:492-517. -/
def branchValue (data : List Byte) (offset size : Nat) : R Nat := do
  R.require (8 ≤ size)
  u64le data (offset + size - 8)

/-- `read_index_key`, directory_index.rs:520-551. -/
def readKey (data : List Byte) (offset size : Nat) : R FileName := do
  let bytes ← R.slice data offset (offset + size)
  readFileName bytes

/-- How the search of the values of a node ends: at an entry, at a value whose child is to be searched, or without. -/
inductive Search where
  | found (e : DirEntry)
  | child (offset size : Nat)
  | none

/-- directory_index.rs:299: after the loop. -/
def afterLoop (branch : Bool) (offset size : Nat) : Search := if branch then .child offset size else .none

/-- A step of the search: the result, or where to go on and what `is_branch` and `value_data_size` are. -/
def searchValue (data : List Byte) (last : Nat) (folded : List Nat → List Nat) (name : List Nat) (offset : Nat) :
    R (Search ⊕ (Nat × Bool × Nat)) := do
  let (v, at_, size) ← valueAt data offset last
  if v.flags &&& 2 ≠ 0 then return .inl (afterLoop (v.flags &&& 1 ≠ 0) at_ size)
  else do
    R.require (v.keySize ≠ 0)
    let key ← readKey data (offset + 16) v.keySize
    match Ucs2.compare (folded key.name) name with
    | .eq => return .inl (.found ⟨v.reference, key, none⟩)
    | .gt =>
      return if v.flags &&& 1 ≠ 0 then .inl (.child at_ size) else .inr (nextValue at_ size, v.flags &&& 1 ≠ 0, size)
    | .lt => return .inr (nextValue at_ size, v.flags &&& 1 ≠ 0, size)

/-- The loop over the values, directory_index.rs:217-298. Every value has at least 16 bytes: `fuel`, the number of bytes,
bounds the number of iterations. -/
def searchValues (data : List Byte) (last : Nat) (folded : List Nat → List Nat) (name : List Nat) :
    Nat → Nat → Bool → Nat → R Search
  | 0, _, _, _ => .panic
  | fuel + 1, offset, branch, size =>
    if offset < last then do
      match ← searchValue data last folded name offset with
      | .inl r => return r
      | .inr (offset, branch, size) => searchValues data last folded name fuel offset branch size
    else .ok (afterLoop branch offset size)

/-- directory_index.rs:185-298: the search of one node. -/
def searchNode (data : List Byte) (node : Nat) (folded : List Nat → List Nat) (name : List Nat) : R Search := do
  let (size, offset) ← readNodeHeader data node
  if size = 0 then return .none
  else searchValues data (node + size) folded name (size + 1) (node + offset) false 0

/-- `get_directory_entry_by_name_from_node`, directory_index.rs:206-341. `fuel` is one more than the number of levels below;
going deeper than there are clusters means that a node is its own descendant, which is never left: `panic`. -/
def lookupNode (U : List Byte) (x : Index) (folded : List Nat → List Nat) (name : List Nat) : Nat → List Byte → Nat → R (Option DirEntry)
  | 0, _, _ => .panic
  | fuel + 1, data, node => do
    match ← searchNode data node folded name with
    | .found e => return some e
    | .none => return none
    | .child offset size => do
      let vcn ← branchValue data offset size
      let child ← indexEntryAt U x vcn
      lookupNode U x folded name fuel child 24

/-- The sub node of a value and its entries, directory_index.rs:406-443. -/
def listChild (list : List Byte → Nat → DirEntries → R DirEntries) (U : List Byte) (x : Index) (data : List Byte) (v : IndexValue)
    (offset size : Nat) (d : DirEntries) : R DirEntries :=
  if v.flags &&& 1 ≠ 0 then do
    let vcn ← branchValue data offset size
    let child ← indexEntryAt U x vcn
    list child 24 d
  else .ok d

/-- The loop over the values, directory_index.rs:379-487. -/
def listValues (list : List Byte → Nat → DirEntries → R DirEntries) (U : List Byte) (x : Index) (data : List Byte) (last : Nat) :
    Nat → Nat → DirEntries → R DirEntries
  | 0, _, _ => .panic
  | fuel + 1, offset, d =>
    if offset < last then do
      let (v, at_, size) ← valueAt data offset last
      let d ← listChild list U x data v at_ size d
      if v.flags &&& 2 ≠ 0 then return d
      else do
        let key ← readKey data (offset + 16) v.keySize
        let d ← d.add v.reference key
        listValues list U x data last fuel (nextValue at_ size) d
    else .ok d

/-- `get_directory_entries_from_node`, directory_index.rs:358-489. For `fuel` see `lookupNode`: a cycle can be left with
an error when a short name appears again, in its second round. -/
def listNode (U : List Byte) (x : Index) : Nat → List Byte → Nat → DirEntries → R DirEntries
  | 0, _, _, _ => .panic
  | fuel + 1, data, node, d => do
    let (size, offset) ← readNodeHeader data node
    if size = 0 then return d
    else listValues (listNode U x fuel) U x data (node + size) (size + 1) (node + offset) d

/-! ## Directories -/

/-- `NtfsDirectoryIndex` after `initialize`, directory_index.rs:37-55. -/
structure Directory where
  root : List Byte
  index : Index
  folding : Bool

/-- directory_index.rs:130-150: file names are compared with case folding. -/
def usesFolding (attrs : Attrs) : R Bool :=
  match attrs.get none 0x10 with
  | some a => do
    let s ← readStandard a
    return !(s.maxVersions = 0 ∧ s.version = 1)
  | none => .ok true

/-- directory_index.rs:151-165: the index allocation is optional. -/
def allocationOf (bs entrySize : Nat) (attrs : Attrs) : R Index :=
  match attrs.get i30 0xa0 with
  | some a => openIndex bs entrySize a
  | none => .ok ⟨bs, 0, BlockTree.new 0 0 0⟩

/-- `initialize`, directory_index.rs:71-175, with `NtfsIndexRootHeader::read_data`, index_root_header.rs:52-63. -/
def openDirectory (bs : Nat) (attrs : Attrs) : R Directory := do
  R.require (attrs.has i30 = true)
  let a ← Fat.orErr (attrs.get i30 0x90)
  R.require (a.isResident = true)
  R.require (16 ≤ a.resident.length)
  let kind ← u32le a.resident 0
  let collation ← u32le a.resident 4
  let entrySize ← u32le a.resident 8
  R.require (kind = 0x30)
  R.require (collation = 1)
  R.require (20 ≤ entrySize ∧ entrySize ≤ 2097152)
  let folding ← usesFolding attrs
  let index ← allocationOf bs entrySize attrs
  return ⟨a.resident, index, folding⟩

/-- The number of clusters of an index: see `lookupNode`. -/
def Index.clusters (x : Index) : Nat := x.tree.dataSize / x.clusterSize

/-- How names are compared. -/
def Directory.folded (d : Directory) (folds : Nat → Option Nat) (name : List Nat) : List Nat :=
  if d.folding then Ucs2.caseFold folds name else name

/-- `get_directory_entry_by_name`, directory_index.rs:178-203. -/
def Directory.lookup (U : List Byte) (folds : Nat → Option Nat) (d : Directory) (name : List Nat) : R (Option DirEntry) :=
  lookupNode U d.index (d.folded folds) (d.folded folds name) (d.index.clusters + 2) d.root 16

/-- `get_directory_entries`, directory_index.rs:344-355, for new directory entries. -/
def Directory.list (U : List Byte) (d : Directory) : R DirEntries :=
  listNode U d.index (2 * d.index.clusters + 3) d.root 16 ⟨[], []⟩

/-! ## Sub file entries and paths -/

/-- A file entry with what it was found by, file_entry.rs:38-74. -/
structure FileEntry where
  file : File
  directory : Option DirEntry

/-- `get_sub_file_entry_by_name`, file_entry.rs:534-599. -/
def subByName (U : List Byte) (v : Volume) (f : File) (name : List Nat) : R (Option FileEntry) :=
  if f.hasIndex = false then .ok none
  else do
    let d ← openDirectory v.mft.clusterSize f.attrs
    match ← d.lookup U v.folds name with
    | some e => do
      let file ← readFile U v (e.reference % 2 ^ 48)
      return some ⟨file, some e⟩
    | none => return none

/-- `read_sub_directory_entries`, file_entry.rs:649-683. -/
def subEntries (U : List Byte) (v : Volume) (f : File) : R DirEntries := do
  R.require (f.hasIndex = true)
  let d ← openDirectory v.mft.clusterSize f.attrs
  d.list U

/-- `get_number_of_sub_file_entries`, file_entry.rs:368-390. -/
def subCount (U : List Byte) (v : Volume) (f : File) : R Nat :=
  if f.hasIndex = false then .ok 0
  else do
    let d ← subEntries U v f
    return d.entries.length

/-- `get_sub_file_entry_by_index`, file_entry.rs:393-448. -/
def subByIndex (U : List Byte) (v : Volume) (f : File) (i : Nat) : R FileEntry := do
  let d ← subEntries U v f
  let e ← d.getByIndex i
  let file ← readFile U v (e.reference % 2 ^ 48)
  return ⟨file, some e⟩

/-- The loop of `get_file_entry_by_path`, file_system.rs:168-184. -/
def walk (U : List Byte) (v : Volume) : List (List Nat) → FileEntry → R (Option FileEntry)
  | [], f => .ok (some f)
  | name :: names, f => do
    match ← subByName U v f.file name with
    | some f => walk U v names f
    | none => return none

/-- `get_file_entry_by_path`, file_system.rs:153-186, for the components of a path. -/
def fileByPath (U : List Byte) (v : Volume) (path : List (List Nat)) : R (Option FileEntry) :=
  match path with
  | [] => .ok none
  | first :: rest =>
    if first.length ≠ 0 then .ok none
    else do
      let root ← fileByNumber U v 5
      walk U v rest ⟨root, none⟩

/-- `get_file_reference`, file_entry.rs:144-149. -/
def FileEntry.reference (f : FileEntry) : Nat := match f.directory with
  | some d => d.reference
  | none => f.file.reference

/-- `get_name`, file_entry.rs:165-167. -/
def FileEntry.name (f : FileEntry) : Option (List Nat) := f.directory.map (·.name.name)

/-- `get_parent_file_reference`, file_entry.rs:170-175. -/
def FileEntry.parent (f : FileEntry) : Option Nat := f.directory.map (·.name.parent)

end Keramics.NtfsFs
