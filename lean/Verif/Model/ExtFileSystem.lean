import Verif.Model.Ext
import Verif.Model.Crc32
import Verif.Model.DataStreams
import Verif.Model.Types

/-!
# Model: ext file systems

Superblock, block groups, inode table, inodes, directories, paths and file entries. Debug output through the
mediator is left out. Names and paths have the character encoding of the file system, which is UTF-8 if it has
not been set, so that they are compared as bytes. Memory that cannot be allocated is not modelled.
-/

namespace Keramics.ExtFs
open Keramics.Ext (Range)

/-- `ReversedCrc32Context::new(0x82f63b78, seed)`, an `update` with every piece, `finalize`. -/
def crc (seed : BitVec 32) (pieces : List (List Byte)) : R (BitVec 32) := do
  let c ← pieces.foldlM Crc32.Ctx.revUpdate (Crc32.Ctx.new 0x82f63b78#32 seed)
  return c.finalize.1

/-- `0xffffffff - checksum` -/
def complement (c : BitVec 32) : Nat := 0xffffffff - c.toNat

/-! ## Superblock -/

/-- `ExtSuperblock`, superblock.rs:128-194; what the file system uses of it. -/
structure Super where
  inodes : Nat
  blocks : Nat
  blockSize : Nat
  blocksPerGroup : Nat
  inodesPerGroup : Nat
  mountTime : Int
  writtenTime : Int
  inodeSize : Nat
  compatible : Nat
  incompatible : Nat
  readOnly : Nat
  firstMeta : Nat
  uuid : List Byte
  label : List Byte
  mountPath : List Byte
deriving DecidableEq, Repr

/-- superblock.rs:251-254 -/
def blockCount (data : List Byte) (incompatible : Nat) : R Nat := do
  let lower ← u32le data 4
  if incompatible &&& 0x80 ≠ 0 then
    let upper ← u32le data 336
    return lower ||| (upper <<< 32)
  else return lower

/-- superblock.rs:315-341 -/
def checkSuper (data : List Byte) (readOnly : Nat) : R Unit :=
  if readOnly &&& 0x400 ≠ 0 then do
    let type ← R.get data 373
    R.require (type = 1#8)
    let stored ← u32le data 1020
    let sum ← crc 0#32 [← R.slice data 0 1020]
    R.require (stored = 0 ∨ stored = complement sum)
  else .ok ()

/-- `ExtSuperblock::read_data`, superblock.rs:225-343. The result of `1024 << 22` in 32 bits is 0. -/
def readSuper (data : List Byte) : R Super := do
  R.require (data.length = 1024)
  R.require ((← R.slice data 56 58) = [0x53#8, 0xef#8])
  let revision ← u32le data 76
  R.require (revision ≤ 1)
  let compatible ← u32le data 92
  let incompatible ← u32le data 96
  let readOnly ← u32le data 100
  let inodes ← u32le data 0
  let blocks ← blockCount data incompatible
  R.require (blocks ≠ 0)
  let exponent ← u32le data 24
  R.require (exponent ≤ 22)
  let blocksPerGroup ← u32le data 32
  R.require (blocksPerGroup ≠ 0)
  let inodesPerGroup ← u32le data 40
  R.require (incompatible &&& 0x8 ≠ 0 ∨ inodesPerGroup ≠ 0)
  let mountTime ← i32le data 44
  let writtenTime ← i32le data 48
  let inodeSize ← u16le data 88
  let firstMeta ← u32le data 260
  let uuid ← R.slice data 104 120
  let label ← R.slice data 120 136
  let mountPath ← R.slice data 136 200
  let flex ← R.get data 372
  R.require (flex.toNat < 16)
  checkSuper data readOnly
  return ⟨inodes, blocks, (1024 <<< exponent) % 2 ^ 32, blocksPerGroup, inodesPerGroup, mountTime, writtenTime, inodeSize,
    compatible, incompatible, readOnly, firstMeta, uuid, ByteString.elements label, ByteString.elements mountPath⟩

/-! ## Features -/

/-- `get_format_version`, features.rs:64-77. -/
def version (s : Super) : Nat :=
  if s.compatible &&& 0x200 ≠ 0 ∨ s.incompatible &&& 0x1f7c0 ≠ 0 ∨ s.readOnly &&& 0x378 ≠ 0 then 4
  else if s.compatible &&& 0x4 ≠ 0 ∨ s.incompatible &&& 0xc ≠ 0 then 3
  else 2

/-- `get_group_descriptor_size`, features.rs:80-86. -/
def descriptorSize (s : Super) : Nat := if s.incompatible &&& 0x80 ≠ 0 then 64 else 32

/-- The seed, features.rs:51-60. The one of the superblock, superblock.rs:307-314 and file_system.rs:351-359, is not
used. -/
def seedOf (s : Super) : R (Option (BitVec 32)) :=
  if s.readOnly &&& 0x400 ≠ 0 then do return some (← crc 0#32 [s.uuid]) else .ok none

/-- `has_meta_block_groups`, features.rs:94-96. -/
def hasMeta (s : Super) : Bool := s.incompatible &&& 0x10 ≠ 0

/-- `is_unsupported`, features.rs:111-125. -/
def unsupported (s : Super) : Bool := s.incompatible &&& (0xffffffff - 0x3a6ce) ≠ 0

/-- `get_number_of_block_groups`, superblock.rs:351-354. -/
def groupCount (s : Super) : Nat := BlockTree.divCeil s.blocks s.blocksPerGroup

/-! ## Group descriptors -/

/-- The upper part of the block number of the inode table, group_descriptor_ext4.rs:86-89. -/
def upperTable (version : Nat) (data : List Byte) (lower : Nat) : R Nat :=
  if version = 4 ∧ 44 ≤ data.length then do
    let upper ← u32le data 40
    return lower ||| (upper <<< 32)
  else .ok lower

/-- group_descriptor_ext2.rs:44-48, group_descriptor_ext4.rs:78-83. -/
def sizeSupported (version size : Nat) : Prop := size = 32 ∨ (version = 4 ∧ size = 64)

instance (version size : Nat) : Decidable (sizeSupported version size) := by unfold sizeSupported; infer_instance

/-- `ExtGroupDescriptor::read_data`, group_descriptor.rs:47-53, group_descriptor_ext2.rs:40-53,
group_descriptor_ext4.rs:74-93: the block number of the inode table and the checksum. -/
def readDescriptor (version : Nat) (data : List Byte) : R (Nat × Nat) := do
  R.require (sizeSupported version data.length)
  let lower ← u32le data 8
  let table ← upperTable version data lower
  let checksum ← u16le data 30
  return (table, checksum)

/-- group_descriptor_table.rs:101-127 -/
def checkDescriptor (seed : Option (BitVec 32)) (number : Nat) (data : List Byte) (stored : Nat) : R Unit := match seed with
  | none => .ok ()
  | some seed => do
    let sum ← crc seed [leBytes 4 number, ← R.slice data 0 30, [0#8, 0#8], ← R.slice data 32 data.length]
    R.require (stored = 0 ∨ stored = complement sum % 2 ^ 16)

/-- The number of a group, group_descriptor_table.rs:107-108. It is only computed with a seed. -/
def groupNumber (seed : Option (BitVec 32)) (first group : Nat) : R Nat := match seed with
  | none => .ok 0
  | some _ => R.addU 32 first group

/-- The loop of `ExtGroupDescriptorTable::read_data`, group_descriptor_table.rs:80-131, with the number of
descriptors left, the number of the group and the data left. The result are the block numbers of the inode
tables. -/
def tableLoop (version : Nat) (seed : Option (BitVec 32)) (size first : Nat) : Nat → Nat → List Byte → R (List Nat)
  | 0, _, _ => .ok []
  | n + 1, group, data => do
    let d ← R.slice data 0 size
    if d = List.replicate size 0#8 then return []
    else
      let r ← readDescriptor version d
      let number ← groupNumber seed first group
      checkDescriptor seed number d r.2
      let rest ← tableLoop version seed size first n (group + 1) (data.drop size)
      return r.1 :: rest

/-- `ExtGroupDescriptorTable::read_at_position`, group_descriptor_table.rs:136-158. -/
def readTable (U : List Byte) (version : Nat) (seed : Option (BitVec 32)) (size first n offset : Nat) : R (List Nat) := do
  let dataSize ← R.mulU 64 n size
  let data ← readExactAt U offset dataSize
  tableLoop version seed size first n 0 data

/-! ## Block groups -/

/-- The variables of the loop over the block groups, file_system.rs:261-272. -/
structure Groups where
  number : Nat
  offset : Nat
  power3 : Nat
  power5 : Nat
  power7 : Nat
  metaNumber : Nat
  tables : List Nat
deriving DecidableEq, Repr

/-- `if exponent < block_group_number { exponent *= factor }`, file_system.rs:275-283. -/
def nextPower (factor power number : Nat) : R Nat := if power < number then R.mulU 32 power factor else .ok power

/-- file_system.rs:284-306 -/
def hasSuper (s : Super) (g : Groups) : Bool :=
  if g.number = 0 then true
  else if s.readOnly &&& 0x1 = 0 then true
  else if s.compatible &&& 0x200 ≠ 0 then false
  else g.number = 1 ∨ g.number = g.power3 ∨ g.number = g.power5 ∨ g.number = g.power7

/-- The position of the superblock, file_system.rs:308-312. What is read there is used in the first group only. -/
def superOffset (s : Super) (g : Groups) : R Nat :=
  if g.offset = 0 ∨ s.blockSize = 1024 then R.addU 64 g.offset 1024 else .ok g.offset

/-- Reading a copy of the superblock has no effect, file_system.rs:360-374, but the position may be out of bounds. -/
def skipSuper (s : Super) (g : Groups) : R Unit :=
  if hasSuper s g then do
    let _ ← superOffset s g
    return ()
  else .ok ()

/-- file_system.rs:403-405 -/
def add1024 (s : Super) (offset : Nat) : R Nat := if s.blockSize = 1024 then R.addU 64 offset 1024 else .ok offset

/-- file_system.rs:406-408 -/
def addBlock (s : Super) (has : Bool) (offset : Nat) : R Nat := if has then R.addU 64 offset s.blockSize else .ok offset

/-- The position of the group descriptors, file_system.rs:401-408. -/
def tableOffset (s : Super) (g : Groups) : R Nat := do
  let offset ← add1024 s g.offset
  addBlock s (hasSuper s g) offset

/-- The first group of the meta groups, file_system.rs:343-350. -/
def metaStart (s : Super) : R Nat := if hasMeta s then R.mulU 32 s.firstMeta (s.blockSize / descriptorSize s) else .ok 0

/-- The groups of a meta group, file_system.rs:345-346. -/
def perMeta (s : Super) : Nat := if hasMeta s then s.blockSize / descriptorSize s else 0

/-- The group descriptors of a group before the meta groups, file_system.rs:384-387 and 400-456. -/
def mainTable (U : List Byte) (s : Super) (seed : Option (BitVec 32)) (start : Nat) (g : Groups) : R Groups :=
  if hasSuper s g then do
    let offset ← tableOffset s g
    let tables ← readTable U (version s) seed (descriptorSize s) 0 (if hasMeta s then start else groupCount s % 2 ^ 32) offset
    return if g.number = 0 then { g with tables := g.tables ++ tables } else g
  else .ok g

/-- file_system.rs:457-465 -/
def keepMeta (s : Super) (g : Groups) (tables : List Nat) : R Groups :=
  if g.number % perMeta s = 0 then .ok { g with tables := g.tables ++ tables }
  else if g.number % perMeta s = perMeta s - 1 then do
    let n ← R.addU 32 g.metaNumber 1
    return { g with metaNumber := n }
  else .ok g

/-- The group descriptors of a group of a meta group, file_system.rs:388-465. -/
def metaTable (U : List Byte) (s : Super) (seed : Option (BitVec 32)) (start : Nat) (g : Groups) : R Groups := do
  R.check (perMeta s ≠ 0)
  if g.number % perMeta s = 0 ∨ g.number % perMeta s = 1 ∨ g.number % perMeta s = perMeta s - 1 then
    let offset ← tableOffset s g
    let first ← R.addU 32 start (← R.mulU 32 g.metaNumber (perMeta s))
    let tables ← readTable U (version s) seed (descriptorSize s) first (perMeta s) offset
    keepMeta s g tables
  else return g

/-- file_system.rs:384-465 -/
def groupTables (U : List Byte) (s : Super) (seed : Option (BitVec 32)) (start : Nat) (g : Groups) : R Groups :=
  if hasMeta s = false ∨ g.number < start then mainTable U s seed start g else metaTable U s seed start g

/-- One iteration of the loop, file_system.rs:275-475, after the first superblock has been read. -/
def groupStep (U : List Byte) (s : Super) (seed : Option (BitVec 32)) (start : Nat) (g : Groups) : R Groups := do
  let power3 ← nextPower 3 g.power3 g.number
  let power5 ← nextPower 5 g.power5 g.number
  let power7 ← nextPower 7 g.power7 g.number
  let g := { g with power3, power5, power7 }
  skipSuper s g
  let g ← groupTables U s seed start g
  let number ← R.addU 32 g.number 1
  let offset ← R.addU 64 g.offset (s.blocksPerGroup * s.blockSize)
  return { g with number, offset }

/-- The loop, file_system.rs:274-480, with the number of groups left. The number of blocks is not 0, so there is
at least one group. -/
def groupLoop (U : List Byte) (s : Super) (seed : Option (BitVec 32)) (start : Nat) : Nat → Groups → R Groups
  | 0, g => .ok g
  | n + 1, g => do
    let g ← groupStep U s seed start g
    groupLoop U s seed start n g

/-- The loop of `ExtInodeTable::initialize`, inode_table.rs:86-101. -/
def insertLoop (groupSize : Nat) : List Nat → Nat → BlockTree.Tree Nat → R (BlockTree.Tree Nat)
  | [], _, tree => .ok tree
  | t :: ts, offset, tree => do
    let tree ← BlockTree.insert tree offset groupSize t
    let offset ← R.addU 64 offset groupSize
    insertLoop groupSize ts offset tree

/-- `ExtInodeTable::initialize`, inode_table.rs:65-103. The size of a group fits in 48 bits. -/
def inodeTable (s : Super) (tables : List Nat) : R (BlockTree.Tree Nat) := do
  let size ← R.mulU 64 tables.length (s.inodesPerGroup * s.inodeSize)
  insertLoop (s.inodesPerGroup * s.inodeSize) tables 0 (BlockTree.new size s.inodesPerGroup s.inodeSize)

/-- file_system.rs:481-502 -/
def makeTable (s : Super) (tables : List Nat) : R (BlockTree.Tree Nat) :=
  if 0 < s.inodesPerGroup then inodeTable s tables else .ok (BlockTree.new 0 0 0)

/-- `ExtFileSystem`, file_system.rs:38-74, and its inode table. -/
structure Fs where
  super : Super
  seed : Option (BitVec 32)
  tree : BlockTree.Tree Nat

/-- `read_data_stream` and `read_block_groups`, file_system.rs:240-508. -/
def openFs (U : List Byte) : R Fs := do
  let s ← readSuper (← readExactAt U 1024 1024)
  let seed ← seedOf s
  let start ← metaStart s
  let g ← groupLoop U s seed start (groupCount s) ⟨0, 0, 3, 5, 7, 0, []⟩
  let tree ← makeTable s g.tables
  return ⟨s, seed, tree⟩

/-- `get_volume_label`, file_system.rs:113-115 and 327-329. -/
def volumeLabel (fs : Fs) : Option (List Byte) := if fs.super.label = [] then none else some fs.super.label

/-! ## Inodes -/

/-- The variants of `DateTime` used: not set, `PosixTime32` and `PosixTime64Ns`. -/
inductive Time where
  | notSet
  | seconds (t : Int)
  | nanoseconds (t : Int) (ns : Nat)
deriving DecidableEq, Repr

/-- The seconds and nanoseconds of a time, if it is set. -/
def Time.value : Time → Option (Int × Nat)
  | .notSet => none
  | .seconds t => some (t, 0)
  | .nanoseconds t ns => some (t, ns)

/-- `ExtInode`, inode.rs:38-91, before the data reference is read. -/
structure Inode where
  mode : Nat
  owner : Nat
  group : Nat
  size : Nat
  accessStamp : Int
  changeStamp : Int
  modificationStamp : Int
  access : Time
  change : Time
  modification : Time
  deletion : Time
  creation : Option Time
  links : Nat
  blocks : Nat
  flags : Nat
  reference : List Byte
  checksum : Nat
  attributes : Nat
deriving DecidableEq, Repr

/-- inode_ext4.rs:75-78 and so on: a time is set if it is after the epoch. -/
def posix (t : Int) : Time := if 0 < t then .seconds t else .notSet

/-- The time at an offset, unless it is not used, inode_ext4.rs:82-99, inode_ext2.rs:78-94. -/
def stampAt (data : List Byte) (offset : Nat) (used : Bool) : R Int := if used then i32le data offset else .ok 0

/-- The size, inode_ext4.rs:76-78, inode_ext2.rs:76. -/
def sizeAt (version : Nat) (data : List Byte) : R Nat := do
  let lower ← u32le data 4
  if version = 4 then
    let upper ← u32le data 108
    return (upper <<< 32) ||| lower
  else return lower

/-- The number of blocks, inode_ext4.rs:102-104, inode_ext2.rs:96. -/
def blocksAt (version : Nat) (data : List Byte) : R Nat := do
  let lower ← u32le data 28
  if version = 4 then
    let upper ← u16le data 116
    return (upper <<< 32) ||| lower
  else return lower

/-- inode_ext4.rs:108-109 -/
def checksumAt (version : Nat) (data : List Byte) : R Nat := if version = 4 then u16le data 124 else .ok 0

/-- `Ext4Inode::read_data`, inode_ext4.rs:58-112, and `Ext2Inode::read_data`, inode_ext2.rs:57-103, which
`Ext3Inode::read_data` equals. -/
def readBase (version : Nat) (data : List Byte) : R Inode := do
  R.require (128 ≤ data.length)
  let mode ← u16le data 0
  let ownerLower ← u16le data 2
  let ownerUpper ← u16le data 120
  let groupLower ← u16le data 24
  let groupUpper ← u16le data 122
  let size ← sizeAt version data
  let flags ← u32le data 32
  let used := decide (version ≠ 4 ∨ flags &&& 0x200000 = 0)
  let access ← stampAt data 8 used
  let change ← stampAt data 12 used
  let modification ← stampAt data 16 used
  let deletion ← stampAt data 20 used
  let links ← u16le data 26
  let blocks ← blocksAt version data
  let reference ← R.slice data 40 100
  let checksum ← checksumAt version data
  return ⟨mode, (ownerUpper <<< 16) ||| ownerLower, (groupUpper <<< 16) ||| groupLower, size, access, change, modification,
    posix access, posix change, posix modification, posix deletion, none, links, blocks, flags, reference, checksum, 0⟩

/-- `get_extra_precision_timestamp`, inode_extension_ext4.rs:45-57. -/
def extraPrecision (stamp : Int) (extra : Nat) : Int × Nat :=
  if 0 < extra then
    (if extra &&& 3 ≠ 0 then stamp + 0x100000000 * ((extra &&& 3 : Nat) : Int) else stamp, extra >>> 2)
  else (stamp, extra)

/-- inode_extension_ext4.rs:69-77, 80-90 and 93-101: a time with extra precision, if it is there. -/
def extraTime (data : List Byte) (offset : Nat) (present : Bool) (stamp : Int) (old : Time) : R Time :=
  if present then do
    let extra ← u32le data offset
    let r := extraPrecision stamp extra
    return if 0 < r.1 then .nanoseconds r.1 r.2 else old
  else .ok old

/-- inode_extension_ext4.rs:104-117: the creation time is tested without the extra precision. -/
def creationTime (data : List Byte) (present : Bool) : R (Option Time) :=
  if present then do
    let stamp ← i32le data 16
    let extra ← u32le data 20
    let r := extraPrecision stamp extra
    return if 0 < stamp then some (.nanoseconds r.1 r.2) else none
  else .ok none

/-- inode_extension_ext4.rs:63-66 -/
def upperChecksum (data : List Byte) (present : Bool) (lower : Nat) : R Nat :=
  if present then do
    let upper ← u16le data 2
    return lower ||| (upper <<< 16)
  else .ok lower

/-- `(x + 3) / 4 * 4`, the padding of attributes_block.rs:96-99. -/
def align4 (n : Nat) : Nat := if n % 4 ≠ 0 then n + (4 - n % 4) else n

/-- One entry of the attributes, attributes_block.rs:66-101, attributes_entry.rs:68-118: the offset of the next
one. -/
def readAttribute (data : List Byte) (offset : Nat) : R Nat := do
  let nameSize ← R.get data offset
  let nameIndex ← R.get data (offset + 1)
  R.require (offset + 16 + nameSize.toNat ≤ data.length)
  R.require (nameIndex.toNat ∈ [0, 1, 2, 3, 4, 6, 7, 8])
  return align4 (offset + 16 + nameSize.toNat)

/-- The entries end, attributes_block.rs:47-65. -/
def attributesEnd (data : List Byte) (offset : Nat) : R Bool :=
  if data.length ≤ offset + 8 then .ok true
  else do
    let start ← R.slice data offset (offset + 4)
    return start = [0#8, 0#8, 0#8, 0#8] ∨ data.length ≤ offset + 16

/-- `read_entries`, attributes_block.rs:36-115: the number of attributes. Every entry has at least 16 bytes; running out
of fuel is reported as `panic`. -/
def attributesLoop (data : List Byte) : Nat → Nat → Nat → R Nat
  | 0, _, _ => .panic
  | fuel + 1, offset, count => do
    let stop ← attributesEnd data offset
    if stop then return count
    else
      let next ← readAttribute data offset
      attributesLoop data fuel next (count + 1)

/-- inode_extension_ext4.rs:118-147 -/
def readAttributes (data : List Byte) (extraSize : Nat) : R Nat :=
  if extraSize + 4 < data.length then do
    let signature ← R.slice data extraSize (extraSize + 4)
    if signature = [0x00#8, 0x00#8, 0x02#8, 0xea#8] then attributesLoop data (data.length + 1) (extraSize + 4) 0
    else return 0
  else .ok 0

/-- `Ext4InodeExtension::read_data`, inode_extension_ext4.rs:60-149. -/
def readExtension (i : Inode) (data : List Byte) : R Inode := do
  let extraSize ← u16le data 0
  let checksum ← upperChecksum data (decide (4 ≤ extraSize)) i.checksum
  let used := i.flags &&& 0x200000 = 0
  let change ← extraTime data 4 (decide (used ∧ 8 ≤ extraSize)) i.changeStamp i.change
  let modification ← extraTime data 8 (decide (used ∧ 12 ≤ extraSize)) i.modificationStamp i.modification
  let access ← extraTime data 12 (decide (used ∧ 16 ≤ extraSize)) i.accessStamp i.access
  let creation ← creationTime data (decide (24 ≤ extraSize))
  let attributes ← readAttributes data extraSize
  return { i with checksum, change, modification, access, creation, attributes }

/-- `ExtInode::read_data`, inode.rs:134-152. -/
def readInode (version : Nat) (data : List Byte) : R Inode := do
  let i ← readBase version data
  if 128 < data.length then readExtension i (data.drop 128) else return i

/-- The checksum of the data after 128 bytes, inode_table.rs:168-172. -/
def extensionPieces (data : List Byte) : R (List (List Byte)) :=
  if 128 < data.length then do
    return [← R.slice data 128 130, [0#8, 0#8], ← R.slice data 132 data.length]
  else .ok []

/-- inode_table.rs:156-187 -/
def checkInode (seed : Option (BitVec 32)) (number : Nat) (data : List Byte) (stored : Nat) : R Unit := match seed with
  | none => .ok ()
  | some seed => do
    let pieces ← extensionPieces data
    let sum ← crc seed ([leBytes 4 number, ← R.slice data 100 104, ← R.slice data 0 124, [0#8, 0#8], ← R.slice data 126 128] ++ pieces)
    R.require (stored = 0 ∨ stored = if data.length ≤ 128 then complement sum % 2 ^ 16 else complement sum)

/-- The number of blocks of the data, inode.rs:176-179, file_entry.rs:165-170 and 219-224. -/
def blocksOf (bs : Nat) (i : Inode) : R Nat := do
  R.check (bs ≠ 0)
  return max (BlockTree.divCeil i.size bs) i.blocks

/-- `read_data_reference`, inode.rs:155-219. -/
def readReference (U : List Byte) (version bs : Nat) (i : Inode) : R (List Range) :=
  if i.mode &&& 0xf000 = 0x2000 ∨ i.mode &&& 0xf000 = 0x6000 then .ok []
  else do
    let blocks ← blocksOf bs i
    if version = 4 ∧ i.flags &&& 0x80000 ≠ 0 then Ext.readExtents U bs blocks i.reference
    else Ext.readBlockNumbers U bs blocks i.reference

/-- The position of an inode, inode_table.rs:111-126. -/
def inodeOffset (fs : Fs) (number : Nat) : R Nat := do
  let n ← R.subU number 1
  let table ← Fat.orErr (← BlockTree.get fs.tree (n * fs.super.inodeSize))
  R.check (fs.super.inodesPerGroup ≠ 0)
  let start ← R.mulU 64 table fs.super.blockSize
  R.addU 64 (n % fs.super.inodesPerGroup * fs.super.inodeSize) start

/-- `ExtInodeTable::get_inode`, inode_table.rs:106-196: the inode and its block ranges. -/
def getInode (U : List Byte) (fs : Fs) (number : Nat) : R (Inode × List Range) := do
  let offset ← inodeOffset fs number
  let data ← readExactAt U offset fs.super.inodeSize
  let i ← readInode (version fs.super) data
  checkInode fs.seed number data i.checksum
  let ranges ← readReference U (version fs.super) fs.super.blockSize i
  return (i, ranges)

/-! ## Directories -/

/-- The derived order of byte strings with the same encoding. -/
def compareNames : List Byte → List Byte → Ordering
  | [], [] => .eq
  | [], _ :: _ => .lt
  | _ :: _, [] => .gt
  | a :: as, b :: bs => if a < b then .lt else if b < a then .gt else compareNames as bs

/-- `BTreeMap::insert` on the entries in order: a value with an equal key is replaced. -/
def insertEntry (name : List Byte) (number : Nat) : List (List Byte × Nat) → List (List Byte × Nat)
  | [] => [(name, number)]
  | (k, v) :: rest => match compareNames name k with
    | .lt => (name, number) :: (k, v) :: rest
    | .eq => (name, number) :: rest
    | .gt => (k, v) :: insertEntry name number rest

/-- directory_tree.rs:161-169: unused entries, "." and ".." are left out. -/
def keepEntry (number : Nat) (name : List Byte) (entries : List (List Byte × Nat)) : List (List Byte × Nat) :=
  if number = 0 then entries
  else if name = [0x2e#8] ∨ name = [0x2e#8, 0x2e#8] then entries
  else insertEntry name number entries

/-- `ExtDirectoryEntry::read_name`, directory_entry.rs:76-94, on the data from the name on. -/
def readName (nameSize : Nat) (data : List Byte) : R (List Byte) := do
  R.require (nameSize ≤ data.length)
  return ByteString.elements (data.take nameSize)

/-- One entry, directory_tree.rs:131-160: inode number, size and name; `none` if the size is 0, which ends the
entries. -/
def readEntry (data : List Byte) : R (Option (Nat × Nat × List Byte)) := do
  R.require (8 ≤ data.length)
  let number ← u32le data 0
  let size ← u16le data 4
  let nameSize ← R.get data 6
  if size = 0 then return none
  else
    R.require (8 ≤ size ∧ size ≤ data.length)
    let name ← readName nameSize.toNat (data.drop 8)
    return some (number, size, name)

/-- `read_node_data`, directory_tree.rs:118-172, on the data from `data_offset` on. Every entry has at least 8 bytes;
running out of fuel is reported as `panic`. -/
def nodeLoop : Nat → List Byte → List (List Byte × Nat) → R (List (List Byte × Nat))
  | 0, _, _ => .panic
  | fuel + 1, data, entries =>
    if data.length = 0 then .ok entries
    else do
      match ← readEntry data with
      | none => return entries
      | some (number, size, name) => nodeLoop fuel (data.drop size) (keepEntry number name entries)

/-- `read_node_data`, directory_tree.rs:118-172. -/
def readNode (data : List Byte) (entries : List (List Byte × Nat)) : R (List (List Byte × Nat)) := nodeLoop (data.length + 1) data entries

/-- The blocks of a range, directory_tree.rs:63-80, with the number of blocks left. -/
def rangeLoop (U : List Byte) (bs : Nat) : Nat → Nat → List (List Byte × Nat) → R (List (List Byte × Nat))
  | 0, _, entries => .ok entries
  | n + 1, offset, entries => do
    let data ← readExactAt U offset bs
    let entries ← readNode data entries
    let offset ← R.addU 64 offset bs
    rangeLoop U bs n offset entries

/-- `read_block_data`, directory_tree.rs:48-83. -/
def readRanges (U : List Byte) (bs : Nat) : List Range → List (List Byte × Nat) → R (List (List Byte × Nat))
  | [], entries => .ok entries
  | r :: rs, entries =>
    if r.sparse then .ok entries
    else do
      let offset ← R.mulU 64 r.physical bs
      let entries ← rangeLoop U bs r.count offset entries
      readRanges U bs rs entries

/-! ## File entries -/

/-- `ExtFileEntry`, file_entry.rs:29-48. The sub directory entries are read whenever they are needed; in the code
those of block data are read again into the same map, and those of inline data are kept. -/
structure Entry where
  number : Nat
  inode : Inode
  ranges : List Range
  name : Option (List Byte)
deriving DecidableEq, Repr

/-- `get_file_entry_by_identifier`, file_system.rs:118-157. -/
def byIdentifier (U : List Byte) (fs : Fs) (number : Nat) : R Entry := do
  R.require (unsupported fs.super = false)
  R.require (¬ (number = 0 ∨ fs.super.inodes < number))
  let r ← getInode U fs number
  return ⟨number, r.1, r.2, none⟩

/-- `is_directory`, file_entry.rs:375-377. -/
def isDirectory (e : Entry) : Bool := e.inode.mode &&& 0xf000 = 0x4000

/-- `read_sub_directory_entries`, file_entry.rs:385-421. -/
def readDirectory (U : List Byte) (fs : Fs) (e : Entry) : R (List (List Byte × Nat)) :=
  if e.inode.flags &&& 0x10000000 ≠ 0 then do
    let _ ← u32le e.inode.reference 0
    readNode (e.inode.reference.drop 4) []
  else readRanges U fs.super.blockSize e.ranges []

/-- The entries of a file entry, file_entry.rs:246-258 and so on: files other than directories have none. -/
def subEntries (U : List Byte) (fs : Fs) (e : Entry) : R (List (List Byte × Nat)) :=
  if isDirectory e then readDirectory U fs e else .ok []

/-- `get_number_of_sub_file_entries`, file_entry.rs:244-258. -/
def subCount (U : List Byte) (fs : Fs) (e : Entry) : R Nat := do return (← subEntries U fs e).length

/-- The file entry of a directory entry, file_entry.rs:282-302 and 347-368. The inode number is not tested. -/
def ofEntry (U : List Byte) (fs : Fs) (d : List Byte × Nat) : R Entry := do
  let r ← getInode U fs d.2
  return ⟨d.2, r.1, r.2, some d.1⟩

/-- `get_sub_file_entry_by_index`, file_entry.rs:261-309. -/
def subByIndex (U : List Byte) (fs : Fs) (e : Entry) (index : Nat) : R Entry := do
  let entries ← subEntries U fs e
  let d ← Fat.orErr entries[index]?
  ofEntry U fs d

/-- The match of `get_sub_file_entry_by_name`, file_entry.rs:346-371. -/
def ofLookup (U : List Byte) (fs : Fs) : Option (List Byte × Nat) → R (Option Entry)
  | none => .ok none
  | some d => do return some (← ofEntry U fs d)

/-- `get_sub_file_entry_by_name`, file_entry.rs:314-372. -/
def subByName (U : List Byte) (fs : Fs) (e : Entry) (name : List Byte) : R (Option Entry) := do
  let entries ← subEntries U fs e
  ofLookup U fs (entries.find? (·.1 = name))

/-- The loop of `get_file_entry_by_path`, file_system.rs:179-198. -/
def walk (U : List Byte) (fs : Fs) : Entry → List (List Byte) → R (Option Entry)
  | e, [] => .ok (some e)
  | e, name :: rest => do
    match ← subByName U fs e name with
    | some e' => walk U fs e' rest
    | none => return none

/-- `get_root_directory`, file_system.rs:203-220. -/
def rootEntry (U : List Byte) (fs : Fs) : R (Option Entry) :=
  if fs.super.inodes = 0 then .ok none else do return some (← byIdentifier U fs 2)

/-- `get_file_entry_by_path`, file_system.rs:160-200. -/
def byPath (U : List Byte) (fs : Fs) (components : List (List Byte)) : R (Option Entry) := match components with
  | [] => .ok none
  | first :: rest => if first.length ≠ 0 then .ok none else do
    match ← rootEntry U fs with
    | some root => walk U fs root rest
    | none => return none

/-- `get_size`, file_entry.rs:140-147. -/
def size (e : Entry) : Nat :=
  if e.inode.mode &&& 0xf000 = 0x8000 ∨ e.inode.mode &&& 0xf000 = 0xa000 then e.inode.size else 0

/-- `get_device_identifier`, file_entry.rs:92-107. -/
def deviceIdentifier (e : Entry) : R (Option Nat) :=
  if e.inode.mode &&& 0xf000 = 0x2000 ∨ e.inode.mode &&& 0xf000 = 0x6000 then do
    R.require (e.inode.size ≤ 2)
    let n ← u16le e.inode.reference 0
    return some n
  else .ok none

/-- A data stream: inline data and its size, or the tree of a block stream and its size. -/
inductive Data where
  | inline (data : List Byte) (size : Nat)
  | blocks (tree : BlockTree.Tree Range) (size : Nat)

/-- The reader of a data stream. -/
def Data.reader (U : List Byte) (bs : Nat) : Data → Reader Unit
  | .inline data size => FakeDataStream.reader data size
  | .blocks tree size => Ext.stream U bs tree size

/-- `get_data_stream`, file_entry.rs:210-241. -/
def dataStream (fs : Fs) (e : Entry) : R (Option Data) :=
  if e.inode.mode &&& 0xf000 ≠ 0x8000 then .ok none
  else if e.inode.flags &&& 0x10000000 ≠ 0 then .ok (some (.inline e.inode.reference e.inode.size))
  else do
    let blocks ← blocksOf fs.super.blockSize e.inode
    let tree ← Ext.openTree fs.super.blockSize blocks e.ranges
    return some (.blocks tree e.inode.size)

/-- The data of a symbolic link target in blocks, file_entry.rs:164-196. -/
def blockTarget (U : List Byte) (fs : Fs) (e : Entry) : R (List Byte) := do
  let blocks ← blocksOf fs.super.blockSize e.inode
  let tree ← Ext.openTree fs.super.blockSize blocks e.ranges
  let r ← Stream.read (Ext.stream U fs.super.blockSize tree e.inode.size) ⟨(), 0⟩ e.inode.size
  R.require (r.1.length = e.inode.size)
  return r.1

/-- file_entry.rs:161-197 -/
def targetData (U : List Byte) (fs : Fs) (e : Entry) : R (List Byte) :=
  if e.inode.size < 60 then .ok e.inode.reference else blockTarget U fs e

/-- `get_symbolic_link_target`, file_entry.rs:150-200. -/
def linkTarget (U : List Byte) (fs : Fs) (e : Entry) : R (Option (List Byte)) :=
  if e.inode.mode &&& 0xf000 = 0xa000 then do
    R.require (e.inode.size ≤ fs.super.blockSize)
    let data ← targetData U fs e
    return some (ByteString.elements data)
  else .ok none

end Keramics.ExtFs
