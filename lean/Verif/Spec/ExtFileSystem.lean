import Verif.Spec.Ext
import Verif.Spec.Crc32

/-!
# Specification: ext file systems

After the ext2, ext3 and ext4 on-disk formats as documented with the Linux kernel: superblock, block groups, inodes,
extended attributes in inodes, directories and paths.
-/

namespace Keramics.Spec.ExtFs
open Keramics.Spec.Ext

/-- The number in a field. -/
def field (data : List Byte) (offset size : Nat) : Nat := leNat ((data.drop offset).take size)

/-- A 32-bit number in two's complement. -/
def signed (v : Nat) : Int := if v < 2 ^ 31 then v else (v : Int) - 2 ^ 32

/-- The checksums: CRC-32C that starts with a seed and whose result is not complemented. -/
def sum (seed : BitVec 32) (data : List Byte) : BitVec 32 := ~~~ crc32Reflected 0x82f63b78#32 (~~~ seed) data

/-! ## Superblock -/

/-- The superblock. -/
def super (U : List Byte) : List Byte := (U.drop 1024).take 1024

/-- A bit of the feature flags. -/
def compat (U : List Byte) (k : Nat) : Bool := (field (super U) 92 4).testBit k
def incompat (U : List Byte) (k : Nat) : Bool := (field (super U) 96 4).testBit k
def roCompat (U : List Byte) (k : Nat) : Bool := (field (super U) 100 4).testBit k

def inodes (U : List Byte) : Nat := field (super U) 0 4

/-- Bit 7: block numbers of 64 bits. -/
def blocks (U : List Byte) : Nat := field (super U) 4 4 + if incompat U 7 then 2 ^ 32 * field (super U) 336 4 else 0

/-- The block of the superblock: groups start there. -/
def firstBlock (U : List Byte) : Nat := field (super U) 20 4

def blockSize (U : List Byte) : Nat := 2 ^ (10 + field (super U) 24 4)

def perGroup (U : List Byte) : Nat := field (super U) 32 4

def inodesPerGroup (U : List Byte) : Nat := field (super U) 40 4

def groups (U : List Byte) : Nat := (blocks U - firstBlock U + perGroup U - 1) / perGroup U

/-- Inodes have 128 bytes in revision 0. -/
def inodeSize (U : List Byte) : Nat := if field (super U) 76 4 = 0 then 128 else field (super U) 88 2

def descriptorSize (U : List Byte) : Nat := if incompat U 7 then field (super U) 254 2 else 32

/-- Metadata has checksums. -/
def checksums (U : List Byte) : Bool := roCompat U 10

/-- The sum of the identifier. -/
def uuidSum (U : List Byte) : BitVec 32 := sum 0xffffffff#32 (((super U).drop 104).take 16)

/-- The seed of the checksums: stored (bit 13), or the sum of the identifier. -/
def seed (U : List Byte) : BitVec 32 := if incompat U 13 then BitVec.ofNat 32 (field (super U) 624 4) else uuidSum U

/-- A text field ends at the first zero byte. -/
def text (data : List Byte) : List Byte := data.takeWhile (· ≠ 0#8)

/-- A feature that only ext4 has. -/
def Ext4 (U : List Byte) : Prop :=
  compat U 9 = true ∨ (∃ k ∈ [6, 7, 8, 9, 10, 12, 13, 14, 15, 16], incompat U k = true) ∨ ∃ k ∈ [3, 4, 5, 6, 8, 9], roCompat U k = true

/-! ## Block groups -/

/-- The descriptor of group `g` in the table of group `k`. -/
def descriptor (U : List Byte) (k g : Nat) : List Byte :=
  (U.drop ((firstBlock U + k * perGroup U + 1) * blockSize U + g * descriptorSize U)).take (descriptorSize U)

/-- The first block of the inodes of group `g`. -/
def inodeTable (U : List Byte) (g : Nat) : Nat :=
  field (descriptor U 0 g) 8 4 + if incompat U 7 then 2 ^ 32 * field (descriptor U 0 g) 40 4 else 0

/-- The checksum of a descriptor: its own field counts as zero, and the low 16 bits are stored. -/
def descriptorSum (U : List Byte) (g : Nat) (d : List Byte) : Nat :=
  (sum (seed U) (leBytes 4 g ++ d.take 30 ++ [0#8, 0#8] ++ d.drop 32)).toNat % 2 ^ 16

/-- Groups with a copy of the superblock and of the descriptors: all, or (bit 0, sparse) those with a number that is 0, 1 or a power of 3, 5 or
7. With bit 9 (sparse, second version) there are at most two copies, whose groups are given elsewhere. -/
def HasTable (U : List Byte) (k : Nat) : Prop :=
  k = 0 ∨ (compat U 9 = false ∧ (roCompat U 0 = false ∨ k = 1 ∨ ∃ j, k = 3 ^ j ∨ k = 5 ^ j ∨ k = 7 ^ j))

/-- `U` is an ext volume: superblock, descriptors and their copies, and inode tables are there. -/
structure Valid (U : List Byte) : Prop where
  length : 2048 ≤ U.length
  signature : field (super U) 56 2 = 0xef53
  revision : field (super U) 76 4 ≤ 1
  exponent : field (super U) 24 4 ≤ 6
  first : firstBlock U = if blockSize U = 1024 then 1 else 0
  some_ : firstBlock U < blocks U
  complete : blocks U * blockSize U ≤ U.length
  groupPos : 0 < perGroup U
  inodesPos : 0 < inodesPerGroup U
  inodeCount : inodes U ≤ groups U * inodesPerGroup U
  inodeSizes : inodeSize U ∈ [128, 256, 512, 1024, 2048, 4096, 8192, 16384, 32768]
  superSum : checksums U = true → field (super U) 373 1 = 1 ∧ field (super U) 1020 4 = (sum 0xffffffff#32 ((super U).take 1020)).toNat
  tables : ∀ k, k < groups U → HasTable U k → (firstBlock U + k * perGroup U + 1) * blockSize U + groups U * descriptorSize U ≤ U.length ∧
    (checksums U = true → ∀ g, g < groups U → field (descriptor U k g) 30 2 = descriptorSum U g (descriptor U k g))
  inodeTables : ∀ g, g < groups U → 0 < inodeTable U g ∧ inodeTable U g * blockSize U + inodesPerGroup U * inodeSize U ≤ U.length

/-! ## Inodes -/

/-- The bytes of inode `n`; the first one has the number 1. -/
def inode (U : List Byte) (n : Nat) : List Byte :=
  (U.drop (inodeTable U ((n - 1) / inodesPerGroup U) * blockSize U + (n - 1) % inodesPerGroup U * inodeSize U)).take (inodeSize U)

/-- The type in the mode: 1 FIFO, 2 character device, 4 directory, 6 block device, 8 regular file, 10 symbolic link, 12 socket. -/
def kind (d : List Byte) : Nat := field d 0 2 / 2 ^ 12

def flag (d : List Byte) (k : Nat) : Bool := (field d 32 4).testBit k

/-- The size of the data: regular files have an upper part. -/
def dataSize (d : List Byte) : Nat := field d 4 4 + if kind d = 8 then 2 ^ 32 * field d 108 4 else 0

/-- The references to the data. -/
def reference (d : List Byte) : List Byte := (d.drop 40).take 60

/-- The number of bytes used after the first 128. -/
def extraSize (d : List Byte) : Nat := if 128 < d.length then field d 128 2 else 0

/-- A time in seconds and nanoseconds: 32 bits for the seconds, and if there is a second field, 2 more bits and the nanoseconds in it. -/
def time (d : List Byte) (stamp extra : Nat) : Int × Nat :=
  if extra + 4 ≤ 128 + extraSize d then (signed (field d stamp 4) + 2 ^ 32 * (field d extra 4 % 4 : Nat), field d extra 4 / 4)
  else (signed (field d stamp 4), 0)

/-- The checksum of an inode: its own fields count as zero. -/
def inodeSum (U : List Byte) (n : Nat) (d : List Byte) : Nat :=
  (sum (seed U) (leBytes 4 n ++ (d.drop 100).take 4 ++ (d.take 124 ++ [0#8, 0#8] ++ (d.drop 126).take 2 ++
    if 128 < d.length then (d.drop 128).take 2 ++ [0#8, 0#8] ++ d.drop 132 else []))).toNat

/-- An extended attribute as it is stored in the inode: its name and the 14 bytes between name index and name. -/
structure Attribute where
  name : List Byte
  index : Nat
  rest : List Byte
  padding : List Byte

def Attribute.bytes (a : Attribute) : List Byte := leBytes 1 a.name.length ++ leBytes 1 a.index ++ a.rest ++ a.name ++ a.padding

def Attribute.Ok (a : Attribute) : Prop :=
  a.name.length < 256 ∧ a.index < 256 ∧ a.rest.length = 14 ∧ a.padding.length < 4 ∧ (a.name.length + a.padding.length) % 4 = 0 ∧
    a.bytes.take 4 ≠ [0#8, 0#8, 0#8, 0#8]

/-- The attributes in the inode: none if the signature is not there, else a list that ends with zeros. -/
def Attributes (d : List Byte) (l : List Attribute) : Prop :=
  (l = [] ∧ (d.drop (128 + extraSize d)).take 4 ≠ [0x00#8, 0x00#8, 0x02#8, 0xea#8]) ∨
    ((∀ a ∈ l, a.Ok) ∧ ∃ rest, d.drop (128 + extraSize d) = [0x00#8, 0x00#8, 0x02#8, 0xea#8] ++ l.flatMap Attribute.bytes ++ [0#8, 0#8, 0#8, 0#8] ++ rest)

/-! ## Data -/

/-- The number of blocks of the data. -/
def dataBlocks (U : List Byte) (d : List Byte) : Nat := (dataSize d + blockSize U - 1) / blockSize U

/-- The blocks of the data: extents (bit 19 of the flags) or block numbers. -/
inductive Maps (U : List Byte) (d : List Byte) : (Nat → Option Nat) → Prop
  | extents {depth : Nat} {extents : List Extent} : flag d 19 = true → incompat U 6 = true → depth ≤ 5 → Stored U (blockSize U) depth (reference d) extents →
      (∀ e ∈ extents, e.Ok) → Ordered (dataBlocks U d) 0 extents →
      (∀ e ∈ extents, e.written = true → (e.start + e.count) * blockSize U ≤ U.length) → Maps U d (extentBlock extents)
  | numbers : flag d 19 = false →
      Inside U (blockSize U) 1 (number (reference d) 12) → Inside U (blockSize U) 2 (number (reference d) 13) → Inside U (blockSize U) 3 (number (reference d) 14) →
      (∀ b p, numberBlock U (blockSize U) (reference d) b = some p → (p + 1) * blockSize U ≤ U.length) →
      Maps U d (numberBlock U (blockSize U) (reference d))

/-- The data is in the references: inline data (bit 28), or a symbolic link of less than 60 bytes. -/
def Short (d : List Byte) : Prop := flag d 19 = false ∧ (flag d 28 = true ∨ (kind d = 10 ∧ dataSize d < 60))

/-- The data of a file. -/
inductive Contents (U : List Byte) (d : List Byte) : List Byte → Prop
  | short : Short d → dataSize d ≤ 60 → Contents U d ((reference d).take (dataSize d))
  | mapped {map : Nat → Option Nat} : ¬ Short d → flag d 28 = false → Maps U d map → Contents U d (contents U (blockSize U) map (dataBlocks U d) (dataSize d))

/-- Inode `n` is there, and what it refers to. -/
structure File (U : List Byte) (n : Nat) : Prop where
  first : 1 ≤ n
  last : n ≤ inodes U
  sum : checksums U = true → field (inode U n) 124 2 + (if 128 < inodeSize U then 2 ^ 16 * field (inode U n) 130 2 else 0) =
    if 128 < inodeSize U then inodeSum U n (inode U n) else inodeSum U n (inode U n) % 2 ^ 16
  extra : 128 < inodeSize U → 128 + extraSize (inode U n) ≤ inodeSize U ∧ extraSize (inode U n) % 4 = 0
  data : kind (inode U n) = 2 ∨ kind (inode U n) = 6 ∨ Short (inode U n) ∨ ∃ map, Maps U (inode U n) map

/-! ## Directories -/

/-- An entry of a directory. Those with inode 0 are not used. -/
structure Record where
  inode : Nat
  kind : Nat
  name : List Byte
  padding : List Byte

def Record.bytes (r : Record) : List Byte :=
  leBytes 4 r.inode ++ leBytes 2 (8 + r.name.length + r.padding.length) ++ leBytes 1 r.name.length ++ leBytes 1 r.kind ++ r.name ++ r.padding

/-- Names have no zero bytes; those of entries that are not used have any. -/
def Record.Ok (r : Record) : Prop :=
  r.inode < 2 ^ 32 ∧ r.kind < 256 ∧ r.name.length < 256 ∧ 8 + r.name.length + r.padding.length < 2 ^ 16 ∧ (r.inode ≠ 0 → 0#8 ∉ r.name)

def Lists (data : List Byte) (records : List Record) : Prop := (∀ r ∈ records, r.Ok) ∧ data = records.flatMap Record.bytes

/-- The entries of the directory with inode `d`: inline after the number of the parent, or in blocks, all of which are stored. -/
def Directory (U : List Byte) (d : List Byte) (records : List Record) : Prop :=
  kind d = 4 ∧
    ((flag d 28 = true ∧ Lists ((reference d).drop 4) records) ∨
     (flag d 28 = false ∧ ∃ map, Maps U d map ∧ (∀ b, dataBlocks U d ≤ b → map b = none) ∧ ∃ lists : List (List Record),
        records = lists.flatten ∧ lists.length = dataBlocks U d ∧
        ∀ b (h : b < lists.length), ∃ p, map b = some p ∧ Lists (block U (blockSize U) p) lists[b]))

/-- The inode with a name; "." and ".." do not count. -/
def lookup (records : List Record) (name : List Byte) : Option Nat :=
  (records.reverse.find? fun r => r.inode ≠ 0 ∧ r.name = name ∧ name ≠ [0x2e#8] ∧ name ≠ [0x2e#8, 0x2e#8]).map Record.inode

/-- What is at a path from the file with inode `n`, if all files on the way are as `F` says. -/
inductive Path (U : List Byte) (F : Nat → Prop) : Nat → List (List Byte) → Option Nat → Prop
  | here {n} : F n → Path U F n [] (some n)
  | file {n name rest} : F n → kind (inode U n) ≠ 4 → Path U F n (name :: rest) none
  | missing {n name rest records} : F n → Directory U (inode U n) records → lookup records name = none → Path U F n (name :: rest) none
  | step {n name rest records m r} : F n → Directory U (inode U n) records → lookup records name = some m → Path U F m rest r →
      Path U F n (name :: rest) r

/-! ## Restrictions

What is needed, beyond a sound volume, for the theorems about Keramics. -/

/-- Restrictions on the volume: the number of groups is the same whether the first block counts or not and not too large, the size of inodes is given
in the superblock also in revision 0, descriptors have no more than 64 bytes, groups that are combined have less than 2^16 members, the features are
those that are implemented, the seed is the sum of the identifier, and checksums come with another feature of ext4. -/
structure Handled (U : List Byte) : Prop where
  count : (blocks U + perGroup U - 1) / perGroup U = groups U
  many : groups U ≤ 2 ^ 30 ∧ groups U * (inodesPerGroup U * inodeSize U) < 2 ^ 63
  inodeBytes : field (super U) 88 2 = inodeSize U
  descriptorBytes : descriptorSize U = if incompat U 7 then 64 else 32
  flex : field (super U) 372 1 < 16
  features : ∀ k, incompat U k = true → k ∈ [1, 2, 3, 6, 7, 9, 10, 13, 15, 16, 17]
  sparse : compat U 9 = true → roCompat U 0 = true
  uuid : seed U = uuidSum U
  ext4 : checksums U = true → Ext4 U

/-- Restrictions on a file: the upper part of the size is only used in regular files and with a feature of ext4, the upper part of the checksum is
there, the inode is not the value of an attribute (bit 21), sizes are not too large, data in the inode has at most 60 bytes and the inode not many
blocks, and the names of attributes have certain prefixes. -/
structure FileHandled (U : List Byte) (n : Nat) (attributes : List Attribute) : Prop where
  upper : field (inode U n) 108 4 = 0 ∨ (kind (inode U n) = 8 ∧ Ext4 U)
  extra : checksums U = true → 128 < inodeSize U → 4 ≤ extraSize (inode U n)
  value : flag (inode U n) 21 = false
  size : dataSize (inode U n) + blockSize U ≤ 2 ^ 63
  blocks : (field (inode U n) 28 4 + 2 ^ 32 * field (inode U n) 116 2) * blockSize U < 2 ^ 63
  short : Short (inode U n) → dataSize (inode U n) ≤ 60 ∧ field (inode U n) 28 4 + 2 ^ 32 * field (inode U n) 116 2 ≤ 12
  stored : Attributes (inode U n) attributes
  prefixes : ∀ a ∈ attributes, a.index ∈ [0, 1, 2, 3, 4, 6, 7, 8]

/-- A file that is sound and meets the restrictions. -/
def Readable (U : List Byte) (n : Nat) : Prop := File U n ∧ ∃ attributes, FileHandled U n attributes

end Keramics.Spec.ExtFs
