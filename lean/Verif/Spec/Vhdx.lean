import Verif.Spec.Volumes
import Verif.Spec.Layered

/-!
# Specification: VHDX images

From [MS-VHDX]. The media is divided into blocks. The block allocation table has an entry of 8 bytes for every block, with its
state and its place in the file as a multiple of 1 MiB; after the entries of every chunk there is an entry for a block of the file with the bitmaps of
the blocks of that chunk. A chunk is as many blocks as 2^23 sectors are. The lowest bit of a byte of a bitmap is the first.
-/

namespace Keramics.Spec.Vhdx

/-- The metadata of a disk. -/
structure Disk where
  blockSize : Nat
  sectorSize : Nat
  mediaSize : Nat
  tableOffset : Nat
  /-- Number of entries of the table. -/
  entries : Nat
  /-- The disk has a parent. -/
  hasParent : Bool
deriving DecidableEq, Repr

variable (d : Disk) (file : List Byte)

def perChunk : Nat := 2 ^ 23 * d.sectorSize / d.blockSize

/-- The entry of a block: those of the chunks before have one more for their bitmaps. -/
def blockIndex (block : Nat) : Nat := block + block / perChunk d

/-- The entry with the bitmaps of a block. -/
def bitmapIndex (block : Nat) : Nat := (block / perChunk d) * (perChunk d + 1) + perChunk d

def entry (index : Nat) : Nat := field file (d.tableOffset + index * 8) 8

def state (index : Nat) : Nat := entry d file index % 8

/-- The place in the file: the highest 44 bits are MiB. -/
def place (index : Nat) : Nat := entry d file index / 2 ^ 20 * 2 ^ 20

/-- The bytes of the bitmap of a block. -/
def bitmapSize : Nat := d.blockSize / d.sectorSize / 8

def bitmapPlace (block : Nat) : Nat := place d file (bitmapIndex d block) + block % perChunk d * bitmapSize d

/-- Whether a sector of a block that is partially present is in this file. -/
def bit (block sector : Nat) : Bool := (file.getD (bitmapPlace d file block + sector / 8) 0#8).getLsbD (sector % 8)

/-- Where every byte of the media is. State 6 is fully present, 7 partially present, and 0 not present; the others are
zeros, or not defined. -/
def source (x : Nat) : Source :=
  let block := x / d.blockSize
  let offset := x % d.blockSize
  let index := blockIndex d block
  if state d file index = 6 then .file (place d file index + offset)
  else if d.hasParent then
    if state d file index = 7 then
      if bit d file block (offset / d.sectorSize) then .file (place d file index + offset) else .parent
    else if state d file index = 0 then .parent else .zero
  else .zero

/-- The values are valid: block size a power of two, between 1 and 256 MiB, and the table is large enough. -/
structure Valid : Prop where
  blockSize : ∃ k, 20 ≤ k ∧ k ≤ 28 ∧ d.blockSize = 2 ^ k
  sectorSize : d.sectorSize = 512 ∨ d.sectorSize = 4096
  entries : d.entries < 2 ^ 29
  media : d.mediaSize ≤ d.entries * d.blockSize

/-- The blocks with bytes of the media. -/
def Used (block : Nat) : Prop := block * d.blockSize < d.mediaSize

/-- The entries of the blocks of the media, and of their bitmaps, are in the table, and the table is in the file. -/
def TableInside : Prop := d.tableOffset + d.entries * 8 ≤ file.length ∧ ∀ b, Used d b → blockIndex d b < d.entries ∧
  (d.hasParent = true → bitmapIndex d b < d.entries ∧ bitmapPlace d file b + bitmapSize d ≤ file.length)

/-- The blocks end below 2^64. -/
def PlacesBelow : Prop := ∀ i, i < d.entries → place d file i + d.blockSize < 2 ^ 64

/-- The blocks of a disk without parent are present or not, those of a disk with parent are fully or partially present. -/
def StatesOk : Prop := ∀ b, Used d b → if d.hasParent then state d file (blockIndex d b) = 6 ∨ state d file (blockIndex d b) = 7
  else state d file (blockIndex d b) ≠ 7

/-- All sectors of a partially present block are in this file, or none is. -/
def Whole : Prop := ∀ b, Used d b → state d file (blockIndex d b) = 7 → ∀ i, i < d.blockSize / d.sectorSize → bit d file b i = bit d file b 0

end Keramics.Spec.Vhdx
