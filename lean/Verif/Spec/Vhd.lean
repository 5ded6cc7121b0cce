import Verif.Spec.Volumes
import Verif.Spec.Layered

/-!
# Specification: VHD images

From the Virtual Hard Disk Image Format Specification. A footer of 512 bytes is at the end of the file. A fixed disk is stored
at the start of the file. Dynamic and differential disks have a header that gives the place of the block allocation table,
which has the sector of the file a block starts at, or all ones if there is none. A block starts with a bitmap with a bit for
every sector, the highest bit of a byte first, padded to full sectors. A sector whose bit is not set is zeros in a
dynamic disk and that of the parent in a differential disk.
-/

namespace Keramics.Spec.Vhd

/-- Offset of the footer. -/
def footer (file : List Byte) : Nat := file.length - 512

def nextOffset (file : List Byte) : Nat := fieldBe file (footer file + 16) 8

def mediaSize (file : List Byte) : Nat := fieldBe file (footer file + 40) 8

/-- 2 for a fixed, 3 for a dynamic and 4 for a differential disk. -/
def diskType (file : List Byte) : Nat := fieldBe file (footer file + 60) 4

def tableOffset (file : List Byte) : Nat := fieldBe file (nextOffset file + 16) 8

def blocks (file : List Byte) : Nat := fieldBe file (nextOffset file + 28) 4

def blockSize (file : List Byte) : Nat := fieldBe file (nextOffset file + 32) 4

structure FooterOk (file : List Byte) : Prop where
  length : 512 ≤ file.length
  signature : bytesAt file (footer file) 8 = [0x63#8, 0x6f#8, 0x6e#8, 0x65#8, 0x63#8, 0x74#8, 0x69#8, 0x78#8]
  version : fieldBe file (footer file + 12) 4 = 65536
  diskType : diskType file = 2 ∨ diskType file = 3 ∨ diskType file = 4
  next : if Vhd.diskType file = 2 then nextOffset file = 2 ^ 64 - 1 else 512 ≤ nextOffset file

structure HeaderOk (file : List Byte) : Prop where
  length : nextOffset file + 1024 ≤ file.length
  signature : bytesAt file (nextOffset file) 8 = [0x63#8, 0x78#8, 0x73#8, 0x70#8, 0x61#8, 0x72#8, 0x73#8, 0x65#8]
  version : fieldBe file (nextOffset file + 24) 4 = 65536
  next : fieldBe file (nextOffset file + 8) 8 = 2 ^ 64 - 1
  blockSize : blockSize file ≠ 0
  blocks : mediaSize file ≤ blocks file * Vhd.blockSize file

/-- A disk the reader supports. -/
def Supported (file : List Byte) : Prop := FooterOk file ∧ (diskType file ≠ 2 → HeaderOk file)

/-- Size of a bitmap: a bit for every sector, padded to full sectors. -/
def bitmapSize (file : List Byte) : Nat := (blockSize file / 512 / 8 + 511) / 512 * 512

/-- The sector a block starts at. -/
def entry (file : List Byte) (block : Nat) : Nat := fieldBe file (tableOffset file + block * 4) 4

/-- The bit of a sector of a block. -/
def bit (file : List Byte) (block sector : Nat) : Bool :=
  (file.getD (entry file block * 512 + sector / 8) 0#8).getMsbD (sector % 8)

/-- Where data is that the image itself does not have. -/
def absent (file : List Byte) : Source := if diskType file = 3 then .zero else .parent

/-- Where every byte of the media of a dynamic or differential disk is. -/
def source (file : List Byte) (x : Nat) : Source :=
  let block := x / blockSize file
  let offset := x % blockSize file
  if entry file block = 0xffffffff then absent file
  else if bit file block (offset / 512) then .file (entry file block * 512 + bitmapSize file + offset)
  else absent file

/-- What `source` would be if the lowest bit of a byte was the first. -/
def sourceLow (file : List Byte) (x : Nat) : Source :=
  let block := x / blockSize file
  let offset := x % blockSize file
  let sector := offset / 512
  if entry file block = 0xffffffff then absent file
  else if (file.getD (entry file block * 512 + sector / 8) 0#8).getLsbD (sector % 8) then .file (entry file block * 512 + bitmapSize file + offset)
  else absent file

/-- The first bit of every bitmap is the same whichever bit is the first. -/
def FirstSame (file : List Byte) : Prop := ∀ b, b < blocks file → entry file b ≠ 0xffffffff →
  (file.getD (entry file b * 512) 0#8).getLsbD 7 = (file.getD (entry file b * 512) 0#8).getLsbD 0

/-- Bitmaps without padding: blocks are a multiple of 2 MiB, as in all images of common tools. -/
def NoPadding (file : List Byte) : Prop := 2097152 ∣ blockSize file

/-- The bytes of the bitmaps are the same whichever bit is the first. -/
def Symmetric (file : List Byte) : Prop := ∀ b, b < blocks file → entry file b ≠ 0xffffffff → ∀ k, k < bitmapSize file → ∀ j, j < 8 →
  (file.getD (entry file b * 512 + k) 0#8).getLsbD j = (file.getD (entry file b * 512 + k) 0#8).getMsbD j

/-- The bits of a bitmap are all set, or none is. -/
def Whole (file : List Byte) : Prop := ∀ b, b < blocks file → entry file b ≠ 0xffffffff →
  ∀ i, i < blockSize file / 512 → bit file b i = bit file b 0

/-- The table and the bitmaps are inside of the file. -/
def TablesInside (file : List Byte) : Prop := tableOffset file + blocks file * 4 ≤ file.length ∧
  ∀ b, b < blocks file → entry file b ≠ 0xffffffff → entry file b * 512 + bitmapSize file ≤ file.length

end Keramics.Spec.Vhd
