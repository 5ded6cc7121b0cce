import Verif.Spec.Volumes
import Verif.Spec.Types

/-!
# Specification: the structures at the start of a VHDX file

From [MS-VHDX]. The file starts with a signature. Two copies of the header follow, at 64 KiB and 128 KiB, and two copies of the region
table, at 192 KiB and 256 KiB: a writer changes one copy at a time, so that after a crash one of them is still good. Of the good
headers the one with the larger sequence number is in use. The region table tells where the table of the blocks and the metadata are;
the metadata are items with an identifier each.
-/

namespace Keramics.Spec.VhdxFile

/-- A GUID in a file, from its bytes as written in its text. -/
def guid (b : List Nat) : List Byte := guidBytes (b.map (BitVec.ofNat 8))

/-- 2DC27766-F623-4200-9D64-115E9BFD4A08 -/
def batRegion := guid [0x2d, 0xc2, 0x77, 0x66, 0xf6, 0x23, 0x42, 0x00, 0x9d, 0x64, 0x11, 0x5e, 0x9b, 0xfd, 0x4a, 0x08]
/-- 8B7CA206-4790-4B9A-B8FE-575F050F886E -/
def metadataRegion := guid [0x8b, 0x7c, 0xa2, 0x06, 0x47, 0x90, 0x4b, 0x9a, 0xb8, 0xfe, 0x57, 0x5f, 0x05, 0x0f, 0x88, 0x6e]
/-- CAA16737-FA36-4D43-B3B6-33F0AA44E76B -/
def parametersItem := guid [0xca, 0xa1, 0x67, 0x37, 0xfa, 0x36, 0x4d, 0x43, 0xb3, 0xb6, 0x33, 0xf0, 0xaa, 0x44, 0xe7, 0x6b]
/-- 2FA54224-CD1B-4876-B211-5DBED83BF4B8 -/
def diskSizeItem := guid [0x2f, 0xa5, 0x42, 0x24, 0xcd, 0x1b, 0x48, 0x76, 0xb2, 0x11, 0x5d, 0xbe, 0xd8, 0x3b, 0xf4, 0xb8]
/-- BECA12AB-B2E6-4523-93EF-C309E000C746 -/
def diskIdItem := guid [0xbe, 0xca, 0x12, 0xab, 0xb2, 0xe6, 0x45, 0x23, 0x93, 0xef, 0xc3, 0x09, 0xe0, 0x00, 0xc7, 0x46]
/-- 8141BF1D-A96F-4709-BA47-F233A8FAAB5F -/
def logicalItem := guid [0x81, 0x41, 0xbf, 0x1d, 0xa9, 0x6f, 0x47, 0x09, 0xba, 0x47, 0xf2, 0x33, 0xa8, 0xfa, 0xab, 0x5f]
/-- CDA348C7-445D-4471-9CC9-E9885251C556 -/
def physicalItem := guid [0xcd, 0xa3, 0x48, 0xc7, 0x44, 0x5d, 0x44, 0x71, 0x9c, 0xc9, 0xe9, 0x88, 0x52, 0x51, 0xc5, 0x56]
/-- A8D35F2D-B30B-454D-ABF7-D3D84834AB0C -/
def locatorItem := guid [0xa8, 0xd3, 0x5f, 0x2d, 0xb3, 0x0b, 0x45, 0x4d, 0xab, 0xf7, 0xd3, 0xd8, 0x48, 0x34, 0xab, 0x0c]
/-- The only kind of parent locators: B04AEFB7-D19E-4A81-B789-25B8E9445913 -/
def locatorKind := guid [0xb0, 0x4a, 0xef, 0xb7, 0xd1, 0x9e, 0x4a, 0x81, 0xb7, 0x89, 0x25, 0xb8, 0xe9, 0x44, 0x59, 0x13]

/-- The bytes of an ASCII text. -/
def ascii (s : String) : List Byte := s.toList.map fun c => BitVec.ofNat 8 c.toNat

variable (file : List Byte)

/-- The checksum at 4 of a structure is its CRC-32C, with zeros for the checksum itself; a stored checksum of 0 is not compared if `lax`. -/
def Checksum (lax : Bool) (d : List Byte) : Prop :=
  field d 4 4 = (crc32Reflected 0x82f63b78#32 0#32 (bytesAt d 0 4 ++ List.replicate 4 0#8 ++ d.drop 8)).toNat ∨ (lax = true ∧ field d 4 4 = 0)

/-- A good copy of the header. -/
structure HeaderOk (lax : Bool) (pos : Nat) : Prop where
  inside : pos + 4096 ≤ file.length
  signature : bytesAt file pos 4 = ascii "head"
  checksum : Checksum lax (bytesAt file pos 4096)

/-- A good copy of the region table. -/
structure RegionsOk (lax : Bool) (pos : Nat) : Prop where
  inside : pos + 65536 ≤ file.length
  signature : bytesAt file pos 4 = ascii "regi"
  checksum : Checksum lax (bytesAt file pos 65536)
  number : field file (pos + 8) 4 ≤ 2047

def header1 : Nat := 64 * 1024
def header2 : Nat := 128 * 1024
def regions1 : Nat := 192 * 1024
def regions2 : Nat := 256 * 1024

/-- The header in use, if both are good. -/
def current : Nat := if field file (header2 + 8) 8 < field file (header1 + 8) 8 then header1 else header2

/-- Of `n` entries of 32 bytes from `first` on, the last that starts with an identifier. -/
def lastEntry (first n : Nat) (id : List Byte) : Option (List Byte) :=
  ((List.range n).map fun i => bytesAt file (first + 32 * i) 32).reverse.find? fun e => bytesAt e 0 16 = id

/-- Offset and size of a region. -/
def region (id : List Byte) : Option (Nat × Nat) :=
  (lastEntry file (regions1 + 16) (field file (regions1 + 8) 4) id).map fun e => (field e 16 8, field e 24 4)

/-- Where the metadata are. -/
def base : Nat := ((region file metadataRegion).map Prod.fst).getD 0

/-- The number of items. -/
def items : Nat := field file (base file + 10) 2

/-- Where an item is in the file, and its size. -/
def item (id : List Byte) : Option (Nat × Nat) :=
  (lastEntry file (base file + 32) (items file) id).map fun e => (base file + field e 16 4, field e 20 4)

/-- `n` bytes of an item as a number, from `offset` on. -/
def itemValue (id : List Byte) (offset n : Nat) : Nat :=
  match item file id with
  | some (o, _) => field file (o + offset) n
  | none => 0

def blockSize : Nat := itemValue file parametersItem 0 4
def flags : Nat := itemValue file parametersItem 4 4
def mediaSize : Nat := itemValue file diskSizeItem 0 8
def sectorSize : Nat := itemValue file logicalItem 0 4

/-- The texts before the first zero, in units of 16 bits. -/
def words (b : List Byte) : List Nat := (unitsLe b).takeWhile (· ≠ 0)

/-- Entry `i` of a parent locator `d`: the places of a key and of a value. -/
def keyPlace (d : List Byte) (i : Nat) : Nat × Nat := (field d (20 + 12 * i) 4, field d (20 + 12 * i + 8) 2)
def valuePlace (d : List Byte) (i : Nat) : Nat × Nat := (field d (20 + 12 * i + 4) 4, field d (20 + 12 * i + 10) 2)

def PlaceOk (d : List Byte) (p : Nat × Nat) : Prop := 20 ≤ p.1 ∧ p.1 < d.length ∧ p.1 + p.2 ≤ d.length

/-- A parent locator that can be read. -/
structure LocatorOk (d : List Byte) : Prop where
  size : 20 ≤ d.length ∧ d.length ≤ 65536
  kind : bytesAt d 0 16 = locatorKind
  inside : ∀ i, i < field d 18 2 → 20 + 12 * (i + 1) ≤ d.length ∧ PlaceOk d (keyPlace d i) ∧ PlaceOk d (valuePlace d i)

/-- The keys and values of a parent locator. -/
def pairs (d : List Byte) : List (List Nat × List Nat) :=
  (List.range (field d 18 2)).map fun i =>
    (words (bytesAt d (keyPlace d i).1 (keyPlace d i).2), words (bytesAt d (valuePlace d i).1 (valuePlace d i).2))

/-- The parent locator of a file. -/
def locator : Option (List Byte) := (item file locatorItem).map fun p => bytesAt file p.1 p.2

/-- The last value with a key. -/
def parentValue (key : String) : Option (List Nat) :=
  (locator file).bind fun d => ((pairs d).reverse.find? fun p => p.1 = key.toList.map Char.toNat).map Prod.snd

/-- A UUID in braces, and the hyphenated form in it. -/
def Braced (s : List Nat) (t : List Byte) : Prop := isUuidText t ∧ s = [0x7b] ++ t.map BitVec.toNat ++ [0x7d]

/-- All texts of a parent locator have an even number of bytes, and the identifier in it is a UUID in braces. -/
structure Texts : Prop where
  even : ∀ d, locator file = some d → ∀ i, i < field d 18 2 → (keyPlace d i).2 % 2 = 0 ∧ (valuePlace d i).2 % 2 = 0
  linkage : ∀ s, parentValue file "parent_linkage" = some s → ∃ t, Braced s t

/-- What a file needs apart from the copies of the header and of the region table. -/
structure Contents : Prop where
  signature : bytesAt file 0 8 = ascii "vhdxfile"
  metadata : ∃ o n, region file metadataRegion = some (o, n) ∧ 65536 ≤ n ∧ o + 65536 ≤ file.length ∧ bytesAt file o 8 = ascii "metadata"
  offsets : ∀ i, i < items file → 65536 ≤ field file (base file + 32 + 32 * i + 16) 4
  parameters : ∃ o, item file parametersItem = some (o, 8)
  blockSize : 2 ^ 20 ≤ blockSize file ∧ blockSize file ≤ 2 ^ 28
  diskSize : ∃ o, item file diskSizeItem = some (o, 8)
  logical : ∃ o, item file logicalItem = some (o, 4)
  sectorSize : sectorSize file = 512 ∨ sectorSize file = 4096
  physical : ∀ o n, item file physicalItem = some (o, n) → n = 4 ∧ (field file o 4 = 512 ∨ field file o 4 = 4096)
  diskId : ∃ o, item file diskIdItem = some (o, 16)
  locator : ∀ o n, item file locatorItem = some (o, n) → o + n ≤ file.length ∧ LocatorOk (bytesAt file o n)
  table : ∃ o n, region file batRegion = some (o, n) ∧ mediaSize file ≤ n / 8 * VhdxFile.blockSize file

/-- A good file: both copies of the header and of the region table are good. -/
structure Valid (lax : Bool) : Prop where
  contents : Contents file
  header1 : HeaderOk file lax header1
  header2 : HeaderOk file lax header2
  regions1 : RegionsOk file lax regions1
  regions2 : RegionsOk file lax regions2

/-- The name of the parent: of the texts for different ways to find it the first that is there. -/
def parentName : Option (List Nat) :=
  (parentValue file "absolute_win32_path").or ((parentValue file "volume_path").or (parentValue file "relative_path"))

/-- `t` is what follows the last backslash of `s`. -/
def FileName (s t : List Nat) : Prop := 0x5c ∉ t ∧ (s = t ∨ ∃ p, s = p ++ [0x5c] ++ t)

end Keramics.Spec.VhdxFile
