import Verif.Base.Ints
import Verif.Spec.Crc32

/-!
# Specification: GPT, MBR and APM tables

After the UEFI specification (GPT), the customary MBR layout and Apple's partition map. A volume is its bytes.
-/

namespace Keramics.Spec

/-- Some bytes of a volume. -/
def bytesAt (volume : List Byte) (offset n : Nat) : List Byte := (volume.drop offset).take n

/-- An unsigned little-endian field. -/
def field (data : List Byte) (offset n : Nat) : Nat := leNat (bytesAt data offset n)

/-- An unsigned big-endian field. -/
def fieldBe (data : List Byte) (offset n : Nat) : Nat := beNat (bytesAt data offset n)

/-- The CRC-32 used by GPT. -/
def gptCrc (data : List Byte) : Nat := (crc32Reflected 0xedb88320#32 0#32 data).toNat

namespace Gpt

/-- A header in its 92 bytes: signature "EFI PART", version 1.0, size, and the checksum (over the header with the checksum
itself 0); a stored checksum of 0 is not compared if `lax`. -/
def HeaderOk (lax : Bool) (h : List Byte) : Prop :=
  h.length = 92 ∧ bytesAt h 0 8 = [0x45#8, 0x46#8, 0x49#8, 0x20#8, 0x50#8, 0x41#8, 0x52#8, 0x54#8] ∧ field h 8 4 = 0x10000 ∧
    field h 12 4 = 92 ∧
    (field h 16 4 = gptCrc (bytesAt h 0 16 ++ List.replicate 4 0#8 ++ bytesAt h 20 72) ∨ (lax = true ∧ field h 16 4 = 0))

/-- The header of a volume with `bps` bytes per sector, in sector 1. -/
def header (volume : List Byte) (bps : Nat) : List Byte := bytesAt volume bps 92

/-- Entry `i` of the table. -/
def entry (volume : List Byte) (bps i : Nat) : List Byte := bytesAt volume (field (header volume bps) 72 8 * bps + 128 * i) 128

/-- The number of entries. -/
def number (volume : List Byte) (bps : Nat) : Nat := field (header volume bps) 80 4

/-- An entry is in use if its type is not all zeros. -/
def used (e : List Byte) : Bool := bytesAt e 0 16 ≠ List.replicate 16 0#8

/-- The partitions: index, type, identifier, first and last sector of every entry in use. -/
def partitions (volume : List Byte) (bps : Nat) : List (Nat × List Byte × List Byte × Nat × Nat) :=
  (List.range (number volume bps)).filterMap fun i =>
    let e := entry volume bps i
    if used e then some (i, bytesAt e 0 16, bytesAt e 16 16, field e 32 8, field e 40 8) else none

/-- The checksum of all entries matches; a stored checksum of 0 is not compared if `lax`. -/
def EntriesOk (lax : Bool) (volume : List Byte) (bps : Nat) : Prop :=
  field (header volume bps) 88 4 = gptCrc ((List.range (number volume bps)).flatMap (entry volume bps)) ∨
    (lax = true ∧ field (header volume bps) 88 4 = 0)

end Gpt

namespace Mbr

/-- Entry `i` of the boot record at an offset. -/
def entry (volume : List Byte) (offset i : Nat) : List Byte := bytesAt volume (offset + 446 + 16 * i) 16

/-- The type of an entry. -/
def kind (e : List Byte) : Nat := field e 4 1

/-- There is a boot record at an offset: 512 bytes that end with a signature. -/
def Record (volume : List Byte) (offset : Nat) : Prop :=
  offset + 512 ≤ volume.length ∧ bytesAt volume (offset + 510) 2 = [0x55#8, 0xaa#8]

/-- The entries of the master boot record that are partitions: not empty and not an extended partition. -/
def primary (volume : List Byte) : List (List Byte) :=
  ((List.range 4).map (entry volume 0)).filter fun e => kind e ≠ 0 ∧ kind e ≠ 5 ∧ kind e ≠ 15

/-- The entries of an extended boot record that are partitions: not empty and not a link. -/
def logical (volume : List Byte) (offset : Nat) : List (List Byte) :=
  ((List.range 4).map (entry volume offset)).filter fun e => kind e ≠ 0 ∧ kind e ≠ 5

/-- The entries of the master boot record for an extended partition. -/
def extended (volume : List Byte) : List (List Byte) :=
  ((List.range 4).map (entry volume 0)).filter fun e => kind e = 5 ∨ kind e = 15

/-- The entries of an extended boot record that link to the next one. -/
def links (volume : List Byte) (offset : Nat) : List (List Byte) :=
  ((List.range 4).map (entry volume offset)).filter fun e => kind e = 5

/-- A chain of extended boot records from an offset on. A link is relative to the first extended boot record. -/
inductive Chain (volume : List Byte) (bps first : Nat) : Nat → List Nat → Prop
  | last (offset : Nat) : Record volume offset → links volume offset = [] → Chain volume bps first offset [offset]
  | next (offset : Nat) (e : List Byte) (rest : List Nat) : Record volume offset → links volume offset = [e] →
      Chain volume bps first (first + field e 8 4 * bps) rest → Chain volume bps first offset (offset :: rest)

/-- How the sector size is found: it is set beforehand, or it is the smallest supported one that has a signature in the
first extended boot record. -/
def SectorSize (volume : List Byte) (lba bps set : Nat) : Prop :=
  set = bps ∧ bps ≠ 0 ∧ bps ≤ 65535 ∨
  set = 0 ∧ bps ∈ [512, 1024, 2048, 4096] ∧ ∀ b ∈ [512, 1024, 2048, 4096], b < bps → bytesAt volume (lba * b + 510) 2 ≠ [0x55#8, 0xaa#8]

/-- Offset and size of every partition: primary ones are relative to the volume, logical ones to their own extended boot
record. -/
def locations (volume : List Byte) (bps : Nat) (offsets : List Nat) : List (Nat × Nat) :=
  (primary volume).map (fun e => (field e 8 4 * bps, field e 12 4 * bps)) ++
    offsets.flatMap fun o => (logical volume o).map fun e => (o + field e 8 4 * bps, field e 12 4 * bps)

end Mbr

namespace Apm

/-- Entry `i` of the partition map, in sector `i + 1`. -/
def entry (volume : List Byte) (i : Nat) : List Byte := bytesAt volume (512 * (i + 1)) 512

/-- "Apple_partition_map" in ASCII. -/
def mapType : List Byte := "Apple_partition_map".toList.map fun c => BitVec.ofNat 8 c.toNat

/-- A partition map of `n` entries: each has the signature "PM" and the number of entries, and the first is the map
itself. -/
def Map (volume : List Byte) (n : Nat) : Prop :=
  0 < n ∧ 512 * (n + 1) ≤ volume.length ∧
    (∀ i, i < n → bytesAt (entry volume i) 0 2 = [0x50#8, 0x4d#8] ∧ fieldBe (entry volume i) 4 4 = n) ∧
    ∃ rest, bytesAt (entry volume 0) 48 32 = mapType ++ 0#8 :: rest

end Apm
end Keramics.Spec
