import Verif.Model.Sigscan

/-!
# Specification: the bytes by which formats are recognized
-/

namespace Keramics.Spec
open Keramics.Sigscan (Format)

/-- The bytes of an ASCII text. -/
def ascii (text : String) : List Byte := text.toList.map fun c => BitVec.ofNat 8 c.toNat

/-- The data has the bytes at an offset. -/
def HasAt (data : List Byte) (offset : Nat) (bytes : List Byte) : Prop := (data.drop offset).take bytes.length = bytes

/-- The data has the bytes that a format has at a fixed place, from its start or from its end. Partition tables are in the first or
second sector, with sectors of 512 to 4096 bytes. -/
def HasFormat (data : List Byte) : Format → Prop
  | .apm => HasAt data 560 (ascii "Apple_partition_map" ++ List.replicate 13 0#8)
  | .ext => HasAt data (1024 + 56) [0x53#8, 0xef#8]
  | .ewf => HasAt data 0 (ascii "EVF" ++ [9#8, 13#8, 10#8, 255#8, 0#8])
  | .fat => HasAt data 54 (ascii "FAT12   ") ∨ HasAt data 54 (ascii "FAT16   ") ∨ HasAt data 82 (ascii "FAT32   ")
  | .gpt => ∃ sector, (sector = 512 ∨ sector = 1024 ∨ sector = 2048 ∨ sector = 4096) ∧ HasAt data sector (ascii "EFI PART")
  | .mbr => ∃ sector, (sector = 512 ∨ sector = 1024 ∨ sector = 2048 ∨ sector = 4096) ∧ HasAt data (sector - 2) [0x55#8, 0xaa#8]
  | .ntfs => HasAt data 3 (ascii "NTFS    ")
  | .qcow => ∃ version, (version = 1#8 ∨ version = 2#8 ∨ version = 3#8) ∧ HasAt data 0 (ascii "QFI" ++ [0xfb#8, 0#8, 0#8, 0#8, version])
  | .sparseImage => HasAt data 0 (ascii "sprs")
  | .udif => 512 ≤ data.length ∧ HasAt data (data.length - 512) (ascii "koly")
  | .vhd => 512 ≤ data.length ∧ HasAt data (data.length - 512) (ascii "conectix")
  | .vhdx => HasAt data 0 (ascii "vhdxfile")
  | .unknown => False

end Keramics.Spec
