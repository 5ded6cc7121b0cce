import Verif.Spec.Volumes

/-!
# Specification: sparse disk images

A sparse image stores its media in bands. The header (64 bytes, big-endian) has the number of sectors of 512 bytes in a
band and the number of sectors of the media; it is followed by a table with one number for each band stored behind the
first 4096 bytes: the number of the media band, from 1, or 0 if the place is not used.
-/

namespace Keramics.Spec.SparseImage

/-- The size of a band. -/
def bandSize (file : List Byte) : Nat := fieldBe file 8 4 * 512

/-- The number of sectors of the media. -/
def sectors (file : List Byte) : Nat := fieldBe file 16 4

/-- The number of bands: enough for all sectors. -/
def bands (file : List Byte) : Nat := (sectors file + fieldBe file 8 4 - 1) / fieldBe file 8 4

/-- The media band stored in place `i`, counted from 1. -/
def number (file : List Byte) (i : Nat) : Nat := fieldBe file (64 + 4 * i) 4

/-- The place of a media band, if it has one. -/
def place (file : List Byte) (b : Nat) : Option Nat := (List.range (bands file)).find? fun i => number file i = b + 1

/-- The byte of the media at a position. -/
def byteAt (file : List Byte) (x : Nat) : Byte := match place file (x / bandSize file) with
  | some i => file.getD (4096 + i * bandSize file + x % bandSize file) 0#8
  | none => 0#8

/-- The media. -/
def contents (file : List Byte) : List Byte := (List.range (sectors file * 512)).map (byteAt file)

/-- The header is one: signature "sprs", a band has sectors and less than 4 GiB, and the table fits in the first 4096 bytes. -/
def HeaderOk (file : List Byte) : Prop :=
  4096 ≤ file.length ∧ bytesAt file 0 4 = [0x73#8, 0x70#8, 0x72#8, 0x73#8] ∧ 0 < bandSize file ∧ bandSize file < 2 ^ 32 ∧
    64 + 4 * bands file ≤ 4096

/-- Every place has a band of the media, and no two places the same. -/
def TableOk (file : List Byte) : Prop :=
  ∀ i, i < bands file → number file i ≤ bands file ∧ ∀ j, j < i → number file j = number file i → number file i = 0

/-- What is stored is inside of the file. -/
def Inside (file : List Byte) : Prop :=
  ∀ x i, x < sectors file * 512 → place file (x / bandSize file) = some i →
    4096 + i * bandSize file + x % bandSize file < file.length

end Keramics.Spec.SparseImage
