import Verif.Spec.Volumes
import Verif.Spec.Layered

/-!
# Specification: QCOW images

From the QCOW and QCOW2 format documentation. The header has big-endian fields. A position of the media is split into an
index of the level 1 table, an index of a level 2 table and an offset in a cluster. A level 1 entry gives the place of a
level 2 table, a level 2 entry gives the place of a cluster; an entry without a place means that the data is that of the
backing file, or zeros if there is none.
-/

namespace Keramics.Spec.Qcow

def version (file : List Byte) : Nat := fieldBe file 4 4

def clusterBits (file : List Byte) : Nat := if version file = 1 then fieldBe file 32 1 else fieldBe file 20 4

/-- In version 2 and 3 a level 2 table is one cluster of 8-byte entries. -/
def l2Bits (file : List Byte) : Nat := if version file = 1 then fieldBe file 33 1 else clusterBits file - 3

def mediaSize (file : List Byte) : Nat := fieldBe file 24 8

/-- Size of a cluster. -/
def cluster (file : List Byte) : Nat := 2 ^ clusterBits file

/-- The number of bytes of the media one level 1 entry is for. -/
def span (file : List Byte) : Nat := 2 ^ (clusterBits file + l2Bits file)

def l1Offset (file : List Byte) : Nat := fieldBe file 40 8

/-- In version 1 the number of level 1 entries follows from the size of the media. -/
def l1Entries (file : List Byte) : Nat :=
  if version file = 1 then (mediaSize file + span file - 1) / span file else fieldBe file 36 4

/-- There is the name of a backing file. -/
def hasBacking (file : List Byte) : Bool := decide (0 < fieldBe file 8 8 ∧ 0 < fieldBe file 16 4)

def headerSize (file : List Byte) : Nat :=
  if version file = 1 then 48 else if version file = 2 then 72 else fieldBe file 100 4

/-- A header the reader supports: no encryption and no unknown features, and sizes that make sense. -/
structure Supported (file : List Byte) : Prop where
  length : 112 ≤ file.length
  signature : bytesAt file 0 4 = [0x51#8, 0x46#8, 0x49#8, 0xfb#8]
  version : version file = 1 ∨ version file = 2 ∨ version file = 3
  clusterBits : clusterBits file ≤ 63 ∧ (Qcow.version file ≠ 1 → 9 ≤ Qcow.clusterBits file)
  l2Bits : l2Bits file ≤ 63
  bits : Qcow.clusterBits file + Qcow.l2Bits file ≤ 63
  features : Qcow.version file = 3 → fieldBe file 72 8 ≤ 1 ∧ fieldBe file 80 8 ≤ 1
  headerSize : Qcow.version file = 3 → fieldBe file 100 4 = 104 ∨ fieldBe file 100 4 = 112
  l1Entries : Qcow.version file = 1 → l1Entries file < 2 ^ 32
  name : hasBacking file = true → Qcow.headerSize file ≤ fieldBe file 8 8 ∧ fieldBe file 16 4 ≤ 65536 ∧
    fieldBe file 8 8 + fieldBe file 16 4 ≤ file.length
  encryption : (if Qcow.version file = 1 then fieldBe file 36 4 else fieldBe file 32 4) = 0

/-- The place in an entry: bits 9 to 55, and in version 1 all bits but the highest. -/
def place (file : List Byte) (entry : Nat) : Nat :=
  if version file = 1 then entry % 2 ^ 63 else entry / 2 ^ 9 % 2 ^ 47 * 2 ^ 9

/-- The reserved bits of an entry of version 2 and 3 are zero. -/
def Clean (file : List Byte) (entry : Nat) : Prop := version file ≠ 1 → entry % 2 ^ 9 = 0 ∧ entry / 2 ^ 56 % 2 ^ 6 = 0

/-- The entry is of a cluster that is not compressed: the flag is bit 62, and in version 1 bit 63. -/
def Uncompressed (file : List Byte) (entry : Nat) : Prop :=
  if version file = 1 then entry / 2 ^ 63 = 0 else entry / 2 ^ 62 % 2 = 0

/-- Offset of the level 1 entry for a position of the media. -/
def l1Place (file : List Byte) (x : Nat) : Nat := l1Offset file + x / span file * 8

def l1Entry (file : List Byte) (x : Nat) : Nat := fieldBe file (l1Place file x) 8

/-- Offset of the level 2 entry for a position of the media. -/
def l2Place (file : List Byte) (x : Nat) : Nat :=
  place file (l1Entry file x) + x / cluster file % 2 ^ l2Bits file * 8

def l2Entry (file : List Byte) (x : Nat) : Nat := fieldBe file (l2Place file x) 8

/-- Where data is that the image itself does not have. -/
def absent (file : List Byte) : Source := if hasBacking file then .parent else .zero

/-- Where every byte of the media is, for images without compressed clusters. In version 3 bit 0 of a level 2 entry says
that the cluster is zeros. -/
def source (file : List Byte) (x : Nat) : Source :=
  if place file (l1Entry file x) = 0 then absent file
  else if version file = 3 ∧ l2Entry file x % 2 = 1 then .zero
  else if place file (l2Entry file x) = 0 then absent file
  else .file (place file (l2Entry file x) + x % cluster file)

/-- The level 1 table is large enough for the media. -/
def Covered (file : List Byte) : Prop := mediaSize file ≤ l1Entries file * span file

/-- The entries of all positions of the media have no reserved bits and no compression. -/
def Plain (file : List Byte) : Prop := ∀ x, x < mediaSize file → Clean file (l1Entry file x) ∧
  (place file (l1Entry file x) ≠ 0 → Clean file (l2Entry file x) ∧ Uncompressed file (l2Entry file x))

/-- Every part of the media has a level 2 table. -/
def Full (file : List Byte) : Prop := ∀ x, x < mediaSize file → place file (l1Entry file x) ≠ 0

/-- The tables are inside of the file. -/
def TablesInside (file : List Byte) : Prop := ∀ x, x < mediaSize file → l1Place file x + 8 ≤ file.length ∧
  (place file (l1Entry file x) ≠ 0 → l2Place file x + 8 ≤ file.length)

end Keramics.Spec.Qcow
