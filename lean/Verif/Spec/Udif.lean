import Verif.Spec.Volumes

/-!
# Specification: UDIF images

The last 512 bytes of a UDIF file (big-endian) have the place of the data fork and of a property list. Without a property
list the media is the data fork. Otherwise the property list has block tables. A block table has the sector of the media it
starts at and entries; an entry has a type, a sector relative to that of the table, a number of sectors of 512 bytes and a
place in the file. The entries follow each other without a gap, so that the media is what they stand for, one after the other.
-/

namespace Keramics.Spec.Udif

/-- A field of the footer. -/
def footer (file : List Byte) (a n : Nat) : Nat := fieldBe file (file.length - 512 + a) n

def forkOffset (file : List Byte) : Nat := footer file 24 8
def forkSize (file : List Byte) : Nat := footer file 32 8
def plistOffset (file : List Byte) : Nat := footer file 216 8
def plistSize (file : List Byte) : Nat := footer file 224 8

/-- The file ends in a footer: "koly", version 4. -/
def FooterOk (file : List Byte) : Prop :=
  512 ≤ file.length ∧ bytesAt file (file.length - 512) 4 = [0x6b#8, 0x6f#8, 0x6c#8, 0x79#8] ∧ footer file 4 4 = 4

/-- The bytes of the property list; what is behind the end of the file is zero. -/
def plistBytes (file : List Byte) : List Byte :=
  (List.range (plistSize file)).map fun i => file.getD (plistOffset file + i) 0#8

/-- An entry of a block table. -/
structure Entry where
  kind : Nat
  start : Nat
  sectors : Nat
  dataOffset : Nat
  dataSize : Nat
deriving DecidableEq, Repr

/-- A block table. -/
structure Table where
  start : Nat
  entries : List Entry
deriving DecidableEq, Repr

/-- The entry at a position in the table. -/
def entryAt (data : List Byte) (a : Nat) : Entry :=
  ⟨fieldBe data a 4, fieldBe data (a + 8) 8, fieldBe data (a + 16) 8, fieldBe data (a + 24) 8, fieldBe data (a + 32) 8⟩

/-- The table stored in bytes: a header of 204 bytes and entries of 40 bytes. -/
def tableOf (data : List Byte) : Table :=
  ⟨fieldBe data 8 8, (List.range (fieldBe data 200 4)).map fun i => entryAt data (204 + 40 * i)⟩

/-- The bytes are those of a table: "mish", version 1, and all entries. -/
def TableOk (data : List Byte) : Prop :=
  204 + 40 * fieldBe data 200 4 ≤ data.length ∧ bytesAt data 0 4 = [0x6d#8, 0x69#8, 0x73#8, 0x68#8] ∧ fieldBe data 4 4 = 1

/-- The entries that stand for a part of the media: those before the terminator that are no comments. -/
def Table.used (t : Table) : List Entry :=
  (t.entries.takeWhile fun e => e.kind ≠ 0xffffffff).filter fun e => e.kind ≠ 0x7ffffffe

/-- The number of sectors of a list of entries. -/
def sectorsOf (es : List Entry) : Nat := (es.map Entry.sectors).sum

/-- All entries. -/
def usedOf (ts : List Table) : List Entry := ts.flatMap Table.used

/-- The entries follow each other from sector `n` of the table. -/
def EntriesFollow : Nat → List Entry → Prop
  | _, [] => True
  | n, e :: es => e.start = n ∧ EntriesFollow (n + e.sectors) es

/-- The tables follow each other from sector `n` of the media. -/
def TablesFollow : Nat → List Table → Prop
  | _, [] => True
  | n, t :: ts => t.start = n ∧ EntriesFollow 0 t.used ∧ TablesFollow (n + sectorsOf t.used) ts

/-- The types of compressed data: ADC, zlib, bzip2 and LZFSE. -/
def Entry.compressed (e : Entry) : Prop := 0x80000004 ≤ e.kind ∧ e.kind ≤ 0x80000007

instance (e : Entry) : Decidable e.compressed := inferInstanceAs (Decidable (_ ∧ _))

/-- The entry has a known type, is not empty and not too large, and its place is in the data fork. -/
def EntryOk (fork size : Nat) (e : Entry) : Prop :=
  (e.kind ≤ 2 ∨ e.compressed ∧ e.sectors ≤ 2048) ∧ 0 < e.sectors ∧
    fork ≤ e.dataOffset ∧ e.dataOffset < fork + size ∧ e.dataOffset + e.dataSize ≤ fork + size

/-- The tables describe a media: the entries are right, follow each other and use one method of compression. -/
def Describes (fork size : Nat) (ts : List Table) : Prop :=
  TablesFollow 0 ts ∧ (∀ e ∈ usedOf ts, EntryOk fork size e) ∧
    ∀ e ∈ usedOf ts, ∀ e' ∈ usedOf ts, e.compressed → e'.compressed → e.kind = e'.kind

/-- What an entry stands for: zeros, bytes of the file or decompressed bytes of the file. -/
def bytesOf (decompress : Nat → List Byte → Nat → R (List Byte)) (file : List Byte) (e : Entry) : List Byte :=
  if e.kind = 1 then (List.range (e.sectors * 512)).map fun i => file.getD (e.dataOffset + i) 0#8
  else if e.compressed then
    match decompress e.kind (bytesAt file e.dataOffset e.dataSize) (e.sectors * 512) with
    | .ok out => out
    | _ => []
  else List.replicate (e.sectors * 512) 0#8

/-- The media. -/
def contents (decompress : Nat → List Byte → Nat → R (List Byte)) (file : List Byte) (ts : List Table) : List Byte :=
  (usedOf ts).flatMap (bytesOf decompress file)

/-- The bytes of an entry are in the file and can be decompressed. -/
def Readable (decompress : Nat → List Byte → Nat → R (List Byte)) (file : List Byte) (e : Entry) : Prop :=
  (e.kind = 1 → e.dataOffset + e.sectors * 512 ≤ file.length) ∧
    (e.compressed → e.dataSize < 2 ^ 32 ∧ e.dataOffset + e.dataSize ≤ file.length ∧
      ∃ out, decompress e.kind (bytesAt file e.dataOffset e.dataSize) (e.sectors * 512) = .ok out ∧ out.length = e.sectors * 512)

/-- Compressed entries at the same place are the same data. -/
def Consistent (ts : List Table) : Prop :=
  ∀ e ∈ usedOf ts, ∀ e' ∈ usedOf ts, e.compressed → e'.compressed → e.dataOffset = e'.dataOffset →
    e.sectors = e'.sectors ∧ e.dataSize = e'.dataSize

/-- The first sector of each entry, and the entry. -/
def placed : Nat → List Entry → List (Nat × Entry)
  | _, [] => []
  | n, e :: es => (n, e) :: placed (n + e.sectors) es

/-- The entries fit in windows of 16384 sectors. -/
def Windowed (ts : List Table) : Prop :=
  sectorsOf (usedOf ts) ≤ 16384 ∨
    ∀ p ∈ placed 0 (usedOf ts), p.2.sectors < 16384 ∧ p.1 / 16384 = (p.1 + p.2.sectors - 1) / 16384

end Keramics.Spec.Udif
