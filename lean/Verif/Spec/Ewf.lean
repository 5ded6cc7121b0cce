import Verif.Spec.Adler32
import Verif.Spec.Volumes

/-!
# Specification: EWF images

An image is one or more segment files. A segment file has a header of 13 bytes and sections. A section has a header of 76 bytes
(little-endian) with its type, the offset of the next section and an Adler-32; the sections "done" and "next" are the last ones.
A section "volume" or "disk" of the first segment has the size of the media, of the sectors and of the chunks. A section "table"
has the offsets of chunks: 31 bits of offset and one that is set for a compressed chunk. In segment files of more than 2 GiB the
offsets grow beyond 31 bits: from the first one on, whose lower 31 bits are not larger than the offset before it, they are 32 bits
and the chunks are not compressed. A chunk ends where the next one starts, the last one at the end of the section "sectors" before
the table, or of the table if there is none. The chunks of the media are those of all tables of all segments, in order.
-/

namespace Keramics.Spec.Ewf

/-- A section: where it starts, its type, and where the next one starts. -/
structure Section where
  start : Nat
  kind : List Byte
  next : Nat
deriving DecidableEq, Repr

/-- A type of section: padded to 16 bytes. -/
def kind (name : List Byte) : List Byte := name ++ List.replicate (16 - name.length) 0#8

def done : List Byte := kind [0x64#8, 0x6f#8, 0x6e#8, 0x65#8]
def next : List Byte := kind [0x6e#8, 0x65#8, 0x78#8, 0x74#8]
def disk : List Byte := kind [0x64#8, 0x69#8, 0x73#8, 0x6b#8]
def volumeKind : List Byte := kind [0x76#8, 0x6f#8, 0x6c#8, 0x75#8, 0x6d#8, 0x65#8]
def sectorsKind : List Byte := kind [0x73#8, 0x65#8, 0x63#8, 0x74#8, 0x6f#8, 0x72#8, 0x73#8]
def tableKind : List Byte := kind [0x74#8, 0x61#8, 0x62#8, 0x6c#8, 0x65#8]

/-- The section at a position of a segment file. -/
def sectionAt (file : List Byte) (o : Nat) : Section := ⟨o, bytesAt file o 16, field file (o + 16) 8⟩

/-- The sections from a position on. -/
def sectionsFrom (file : List Byte) : Nat → Nat → List Section
  | 0, _ => []
  | n + 1, o =>
    if o < file.length then
      if (sectionAt file o).kind = done ∨ (sectionAt file o).kind = next then [sectionAt file o]
      else sectionAt file o :: sectionsFrom file n (sectionAt file o).next
    else []

/-- The sections of a segment file. -/
def sections (file : List Byte) : List Section := sectionsFrom file file.length 13

/-- The segment is the last one. -/
def IsLast (file : List Byte) : Prop := ∃ s ∈ sections file, s.kind = done

/-- The sections "done" and "next" point to themselves and end the segment file; every other one ends where the next one starts,
inside the file. The size of a section is the one it has, or not given. -/
def SectionLaid (file : List Byte) (s : Section) : Prop :=
  if s.kind = done ∨ s.kind = next then
    s.next = s.start ∧ s.start + 76 = file.length ∧ (field file (s.start + 24) 8 = 0 ∨ field file (s.start + 24) 8 = 76)
  else
    s.start + 76 ≤ s.next ∧ s.next ≤ file.length ∧ (field file (s.start + 24) 8 = 0 ∨ s.start + field file (s.start + 24) 8 = s.next)

/-- A segment file of a number: "EVF", 9, 13, 10, 255 and 0, then 1, the number and two zero bytes; then sections. -/
def Laid (number : Nat) (file : List Byte) : Prop :=
  bytesAt file 0 8 = [0x45#8, 0x56#8, 0x46#8, 0x09#8, 0x0d#8, 0x0a#8, 0xff#8, 0x00#8] ∧ field file 8 1 = 1 ∧ field file 9 2 = number ∧
    field file 11 2 = 0 ∧ ∀ s ∈ sections file, SectionLaid file s

/-- The bytes have an Adler-32 behind them. -/
def Checked (file : List Byte) (o n : Nat) : Prop := field file (o + n) 4 = adler32 1 ((bytesAt file o n).map BitVec.toNat)

/-- The values of the volume section. -/
structure Volume where
  chunks : Nat
  sectorsPerChunk : Nat
  bytesPerSector : Nat
  sectors : Nat
deriving DecidableEq, Repr

/-- The volume stored at a position. -/
def volumeAt (file : List Byte) (o : Nat) : Volume := ⟨field file (o + 4) 4, field file (o + 8) 4, field file (o + 12) 4, field file (o + 16) 4⟩

/-- The last volume of sections. -/
def volumeFrom (file : List Byte) (v : Volume) : List Section → Volume
  | [] => v
  | s :: rest => if s.kind = disk ∨ s.kind = volumeKind then volumeFrom file (volumeAt file (s.start + 76)) rest else volumeFrom file v rest

/-- The volume of an image. -/
def volume (segments : List (List Byte)) : Volume := volumeFrom (segments.getD 0 []) ⟨0, 0, 0, 0⟩ (sections (segments.getD 0 []))

def Volume.chunkSize (v : Volume) : Nat := v.sectorsPerChunk * v.bytesPerSector
def Volume.mediaSize (v : Volume) : Nat := v.sectors * v.bytesPerSector

/-- The tables of sections: where the table is and where its last chunk ends. -/
def tablesFrom (sectors : Option Nat) : List Section → List (Nat × Nat)
  | [] => []
  | s :: rest =>
    if s.kind = sectorsKind then tablesFrom (some s.next) rest
    else if s.kind = tableKind then (s.start + 76, sectors.getD s.next) :: tablesFrom sectors rest
    else tablesFrom sectors rest

/-- A chunk: its segment (from 1), its offset and size there, and if it is compressed. -/
structure Chunk where
  segment : Nat
  offset : Nat
  size : Nat
  compressed : Bool
deriving DecidableEq, Repr

/-- The entries of a table. -/
def entries (file : List Byte) (o : Nat) : List Nat := (List.range (field file o 4)).map fun i => field file (o + 24 + 4 * i) 4

/-- The relative offsets of entries behind an entry of offset `previous`; `wide` if the offsets have 32 bits. -/
def placesFrom (previous : Nat) (wide : Bool) : List Nat → List (Nat × Bool)
  | [] => []
  | e :: es =>
    if wide = false ∧ previous < e % 2 ^ 31 then (e % 2 ^ 31, decide (2 ^ 31 ≤ e)) :: placesFrom (e % 2 ^ 31) false es
    else (e, false) :: placesFrom e true es

/-- The relative offsets of entries. -/
def places : List Nat → List (Nat × Bool)
  | [] => []
  | e :: es => (e % 2 ^ 31, decide (2 ^ 31 ≤ e)) :: placesFrom (e % 2 ^ 31) false es

/-- The chunks of relative offsets. -/
def chunksOf (segment base last : Nat) : List (Nat × Bool) → List Chunk
  | [] => []
  | [p] => [⟨segment, base + p.1, last - (base + p.1), p.2⟩]
  | p :: q :: rest => ⟨segment, base + p.1, q.1 - p.1, p.2⟩ :: chunksOf segment base last (q :: rest)

/-- The chunks of a table. -/
def tableChunks (segment : Nat) (file : List Byte) (t : Nat × Nat) : List Chunk :=
  chunksOf segment (field file (t.1 + 8) 8) t.2 (places (entries file t.1))

/-- The chunks of a segment. -/
def segmentChunks (segment : Nat) (file : List Byte) : List Chunk :=
  (tablesFrom none (sections file)).flatMap (tableChunks segment file)

/-- The chunks of segments, the first of which has number `k`. -/
def chunksFrom : Nat → List (List Byte) → List Chunk
  | _, [] => []
  | k, file :: rest => segmentChunks k file ++ chunksFrom (k + 1) rest

/-- The chunks of an image. -/
def chunks (segments : List (List Byte)) : List Chunk := chunksFrom 1 segments

/-- The file of a segment. -/
def segmentFile (segments : List (List Byte)) (k : Nat) : List Byte := segments.getD (k - 1) []

/-- The bytes of a compressed chunk. -/
def decompressed (decompress : List Byte → Nat → R (List Byte)) (segments : List (List Byte)) (c : Chunk) : List Byte :=
  match decompress (bytesAt (segmentFile segments c.segment) c.offset c.size) (volume segments).chunkSize with
  | .ok out => out
  | _ => []

/-- A byte of the media: of the chunk it is in, as stored in the file of its segment. -/
def byteAt (decompress : List Byte → Nat → R (List Byte)) (segments : List (List Byte)) (x : Nat) : Byte :=
  match (chunks segments)[x / (volume segments).chunkSize]? with
  | none => 0#8
  | some c =>
    if c.compressed then (decompressed decompress segments c).getD (x % (volume segments).chunkSize) 0#8
    else (segmentFile segments c.segment).getD (c.offset + x % (volume segments).chunkSize) 0#8

/-- The media. -/
def contents (decompress : List Byte → Nat → R (List Byte)) (segments : List (List Byte)) : List Byte :=
  (List.range (volume segments).mediaSize).map (byteAt decompress segments)

/-- Every byte of the media is in a chunk; the chunk is in its segment file, and a compressed one can be decompressed. -/
def Readable (decompress : List Byte → Nat → R (List Byte)) (segments : List (List Byte)) : Prop :=
  ∀ x, x < (volume segments).mediaSize → ∃ c, (chunks segments)[x / (volume segments).chunkSize]? = some c ∧
    (c.compressed = false → c.offset + x % (volume segments).chunkSize < (segmentFile segments c.segment).length) ∧
    (c.compressed = true → c.size < 2 ^ 32 ∧ c.offset + c.size ≤ (segmentFile segments c.segment).length ∧
      ∃ out, decompress (bytesAt (segmentFile segments c.segment) c.offset c.size) (volume segments).chunkSize = .ok out ∧
        out.length = (volume segments).chunkSize)

/-- No two compressed chunks of different segments, or of different sizes, have the same offset. -/
def Apart (segments : List (List Byte)) : Prop :=
  ∀ c ∈ chunks segments, ∀ c' ∈ chunks segments, c.compressed = true → c'.compressed = true → c.offset = c'.offset →
    c.segment = c'.segment ∧ c.size = c'.size

end Keramics.Spec.Ewf
