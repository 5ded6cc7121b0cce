import Verif.Spec.Ntfs
import Verif.Spec.Types
import Verif.Spec.Volumes
import Mathlib.Data.List.Forall2

/-!
# Specification: NTFS volumes

After the NTFS on-disk format: boot sector, records, attributes, master file table (MFT), directory indexes and paths.
-/

namespace Keramics.Spec.NtfsFs
open Keramics.Spec.Ntfs

/-! ## Boot sector -/

def sectorSize (U : List Byte) : Nat := field U 11 2

/-- Up to 128 it is the number of sectors, above it is a power of two. -/
def sectorsPerCluster (U : List Byte) : Nat := if field U 13 1 ≤ 128 then field U 13 1 else 2 ^ (256 - field U 13 1)

def clusterSize (U : List Byte) : Nat := sectorsPerCluster U * sectorSize U

/-- The size of a record: up to 127 it is in clusters, above it is a power of two. -/
def recordSize (U : List Byte) (v : Nat) : Nat := if v < 128 then v * clusterSize U else 2 ^ (256 - v)

def entrySize (U : List Byte) : Nat := recordSize U (field U 64 4)

def indexSize (U : List Byte) : Nat := recordSize U (field U 68 4)

/-- A boot sector. The exponents go to 31: 225 stands for 2^31. -/
structure Boot (U : List Byte) : Prop where
  length : 512 ≤ U.length
  signature : bytesAt U 3 8 = [0x4e#8, 0x54#8, 0x46#8, 0x53#8, 0x20#8, 0x20#8, 0x20#8, 0x20#8]
  sector : sectorSize U = 256 ∨ sectorSize U = 512 ∨ sectorSize U = 1024 ∨ sectorSize U = 2048 ∨ sectorSize U = 4096
  sectors : field U 13 1 ≤ 128 ∨ 244 ≤ field U 13 1
  cluster : ∃ k, 8 ≤ k ∧ k ≤ 21 ∧ clusterSize U = 2 ^ k
  entryByte : (1 ≤ field U 64 4 ∧ field U 64 4 ≤ 127) ∨ (225 ≤ field U 64 4 ∧ field U 64 4 ≤ 255)
  entry : 42 ≤ entrySize U ∧ entrySize U ≤ 65535
  indexByte : (1 ≤ field U 68 4 ∧ field U 68 4 ≤ 127) ∨ (225 ≤ field U 68 4 ∧ field U 68 4 ≤ 255)
  index : 32 ≤ indexSize U ∧ indexSize U ≤ 16777216
  total : field U 40 8 * sectorSize U < 2 ^ 64

/-- The number of the first cluster of the MFT. -/
def mftStart (U : List Byte) : Nat := field U 48 8

/-! ## Records -/

/-- A record of whole sectors, with its update sequence array, and the bytes `raw` that are stored for it. -/
def Stored (raw record : List Byte) : Prop :=
  ∃ k number, 0 < k ∧ record.length = 512 * k ∧ field record 6 2 = k + 1 ∧ field record 4 2 + 2 * (k + 1) ≤ 510 ∧ number.length = 2 ∧
    bytesAt record (field record 4 2) (2 * (k + 1)) = number ++ sectorEnds k record ∧ raw = protect number k record

/-- An MFT entry: it begins with "FILE", has its size at 28 and the place of its attributes at 20, behind the update sequence array. -/
structure Entry (record : List Byte) : Prop where
  signature : bytesAt record 0 4 = [0x46#8, 0x49#8, 0x4c#8, 0x45#8]
  size : field record 28 4 = record.length
  array : field record 4 2 = 42 ∨ 48 ≤ field record 4 2
  attributes : field record 4 2 + 2 * field record 6 2 ≤ field record 20 2
  inside : field record 20 2 ≤ record.length

/-- The bytes of the MFT. -/
def mftBytes (U : List Byte) (runs : List Run) : List Byte := runs.flatMap (Run.bytes U (clusterSize U))

/-- Entry `n` of the MFT. -/
def EntryAt (U : List Byte) (runs : List Run) (n : Nat) (record : List Byte) : Prop :=
  (n + 1) * entrySize U ≤ (mftBytes U runs).length ∧ Stored (bytesAt (mftBytes U runs) (n * entrySize U) (entrySize U)) record ∧ Entry record

/-! ## Attributes -/

/-- The value of an attribute: in the record, or in clusters. If it is in clusters, a record has the runs from the first to the last of some virtual
cluster numbers. The sizes and the exponent of the compression unit matter where the first number is 0. -/
inductive Value where
  | resident (data : List Byte)
  | clusters (first last allocated size valid unit : Nat) (runs : List Run)
deriving DecidableEq, Repr

structure Attribute where
  kind : Nat
  flags : Nat
  name : Option (List Nat)
  value : Value
deriving DecidableEq, Repr

/-- The name of an attribute at `o`, behind `start` and before `last`. -/
def NameAt (record : List Byte) (o start last : Nat) : Option (List Nat) → Prop
  | none => field record (o + 9) 1 = 0
  | some name => name ≠ [] ∧ 0 ∉ name ∧ field record (o + 9) 1 = name.length ∧ start ≤ field record (o + 10) 2 ∧
      field record (o + 10) 2 + 2 * name.length ≤ last ∧ unitsLe (bytesAt record (o + field record (o + 10) 2) (2 * name.length)) = name

/-- The value of an attribute of `length` bytes at `o`. -/
def ValueAt (record : List Byte) (o length : Nat) (name : Option (List Nat)) : Value → Prop
  | .resident data => field record (o + 8) 1 = 0 ∧ 24 ≤ length ∧ field record (o + 16) 4 = data.length ∧
      NameAt record o 24 (if data = [] then length else field record (o + 20) 2) name ∧
      (data ≠ [] → 24 ≤ field record (o + 20) 2 ∧ field record (o + 20) 2 + data.length ≤ length ∧
        bytesAt record (o + field record (o + 20) 2) data.length = data)
  | .clusters first last allocated size valid unit runs => field record (o + 8) 1 = 1 ∧ 64 ≤ length ∧ field record (o + 16) 8 = first ∧
      field record (o + 24) 8 = last ∧ field record (o + 34) 2 = unit ∧ field record (o + 40) 8 = allocated ∧ field record (o + 48) 8 = size ∧
      field record (o + 56) 8 = valid ∧ unit ≤ 31 ∧ NameAt record o (if unit = 0 then 64 else 72) (field record (o + 32) 2) name ∧
      (if unit = 0 then 64 else 72) ≤ field record (o + 32) 2 ∧ field record (o + 32) 2 < length ∧
      (∀ count lcn, Run.data count lcn ∈ runs → lcn < 2 ^ 63) ∧
      ∃ bytes junk, Encodes 0 runs bytes ∧ bytesAt record (o + field record (o + 32) 2) (length - field record (o + 32) 2) = bytes ++ 0#8 :: junk

/-- An attribute of `length` bytes at `o`. -/
structure AttributeAt (record : List Byte) (o length : Nat) (a : Attribute) : Prop where
  inside : o + length ≤ record.length
  kind : field record o 4 = a.kind
  notLast : a.kind ≠ 0xffffffff
  size : field record (o + 4) 4 = length
  flags : field record (o + 12) 2 = a.flags
  method : a.flags % 256 ≤ 1
  value : ValueAt record o length a.name a.value

/-- The attributes from `o` on. -/
inductive AttributesAt (record : List Byte) : Nat → List Attribute → Prop
  | last {o} : o + 4 ≤ record.length → bytesAt record o 4 = [0xff#8, 0xff#8, 0xff#8, 0xff#8] → AttributesAt record o []
  | next {o length a as} : AttributeAt record o length a → AttributesAt record (o + length) as → AttributesAt record o (a :: as)

/-- The attributes in a record of the MFT. -/
def RecordAttributes (U : List Byte) (mft : List Run) (n : Nat) (as : List Attribute) : Prop :=
  ∃ record, EntryAt U mft n record ∧ AttributesAt record (field record 20 2) as

/-- The attributes with a name and a type. -/
def named (as : List Attribute) (name : Option (List Nat)) (kind : Nat) : List Attribute := as.filter fun a => a.name = name ∧ a.kind = kind

/-- A record of an attribute in clusters. -/
structure Piece where
  first : Nat
  last : Nat
  allocated : Nat
  size : Nat
  valid : Nat
  unit : Nat
  runs : List Run

def Piece.attribute (kind flags : Nat) (name : Option (List Nat)) (p : Piece) : Attribute :=
  ⟨kind, flags, name, .clusters p.first p.last p.allocated p.size p.valid p.unit p.runs⟩

/-- The names and types of the attributes. The records of an attribute in clusters count once, file names each. -/
def distinct (as : List Attribute) : List (Option (List Nat) × Nat) :=
  as.foldl (fun l a => if a.kind ≠ 0x30 ∧ (a.name, a.kind) ∈ l then l else l ++ [(a.name, a.kind)]) []

/-- The names of the data streams: none is the main one. -/
def streamNames (as : List Attribute) : List (Option (List Nat)) := ((distinct as).filter fun x => x.2 = 0x80).map (·.1)

/-- The attribute with a name and a type is in one record. -/
def Resident (as : List Attribute) (name : Option (List Nat)) (kind flags : Nat) (data : List Byte) : Prop :=
  named as name kind = [⟨kind, flags, name, .resident data⟩]

/-- The attribute with a name and a type is in clusters: its records, in any order, are `p` for the first clusters and `ps` for others, in the order of
their virtual cluster numbers. -/
def Clusters (as : List Attribute) (name : Option (List Nat)) (kind flags : Nat) (p : Piece) (ps : List Piece) : Prop :=
  (named as name kind).Perm ((p :: ps).map (Piece.attribute kind flags name)) ∧ p.first = 0 ∧ (p :: ps).Pairwise (fun a b => a.first < b.first) ∧
    Follow 0 ((p :: ps).map fun q => (q.first, q.last, q.runs))

/-- The clusters of an attribute in a sound volume. -/
structure InVolume (U : List Byte) (p : Piece) (ps : List Piece) : Prop where
  positive : ∀ q ∈ p :: ps, ∀ r ∈ q.runs, 0 < r.count
  inside : ∀ q ∈ p :: ps, ∀ count lcn, Run.data count lcn ∈ q.runs → (lcn + count) * clusterSize U ≤ U.length
  allocated : ((p :: ps).flatMap Piece.runs |>.map fun r => r.count * clusterSize U).sum = p.allocated
  some : 0 < p.allocated
  fits : p.allocated + clusterSize U < 2 ^ 63
  valid : p.valid ≤ p.size
  size : p.valid ≤ p.allocated

/-- The bytes of an attribute in clusters. -/
def clusterBytes (U : List Byte) (p : Piece) (ps : List Piece) : List Byte :=
  contents U (clusterSize U) ((p :: ps).flatMap Piece.runs) p.valid p.size

/-! ## Files -/

/-- The entries of an attribute list: each has its size at 4 and the reference of a file record at 16. -/
inductive ListAt : List Byte → List Nat → Prop
  | nil : ListAt [] []
  | cons {entry rest refs} : 26 ≤ entry.length → field entry 4 2 = entry.length → ListAt rest refs →
      ListAt (entry ++ rest) (field entry 16 8 :: refs)

/-- The bytes of the attribute list, in the record of a file or in clusters. -/
def ListBytes (U : List Byte) (as : List Attribute) (data : List Byte) : Prop :=
  ∃ a ∈ as, a.kind = 0x20 ∧ a.flags % 256 = 0 ∧ (a.value = .resident data ∨
    ∃ p, a = p.attribute a.kind a.flags a.name ∧ p.first = 0 ∧ Follow 0 [(p.first, p.last, p.runs)] ∧ InVolume U p [] ∧ data = clusterBytes U p [])

/-- The attributes of file `n`: those in its record and in other records, if there is an attribute list. -/
inductive FileAttributes (U : List Byte) (mft : List Run) (n : Nat) : List Attribute → Prop
  | single {as} : RecordAttributes U mft n as → (∀ a ∈ as, a.kind ≠ 0x20) → FileAttributes U mft n as
  | list {base data refs others rest} : RecordAttributes U mft n base → ListBytes U base data → ListAt data refs →
      others.Pairwise (· < ·) → (∀ m, m ∈ others ↔ m ≠ n ∧ m ∈ refs.map (· % 2 ^ 48)) →
      List.Forall₂ (RecordAttributes U mft) others rest → FileAttributes U mft n (base ++ rest.flatten)

/-- A time: 0 means that there is none. -/
def time (v : Nat) : Option Nat := if v = 0 then none else some v

/-- What a reparse point is, by its tag. -/
inductive Reparse where
  | overlay (method : Nat)
  | junction
  | link (substitute display : List Nat)
  | other (tag : Nat)
deriving DecidableEq, Repr

/-- A name in the data of a symbolic link, `offset` bytes behind the header of 8 + 12 bytes. -/
def LinkName (data : List Byte) (offset size : Nat) (name : List Nat) : Prop :=
  size % 2 = 0 ∧ 20 + offset < data.length ∧ 20 + offset + size ≤ data.length ∧ unitsLe (bytesAt data (20 + offset) size) = name ∧ 0 ∉ name

/-- Where a reparse point leads to, if it is a symbolic link. -/
def Reparse.target : Reparse → Option (List Nat)
  | .link substitute _ => some substitute
  | _ => none

/-- The value of a reparse point: a tag, 4 further bytes, and data that depend on the tag. -/
inductive ReparseAt (data : List Byte) : Reparse → Prop
  | overlay : field data 0 4 = 0x80000017 → data.length = 24 → ReparseAt data (.overlay (field data 20 4))
  | junction : field data 0 4 = 0xa0000003 → 8 ≤ data.length → ReparseAt data .junction
  | link {substitute display} : field data 0 4 = 0xa000000c → 20 ≤ data.length → LinkName data (field data 8 2) (field data 10 2) substitute →
      LinkName data (field data 12 2) (field data 14 2) display → ReparseAt data (.link substitute display)
  | other : field data 0 4 ≠ 0x80000017 → field data 0 4 ≠ 0xa0000003 → field data 0 4 ≠ 0xa000000c → 8 ≤ data.length →
      ReparseAt data (.other (field data 0 4))

/-- The attributes fit together: only the records of an attribute in clusters, and file names, have the same name and type, and the attributes that are there
at most once are in their record. -/
structure Sound (as : List Attribute) : Prop where
  pieces : as.Pairwise fun a b => a.name = b.name → a.kind = b.kind → a.kind ≠ 0x30 →
    (∃ f l x s v u r, a.value = .clusters f l x s v u r) ∧ ∃ f l x s v u r, b.value = .clusters f l x s v u r
  single : as.Pairwise fun a b => a.kind = b.kind → a.kind ≠ 0x10 ∧ a.kind ≠ 0x20 ∧ a.kind ≠ 0xc0
  standard : ∀ a ∈ as, a.kind = 0x10 → ∃ data, a.value = .resident data ∧ 48 ≤ data.length
  reparse : ∀ a ∈ as, a.kind = 0xc0 → ∃ data r, a.value = .resident data ∧ ReparseAt data r

/-! ## Volumes -/

/-- What is known of a volume: the runs of the MFT, the table of upper case characters, the label, the version and the flags. -/
structure Volume where
  mft : List Run
  upper : List Byte
  label : Option (List Nat)
  information : Option (Nat × Nat × Nat)

/-- The attribute list of a file is in its record or not larger than a cluster. -/
def ShortList (U : List Byte) (as : List Attribute) : Prop :=
  ∀ a ∈ as, a.kind = 0x20 → ∀ f l x s v u r, a.value = .clusters f l x s v u r → s ≤ clusterSize U

/-- The runs of the MFT that other records of the MFT describe, given the runs that are known: each of the records, in the order of their numbers, is in
the runs known so far and, if it has unnamed data, describes the runs that follow. -/
inductive Extended (U : List Byte) : List Run → List Nat → List Run → Prop
  | nil {runs} : Extended U runs [] runs
  | other {runs n ns as mft} : RecordAttributes U runs n as → Sound as → named as none 0x80 = [] → Extended U runs ns mft → Extended U runs (n :: ns) mft
  | data {runs n ns as mft} {p : Piece} : RecordAttributes U runs n as → Sound as → named as none 0x80 = [p.attribute 0x80 0 none] →
      Follow (runs.map Run.count).sum [(p.first, p.last, p.runs)] → Extended U (runs ++ p.runs) ns mft → Extended U runs (n :: ns) mft

/-- The runs of the MFT, given the attributes of its first entry: those of the data of the entry, and those in the records of the attribute list. -/
inductive MftRuns (U : List Byte) (as : List Attribute) (runs : List Run) : List Run → Prop
  | single : (∀ a ∈ as, a.kind ≠ 0x20) → MftRuns U as runs runs
  | list {data refs mft} {others : List Nat} : ShortList U as → ListBytes U as data → ListAt data refs →
      others.Pairwise (· < ·) → (∀ m, m ∈ others ↔ m ≠ 0 ∧ m ∈ refs.map (· % 2 ^ 48)) → Extended U runs others mft → MftRuns U as runs mft

/-- The first entry of the MFT has the place of the MFT. -/
structure Mft (U : List Byte) (mft : List Run) : Prop where
  first : ∃ record as p, mftStart U * clusterSize U + entrySize U ≤ U.length ∧
    Stored (bytesAt U (mftStart U * clusterSize U) (entrySize U)) record ∧ Entry record ∧ AttributesAt record (field record 20 2) as ∧
    Sound as ∧ Clusters as none 0x80 0 p [] ∧ MftRuns U as p.runs mft ∧
    (mft.map fun r => r.count * clusterSize U).sum = p.allocated ∧ p.allocated / entrySize U < 2 ^ 32 - 1
  data : ∀ r ∈ mft, ∃ count lcn, r = .data count lcn ∧ 0 < count ∧ (lcn + count) * clusterSize U ≤ U.length
  whole : ∀ r ∈ mft, entrySize U ∣ r.count * clusterSize U

structure IsVolume (U : List Byte) (V : Volume) : Prop where
  boot : Boot U
  mft : Mft U V.mft
  /-- File 3 has the label and the version. -/
  volume : ∃ as, RecordAttributes U V.mft 3 as ∧ Sound as ∧ (∀ a ∈ as, a.kind ≠ 0x20) ∧
    ((named as none 0x60 = [] ∧ V.label = none) ∨ ∃ flags data, flags % 256 = 0 ∧ Resident as none 0x60 flags data ∧ data.length % 2 = 0 ∧
      V.label = some ((unitsLe data).takeWhile (· ≠ 0))) ∧
    ((named as none 0x70 = [] ∧ V.information = none) ∨ ∃ flags data, flags % 256 = 0 ∧ Resident as none 0x70 flags data ∧ 12 ≤ data.length ∧
      V.information = some (field data 8 1, field data 9 1, field data 10 2))
  /-- File 10 has the table of upper case characters. -/
  upper : ∃ as flags p ps, RecordAttributes U V.mft 10 as ∧ Sound as ∧ (∀ a ∈ as, a.kind ≠ 0x20) ∧ flags % 256 = 0 ∧
    Clusters as none 0x80 flags p ps ∧ InVolume U p ps ∧ 131072 ≤ p.size ∧ p.size < 2 ^ 62 ∧ V.upper = (clusterBytes U p ps).take 131072

/-! ## Directories -/

/-- The entry of a directory: a reference to a file and a key, the value of a file name attribute. -/
structure DirectoryEntry where
  reference : Nat
  key : List Byte
deriving DecidableEq, Repr

def DirectoryEntry.name (e : DirectoryEntry) : List Nat := unitsLe (bytesAt e.key 66 (2 * field e.key 64 1))

/-- The name space: 0 is POSIX, 1 is Windows, 2 is DOS, 3 is both. -/
def DirectoryEntry.space (e : DirectoryEntry) : Nat := field e.key 65 1

def DirectoryEntry.parent (e : DirectoryEntry) : Nat := field e.key 0 8

def DirectoryEntry.Ok (e : DirectoryEntry) : Prop := 0 < field e.key 64 1 ∧ 66 + 2 * field e.key 64 1 ≤ e.key.length ∧ 0 ∉ e.name

/-- The upper case form of a character and of a name. -/
def upperCase (upper : List Byte) (c : Nat) : Nat := field upper (2 * c) 2

/-- A value in an index node, of `length` bytes at `o`. A branch ends with a virtual cluster number. -/
structure IndexValue (data : List Byte) (o length : Nat) (e : DirectoryEntry) (branch : Option Nat) (last : Bool) : Prop where
  inside : o + length ≤ data.length
  aligned : 8 ∣ length
  reference : field data o 8 = e.reference
  size : field data (o + 8) 2 = length
  keySize : field data (o + 10) 2 = e.key.length
  key : bytesAt data (o + 16) e.key.length = e.key
  last : (field data (o + 12) 4).testBit 1 = last
  branch : match branch with
    | none => (field data (o + 12) 4).testBit 0 = false ∧ 16 + e.key.length ≤ length
    | some vcn => (field data (o + 12) 4).testBit 0 = true ∧ 24 + e.key.length ≤ length ∧ field data (o + length - 8) 8 = vcn

/-- The entries below a value, which come before the entry of the value; `sub` says what is in the node of a virtual cluster number. -/
def Below (sub : Nat → List DirectoryEntry → Prop) : Option Nat → List DirectoryEntry → Prop
  | none, es => es = []
  | some vcn, es => sub vcn es

/-- The entries of the values from `o` to `limit` and of the nodes below. -/
inductive ValuesAt (sub : Nat → List DirectoryEntry → Prop) (data : List Byte) (limit : Nat) : Nat → List DirectoryEntry → Prop
  | last {o length e branch es} : IndexValue data o length e branch true → o + length ≤ limit → Below sub branch es → ValuesAt sub data limit o es
  | next {o length e branch before after} : IndexValue data o length e branch false → e.Ok → Below sub branch before →
      ValuesAt sub data limit (o + length) after → ValuesAt sub data limit o (before ++ e :: after)

/-- A node at `o`: the place of the values and the size, both from `o` on. -/
def NodeAt (sub : Nat → List DirectoryEntry → Prop) (data : List Byte) (o : Nat) (es : List DirectoryEntry) : Prop :=
  16 ≤ field data o 4 ∧ 8 ∣ field data o 4 ∧ o + field data (o + 4) 4 ≤ data.length ∧ ValuesAt sub data (o + field data (o + 4) 4) (o + field data o 4) es

/-- The clusters of the index nodes other than the root. -/
structure Allocation where
  size : Nat
  runs : List Run

/-- An index record: it is at a multiple of its size, begins with "INDX" and has a node at 24. Virtual cluster numbers are in units of clusters, or of 512 bytes if clusters are larger
than records. -/
def IndexRecord (U : List Byte) (a : Allocation) (vcn : Nat) (record : List Byte) : Prop :=
  let unit := if clusterSize U ≤ a.size then clusterSize U else 512
  a.size ∣ vcn * unit ∧ vcn * unit + a.size ≤ (a.runs.flatMap (Run.bytes U (clusterSize U))).length ∧
    Stored (bytesAt (a.runs.flatMap (Run.bytes U (clusterSize U))) (vcn * unit) a.size) record ∧
    bytesAt record 0 4 = [0x49#8, 0x4e#8, 0x44#8, 0x58#8] ∧ 32 ≤ field record 4 2

/-- What is in the index record with a virtual cluster number, in at most `depth` levels. -/
def Tree (U : List Byte) (a : Allocation) : Nat → Nat → List DirectoryEntry → Prop
  | 0, _, _ => False
  | depth + 1, vcn, es => ∃ record, IndexRecord U a vcn record ∧ NodeAt (Tree U a depth) record 24 es

/-- "$I30", the name of the attributes of a directory index. -/
def i30 : Option (List Nat) := some [0x24, 0x49, 0x33, 0x30]

/-- The root of a directory index: an index of file names in their order, the size of the other records, and a node. -/
structure RootAt (as : List Attribute) (data : List Byte) (size : Nat) : Prop where
  root : ∃ flags, Resident as i30 0x90 flags data
  long : 32 ≤ data.length
  type : field data 0 4 = 0x30
  collation : field data 4 4 = 1
  size : field data 8 4 = size

/-- The entries of a directory with the attributes `as`, in the order of the index; `depth` bounds the number of levels below the root. -/
inductive Directory (U : List Byte) (as : List Attribute) : Nat → Allocation → List DirectoryEntry → Prop
  | root {data size es} : RootAt as data size → named as i30 0xa0 = [] → NodeAt (fun _ _ => False) data 16 es → Directory U as 0 ⟨size, []⟩ es
  | tree {data size flags p ps depth es} : RootAt as data size → flags % 256 = 0 → Clusters as i30 0xa0 flags p ps → InVolume U p ps →
      NodeAt (Tree U ⟨size, (p :: ps).flatMap Piece.runs⟩ depth) data 16 es → Directory U as depth ⟨size, (p :: ps).flatMap Piece.runs⟩ es

/-- The names in a directory are compared without case, unless it is marked: maximum number of versions 0 and version 1 in the standard information. -/
def CaseSensitive (as : List Attribute) : Prop :=
  ∃ a ∈ as, ∃ data, a.kind = 0x10 ∧ a.name = none ∧ a.value = .resident data ∧ field data 36 4 = 0 ∧ field data 40 4 = 1

/-- How names in a directory are compared. -/
inductive Comparison (upper : List Byte) (as : List Attribute) : (List Nat → List Nat) → Prop
  | sensitive : CaseSensitive as → Comparison upper as id
  | insensitive : ¬ CaseSensitive as → Comparison upper as (List.map (upperCase upper))

/-- The entries are in the order of their names, no two of which are the same. -/
def Ordered (fold : List Nat → List Nat) (es : List DirectoryEntry) : Prop := es.Pairwise fun a b => fold a.name < fold b.name

/-- The entry with a name. -/
def lookup (fold : List Nat → List Nat) (es : List DirectoryEntry) (name : List Nat) : Option DirectoryEntry :=
  es.find? fun e => fold e.name = fold name

/-- The entries that are listed: not the DOS names, which belong to other entries, and not ".". -/
def listed (es : List DirectoryEntry) : List DirectoryEntry := es.filter fun e => e.name ≠ [0x2e] ∧ e.space ≠ 2

/-- A file that is not a directory: no attribute has the name of a directory index. -/
def NotDirectory (as : List Attribute) : Prop := ∀ a ∈ as, a.name ≠ i30

/-! ## Restrictions

What is needed, beyond a sound volume, for the theorems about Keramics. -/

/-- File `n` has the attributes `as`. -/
structure IsFile (U : List Byte) (mft : List Run) (n : Nat) (as : List Attribute) : Prop where
  attributes : FileAttributes U mft n as
  sound : Sound as
  short : ShortList U as

/-- The main stream of a file may be stored in another way by the Windows Overlay Filter. -/
def Overlaid (as : List Attribute) : Prop := ∃ a ∈ as, ∃ data method, a.kind = 0xc0 ∧ a.value = .resident data ∧ ReparseAt data (.overlay method)

/-- Index records are not too large and not smaller than clusters, each is in one run, and the index has at most as many levels as clusters. -/
structure HandledIndex (U : List Byte) (depth : Nat) (a : Allocation) : Prop where
  size : 42 ≤ a.size ∧ a.size ≤ 65535
  cluster : a.runs ≠ [] → clusterSize U ≤ a.size
  data : ∀ r ∈ a.runs, ∃ count lcn, r = Run.data count lcn
  whole : ∀ r ∈ a.runs, a.size ∣ r.count * clusterSize U
  levels : depth ≤ (a.runs.map Run.count).sum

/-- The entries of a directory with the attributes `as`, and how their names are compared. -/
structure IsDirectory (U : List Byte) (upper : List Byte) (as : List Attribute) (fold : List Nat → List Nat) (es : List DirectoryEntry) : Prop where
  entries : ∃ depth a, Directory U as depth a es ∧ HandledIndex U depth a
  comparison : Comparison upper as fold
  ordered : Ordered fold es

/-- No two DOS names are of the same file. -/
def DosNames (es : List DirectoryEntry) : Prop := (es.filter fun e => e.name ≠ [0x2e] ∧ e.space = 2).Pairwise fun a b => a.reference ≠ b.reference

/-- What is at a path from file `n`, which was found by the entry `e`: the number of a file and the entry of its directory. -/
inductive Path (U : List Byte) (V : Volume) : Nat → Option DirectoryEntry → List (List Nat) → Option (Nat × Option DirectoryEntry) → Prop
  | here {n e as} : IsFile U V.mft n as → Path U V n e [] (some (n, e))
  | file {n e as name rest} : IsFile U V.mft n as → NotDirectory as → Path U V n e (name :: rest) none
  | missing {n e as fold es name rest} : IsFile U V.mft n as → IsDirectory U V.upper as fold es → lookup fold es name = none → Path U V n e (name :: rest) none
  | step {n e as fold es name rest e' r} : IsFile U V.mft n as → IsDirectory U V.upper as fold es → lookup fold es name = some e' →
      Path U V (e'.reference % 2 ^ 48) (some e') rest r → Path U V n e (name :: rest) r

end Keramics.Spec.NtfsFs
