import Verif.Spec.Ewf
import Verif.Model.EwfInfo

/-!
# Specification: what EWF images say about the acquisition

A section "header" is a zlib stream of text in bytes, a section "header2" one of text in UTF-16, with a byte order mark for big-endian
text. The text is lines: the number of categories, "1" or "3"; the name of the first category, "main"; the tags of its columns; their
values; and whatever there is of the other categories. Lines end with a newline, or with a carriage return and a newline. Tags and
values are separated by tabs. The dates of a "header2" are decimal POSIX timestamps.

A section "hash" starts with an MD5, a section "digest" with an MD5 and a SHA1. A section "volume" or "disk" of 1052 bytes of data has
the media type, the error granularity and the set identifier; a section "data" repeats them.

The types of values (`EwfHeaderValueType`, `EwfHeaderValue` and `EwfMediaType`) are those of the API.
-/

namespace Keramics.Spec.Ewf
open Keramics.EwfInfo (ValueType Value MediaType)

def headerKind : List Byte := kind [0x68#8, 0x65#8, 0x61#8, 0x64#8, 0x65#8, 0x72#8]
def header2Kind : List Byte := kind [0x68#8, 0x65#8, 0x61#8, 0x64#8, 0x65#8, 0x72#8, 0x32#8]
def digestKind : List Byte := kind [0x64#8, 0x69#8, 0x67#8, 0x65#8, 0x73#8, 0x74#8]
def hashKind : List Byte := kind [0x68#8, 0x61#8, 0x73#8, 0x68#8]
def dataKind : List Byte := kind [0x64#8, 0x61#8, 0x74#8, 0x61#8]
def table2Kind : List Byte := kind [0x74#8, 0x61#8, 0x62#8, 0x6c#8, 0x65#8, 0x32#8]
def error2Kind : List Byte := kind [0x65#8, 0x72#8, 0x72#8, 0x6f#8, 0x72#8, 0x32#8]

/-- The tag of a value: "a", "av", "c", "e", "l", "m", "md", "n", "ov", "p", "pid", "r", "sn", "t" or "u". -/
def tag : ValueType → List Nat
  | .description => [0x61]
  | .version => [0x61, 0x76]
  | .caseNumber => [0x63]
  | .examinerName => [0x65]
  | .deviceLabel => [0x6c]
  | .acquisitionDate => [0x6d]
  | .model => [0x6d, 0x64]
  | .evidenceNumber => [0x6e]
  | .platform => [0x6f, 0x76]
  | .passwordHash => [0x70]
  | .processIdentifier => [0x70, 0x69, 0x64]
  | .compressionLevel => [0x72]
  | .serialNumber => [0x73, 0x6e]
  | .notes => [0x74]
  | .systemDate => [0x75]

/-- The text of a header: the number of categories, what ends lines, the tags and values of the columns, and the rest. -/
structure Sheet where
  categories : List Nat
  eol : List Nat
  columns : List (List Nat × List Nat)
  rest : List Nat
deriving DecidableEq, Repr

def Sheet.text (s : Sheet) : List Nat :=
  s.categories ++ s.eol ++ ([0x6d, 0x61, 0x69, 0x6e] ++ s.eol ++ ([0x09].intercalate (s.columns.map Prod.fst) ++ s.eol ++
    ([0x09].intercalate (s.columns.map Prod.snd) ++ s.eol ++ s.rest)))

/-- Tags and values have no tabs, ends of lines or end of text in them. -/
structure Sheet.Wf (s : Sheet) : Prop where
  categories : s.categories = [0x31] ∨ s.categories = [0x33]
  eol : s.eol = [0x0a] ∨ s.eol = [0x0d, 0x0a]
  columns : s.columns ≠ []
  cells : ∀ c ∈ s.columns, ∀ x ∈ c.1 ++ c.2, x ≠ 0 ∧ x ≠ 0x09 ∧ x ≠ 0x0a ∧ x ≠ 0x0d

/-- How the text of a header is stored. -/
inductive Coding where
  | bytes
  | littleEndian (mark : Bool)
  | bigEndian
deriving DecidableEq, Repr

/-- A section "header" or "header2". -/
structure Header where
  coding : Coding
  sheet : Sheet
deriving DecidableEq, Repr

/-- The bytes of the text. -/
def Header.data (h : Header) : List Byte := match h.coding with
  | .bytes => h.sheet.text.map (BitVec.ofNat 8)
  | .littleEndian mark => (if mark then [0xff#8, 0xfe#8] else []) ++ h.sheet.text.flatMap fun x => [BitVec.ofNat 8 x, BitVec.ofNat 8 (x / 256)]
  | .bigEndian => [0xfe#8, 0xff#8] ++ h.sheet.text.flatMap fun x => [BitVec.ofNat 8 (x / 256), BitVec.ofNat 8 x]

structure Header.Wf (h : Header) : Prop where
  sheet : h.sheet.Wf
  units : ∀ x ∈ h.sheet.text, x < (if h.coding = .bytes then 256 else 65536)

/-- The number that digits stand for. -/
def decimal (digits : List Nat) : Option Nat :=
  if digits ≠ [] ∧ ∀ x ∈ digits, 0x30 ≤ x ∧ x ≤ 0x39 then some (digits.foldl (fun n x => 10 * n + (x - 0x30)) 0) else none

/-- The value that the text in a column stands for. -/
def Header.valueOf (h : Header) (k : ValueType) (text : List Nat) : Option Value :=
  if h.coding = .bytes then some (.byte (text.map (BitVec.ofNat 8)))
  else if k = .acquisitionDate ∨ k = .systemDate then (decimal text).map .posixTime
  else some (.utf16 text)

/-- A value of a header: that of the first column with its tag. -/
def Header.get (h : Header) (k : ValueType) : Option Value :=
  h.sheet.columns.findSome? fun c => if c.1 = tag k then h.valueOf k c.2 else none

/-- A value of an image: that of the first header that has it. -/
def valueOf (headers : List Header) (k : ValueType) : Option Value := headers.findSome? fun h => h.get k

/-- A section of a segment file. -/
structure Placed where
  file : List Byte
  sec : Section
deriving DecidableEq, Repr

/-- The sections of all segments of an image, in order. -/
def placed (segments : List (List Byte)) : List Placed := segments.flatMap fun file => (sections file).map fun s => ⟨file, s⟩

/-- Bytes of the data of a section. -/
def Placed.bytes (p : Placed) (o n : Nat) : List Byte := bytesAt p.file (p.sec.start + 76 + o) n

/-- All bytes of the data of a section. -/
def Placed.data (p : Placed) : List Byte := bytesAt p.file (p.sec.start + 76) (p.sec.next - (p.sec.start + 76))

/-- The data of a section starts with `n` bytes and their Adler-32. -/
def Placed.Sound (p : Placed) (n : Nat) : Prop := Checked p.file (p.sec.start + 76) n

def Placed.isHeader (p : Placed) : Bool := p.sec.kind = headerKind ∨ p.sec.kind = header2Kind
def Placed.hasMd5 (p : Placed) : Bool := p.sec.kind = hashKind ∨ p.sec.kind = digestKind
def Placed.hasSha1 (p : Placed) : Bool := p.sec.kind = digestKind
def Placed.isVolume (p : Placed) : Bool := (p.sec.kind = disk ∨ p.sec.kind = volumeKind) ∧ p.sec.start + 1128 = p.sec.next

/-- What the last of the sections that have it says. -/
def lastOr {α : Type} (has : Placed → Bool) (says : Placed → α) (default : α) (ps : List Placed) : α :=
  match (ps.filter has).getLast? with
  | some p => says p
  | none => default

def md5 (ps : List Placed) : List Byte := lastOr Placed.hasMd5 (·.bytes 0 16) (List.replicate 16 0#8) ps
def sha1 (ps : List Placed) : List Byte := lastOr Placed.hasSha1 (·.bytes 16 20) (List.replicate 20 0#8) ps
def setIdentifier (ps : List Placed) : List Byte := lastOr Placed.isVolume (·.bytes 64 16) (List.replicate 16 0#8) ps
def errorGranularity (ps : List Placed) : Nat := lastOr Placed.isVolume (fun p => leNat (p.bytes 56 4)) 0 ps

/-- 0: removeable disk, 1: fixed disk, 3: optical disk, 14: logical evidence, 16: memory. -/
def mediaTypeOf : Nat → MediaType
  | 0 => .removeableDisk
  | 1 => .fixedDisk
  | 3 => .opticalDisk
  | 14 => .logicalEvidence
  | 16 => .memory
  | _ => .unknown

def mediaType (ps : List Placed) : MediaType := lastOr Placed.isVolume (fun p => mediaTypeOf (leNat (p.bytes 0 1))) .unknown ps

end Keramics.Spec.Ewf
