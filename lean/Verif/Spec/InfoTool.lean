import Verif.Spec.Volumes
import Verif.Spec.Types
import Verif.Spec.Utf8
import Verif.Spec.VfsParts

/-!
# Specification: what the info tool tells about volume systems
-/

namespace Keramics.Spec

/-- A number in decimal. -/
def decimalText (n : Nat) : List Nat := codePoints (toString n)

/-- A number in hexadecimal, with zeros in front up to a width. -/
def hexNumber (width n : Nat) : List Nat :=
  let digits := (Nat.toDigits 16 n).map Char.toNat
  List.replicate (width - digits.length) 0x30 ++ digits

/-- The binary units. -/
def binaryUnits : List (Nat × String) := [(1, "KiB"), (2, "MiB"), (3, "GiB"), (4, "TiB"), (5, "PiB")]

/-- `t` tenths of a unit are next to a size: at most half of a tenth away, and 64 bytes more for sizes of 8 PiB and more. -/
def Near (t size unit : Nat) : Prop :=
  20 * size ≤ (2 * t + 1) * unit + (if size < 2 ^ 53 then 0 else 1280) ∧ 2 * t * unit ≤ 20 * size + unit + (if size < 2 ^ 53 then 0 else 1280)

/-- The text of a size: the number of bytes, and from 1024 bytes on before it the tenths of the largest unit that is not larger. -/
def SizeText (small : String) (size : Nat) (text : List Nat) : Prop :=
  if size < 1024 then text = decimalText size ++ codePoints small
  else ∃ k name t, (k, name) ∈ binaryUnits ∧ 1024 ^ k ≤ size ∧ size < 1024 ^ (k + 1) ∧ Near t size (1024 ^ k) ∧
    text = decimalText (t / 10) ++ codePoints "." ++ decimalText (t % 10) ++ codePoints " " ++ codePoints name ++ codePoints " (" ++ decimalText size ++
      codePoints " bytes)"

/-- The line of a size. -/
def SizeLine (small : String) (size : Nat) (line : List Nat) : Prop :=
  ∃ text, SizeText small size text ∧ line = codePoints "    Size\t\t\t\t: " ++ text

/-- The line of an offset. -/
def offsetText (offset : Nat) : List Nat :=
  codePoints "    Offset\t\t\t\t: " ++ decimalText offset ++ codePoints " (0x" ++ hexNumber 8 offset ++ codePoints ")"

/-- The text of an identifier of 16 bytes. -/
def guidText (raw : List Byte) : List Nat := (uuidText (guidBytes raw)).map BitVec.toNat

/-- The lines of a GPT partition: its number, identifier, type, offset and size. -/
def IsGptPartition (bps i : Nat) (p : Nat × List Byte × List Byte × Nat × Nat) (lines : List (List Nat)) : Prop :=
  ∃ size, SizeLine " bytes" ((p.2.2.2.2 + 1 - p.2.2.2.1) * bps) size ∧
    lines = [[], codePoints "Partition: " ++ decimalText (i + 1), codePoints "    Identifier\t\t\t\t: " ++ guidText p.2.2.1,
      codePoints "    Type identifier\t\t\t: " ++ guidText p.2.1, offsetText (p.2.2.2.1 * bps), size]

/-- The first lines for a GPT. -/
def gptHead (disk : List Byte) (bps number : Nat) : List (List Nat) :=
  [codePoints "GUID Partition Table (GPT) information:", codePoints "    Disk identifier\t\t\t: " ++ guidText disk,
    codePoints "    Bytes per sector\t\t\t: " ++ decimalText bps ++ codePoints " bytes", codePoints "    Number of partitions\t\t: " ++ decimalText number]

/-- The line of the type of an MBR partition: with the name in a table, if it has one. -/
def TypeLine (table : List (Nat × String)) (kind : Nat) (line : List Nat) : Prop :=
  (∃ name, (kind, name) ∈ table ∧ line = codePoints "    Type\t\t\t\t: 0x" ++ hexNumber 2 kind ++ codePoints " (" ++ codePoints name ++ codePoints ")") ∨
    ((∀ name, (kind, name) ∉ table) ∧ line = codePoints "    Type\t\t\t\t: 0x" ++ hexNumber 2 kind)

/-- The lines of an MBR partition: its number, type, offset, size and flags. -/
def IsMbrPartition (table : List (Nat × String)) (bps i : Nat) (e : List Byte) (lines : List (List Nat)) : Prop :=
  ∃ kind size, TypeLine table (Mbr.kind e) kind ∧ SizeLine " bytes" (field e 12 4 * bps) size ∧
    lines = [[], codePoints "Partition: " ++ decimalText (i + 1), kind, offsetText (field e 8 4 * bps), size,
      codePoints "    Flags\t\t\t\t: 0x" ++ hexNumber 2 (field e 0 1)]

/-- The first lines for an MBR. -/
def mbrHead (identity bps number : Nat) : List (List Nat) :=
  [codePoints "Master Boot Record (MBR) information:", codePoints "    Disk identity\t\t\t: 0x" ++ hexNumber 1 identity,
    codePoints "    Bytes per sector\t\t\t: " ++ decimalText bps ++ codePoints " bytes", codePoints "    Number of partitions\t\t: " ++ decimalText number]

/-- The bytes of a field up to the first zero. -/
def textBytes (bytes : List Byte) : List Byte := bytes.takeWhile (· ≠ 0#8)

/-- Bytes are the UTF-8 of a text. -/
def Utf8Of (bytes : List Byte) (text : List Nat) : Prop := (∀ c ∈ text, Utf8.isScalar c) ∧ bytes = text.flatMap Utf8.encode

/-- A text with backslashes twice. -/
def doubled (text : List Nat) : List Nat := text.flatMap fun c => if c = 0x5c then [0x5c, 0x5c] else [c]

/-- The lines of an APM partition: its number, type, name if it has one, offset, size and flags, with a line for each flag that is set and
known. -/
def IsApmPartition (table : List (Nat × String)) (i : Nat) (d : List Byte) (kind name : List Nat) (lines : List (List Nat)) : Prop :=
  ∃ size, SizeLine "" (fieldBe d 12 4 * 512) size ∧
    lines = [[], codePoints "Partition: " ++ decimalText (i + 1), codePoints "    Type identifier\t\t\t: " ++ doubled kind] ++
      (if name = [] then [] else [codePoints "    Name\t\t\t\t: " ++ doubled name]) ++
      [offsetText (fieldBe d 8 4 * 512), size, codePoints "    Status flags\t\t\t: 0x" ++ hexNumber 8 (fieldBe d 88 4)] ++
      (table.filter fun f => fieldBe d 88 4 &&& f.1 ≠ 0).map fun f =>
        codePoints "        0x" ++ hexNumber 8 f.1 ++ codePoints ": " ++ codePoints f.2

/-- The first lines for an APM. -/
def apmHead (number : Nat) : List (List Nat) :=
  [codePoints "Apple Partition Map (APM) information:", codePoints "    Bytes per sector\t\t\t: 512 bytes",
    codePoints "    Number of partitions\t\t: " ++ decimalText number]

end Keramics.Spec
