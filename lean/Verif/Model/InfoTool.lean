import Verif.Model.HashTool
import Verif.Model.Volumes
import Verif.Model.Vfs

/-!
# Model: the info tool on volume systems

keramics-tools/src/info/{gpt,mbr,apm}.rs and keramics-tools/src/formatters.rs. The data is that of the source from the offset on that is
asked for. Error messages are left out.
-/

namespace Keramics.InfoTool
open HashTool (Out after printed)
open Spec (codePoints)

/-! ## Sizes -/

/-- `UNITS`, formatters.rs:14. -/
def units : List String := ["", "K", "M", "G", "T", "P", "E", "Z", "Y"]

/-- The loop of `format_as_bytesize`, formatters.rs:22-26, with base 1024, which all callers use. Returns the factor and the index of the
unit. It has at most 7 turns as the factor has 64 bits; `fuel` is larger. -/
def sizeLoop (value : Nat) : Nat → Nat → Nat → Nat → R (Nat × Nat)
  | 0, _, _, _ => .panic
  | fuel + 1, factor, next, index =>
    if next ≤ value then do
      let n ← R.mulU 64 next 1024
      sizeLoop value fuel next n (index + 1)
    else .ok (factor, index)

/-- The integer next to `a / b`, the even one of two. -/
def roundEven (a b : Nat) : Nat :=
  if 2 * (a % b) < b then a / b
  else if b < 2 * (a % b) then a / b + 1
  else a / b + a / b % 2

/-- `value as f64`, formatters.rs:28: the number next to it of those with 53 bits, the even one of two. -/
def toF64 (value : Nat) : Nat := if value < 2 ^ 53 then value else roundEven value (2 ^ (value.log2 - 52)) * 2 ^ (value.log2 - 52)

/-- `format!("{:.1}", …)`, formatters.rs:28-33: the quotient is exact as the factor is a power of two; the standard library rounds an exact
number to the next tenth, the even one of two. -/
def tenths (value factor : Nat) : Nat := roundEven (10 * toF64 value) factor

/-- `format_as_bytesize(value, 1024)`, formatters.rs:17-36. -/
def bytesize (value : Nat) : R (List Nat) := do
  let (factor, index) ← sizeLoop value 8 1 1024 0
  if 0 < index then
    match units[index]? with
    | some unit =>
      return VfsParts.decimal (tenths value factor / 10) ++ codePoints "." ++ VfsParts.decimal (tenths value factor % 10) ++ codePoints " " ++
        codePoints unit ++ codePoints "iB"
    | none => .panic
  else return VfsParts.decimal value ++ codePoints " B"

/-- The line of a size, gpt.rs:73-81, mbr.rs:173-181, apm.rs:110-118; `small` is what follows a size below 1024. -/
def sizeLine (small : String) (size : Nat) : R (List Nat) :=
  if size < 1024 then .ok (codePoints "    Size\t\t\t\t: " ++ VfsParts.decimal size ++ codePoints small)
  else do
    let text ← bytesize size
    return codePoints "    Size\t\t\t\t: " ++ text ++ codePoints " (" ++ VfsParts.decimal size ++ codePoints " bytes)"

/-! ## Volume systems -/

/-- A line with a label. -/
def line (label : String) (text : List Nat) : List Nat := codePoints label ++ text

/-- Lines. -/
def say (lines : List (List Nat)) : Out := (lines, .ok ())

/-- The line of an offset, gpt.rs:69-72, mbr.rs:169-172, apm.rs:106-109. -/
def offsetLine (offset : Nat) : List Nat :=
  line "    Offset\t\t\t\t: " (VfsParts.decimal offset ++ codePoints " (0x" ++ Display.hex 8 offset ++ codePoints ")")

/-- A UUID, uuid.rs:142-147. -/
def uuidText (u : Uuid.Uuid) : List Nat := (Uuid.toString u).map BitVec.toNat

/-- The loop over the partitions, from an index, with the number of turns. -/
def partitions (one : Nat → Out) : Nat → Nat → Out
  | 0, _ => say []
  | n + 1, i => (one i).andThen (partitions one n (i + 1))

/-- A partition, gpt.rs:48-82. -/
def gptPartition (s : Gpt.System) (i : Nat) : Out :=
  (say [[]]).andThen (after (Gpt.getPartition s i) fun w =>
    match s.entries[i]? with
    | none => ([], .err)
    | some e => (say [line "Partition: " (VfsParts.decimal (i + 1)), line "    Identifier\t\t\t\t: " (uuidText e.id),
        line "    Type identifier\t\t\t: " (uuidText e.typeId), offsetLine w.offset]).andThen (printed (sizeLine " bytes" w.size)))

/-- `GptInfo::print_volume_system`, gpt.rs:24-87. -/
def gpt (data : List Byte) : Out :=
  after (Gpt.readTable data 0) fun s =>
    (say [codePoints "GUID Partition Table (GPT) information:", line "    Disk identifier\t\t\t: " (uuidText s.disk),
      line "    Bytes per sector\t\t\t: " (VfsParts.decimal s.bps ++ codePoints " bytes"),
      line "    Number of partitions\t\t: " (VfsParts.decimal s.entries.length)]).andThen
    ((partitions (gptPartition s) s.entries.length 0).andThen (say [[]]))

/-- The names of the types of partitions, mbr.rs:37-132. -/
def mbrTypes : List (Nat × String) := [
  (0x00, "Empty"), (0x01, "FAT12 (CHS)"), (0x02, "XENIX root"), (0x03, "XENIX user"), (0x04, "FAT16 < 32 MiB (CHS)"),
  (0x05, "Extended (CHS)"), (0x06, "FAT16 (CHS)"), (0x07, "HPFS/NTFS"), (0x08, "AIX"), (0x09, "AIX bootable"), (0x0a, "OS/2 Boot Manager"),
  (0x0b, "FAT32 (CHS)"), (0x0c, "FAT32 (LBA)"), (0x0e, "FAT16 (LBA)"), (0x0f, "Extended (LBA)"), (0x10, "OPUS"),
  (0x11, "Hidden FAT12 (CHS)"), (0x12, "Compaq diagnostics"), (0x14, "Hidden FAT16 < 32 MiB (CHS)"), (0x16, "Hidden FAT16 (CHS)"),
  (0x17, "Hidden HPFS/NTFS"), (0x18, "AST SmartSleep"), (0x1b, "Hidden FAT32 (CHS)"), (0x1c, "Hidden FAT32 (LBA)"),
  (0x1e, "Hidden FAT16 (LBA)"), (0x24, "NEC DOS"), (0x39, "Plan 9"), (0x3c, "PartitionMagic recovery"), (0x40, "Venix 80286"),
  (0x41, "PPC PReP Boot"), (0x42, "SFS / MS LDM"), (0x4d, "QNX4.x"), (0x4e, "QNX4.x 2nd part"), (0x4f, "QNX4.x 3rd part"),
  (0x50, "OnTrack DM"), (0x51, "OnTrack DM6 Aux1"), (0x52, "CP/M"), (0x53, "OnTrack DM6 Aux3"), (0x54, "OnTrackDM6"), (0x55, "EZ-Drive"),
  (0x56, "Golden Bow"), (0x5c, "Priam Edisk"), (0x61, "SpeedStor"), (0x63, "GNU HURD or SysV"), (0x64, "Novell Netware 286"),
  (0x65, "Novell Netware 386"), (0x70, "DiskSecure Multi-Boot"), (0x75, "PC/IX"), (0x78, "XOSL"), (0x80, "Old Minix"),
  (0x81, "Minix / old Linux"), (0x82, "Linux swap / Solaris"), (0x83, "Linux"), (0x84, "OS/2 hidden C: drive"), (0x85, "Linux extended"),
  (0x86, "NTFS partition set"), (0x87, "NTFS partition set"), (0x8e, "Linux LVM"), (0x93, "Amoeba"), (0x94, "Amoeba BBT"),
  (0x9f, "BSD/OS"), (0xa0, "IBM Thinkpad hibernation"), (0xa5, "FreeBSD"), (0xa6, "OpenBSD"), (0xa7, "NeXTSTEP"), (0xa9, "NetBSD"),
  (0xaf, "MacOS-X"), (0xb7, "BSDI fs"), (0xb8, "BSDI swap"), (0xbb, "Boot Wizard hidden"), (0xc1, "DRDOS/sec (FAT-12)"),
  (0xc4, "DRDOS/sec (FAT-16 < 32 MiB)"), (0xc6, "DRDOS/sec (FAT-16)"), (0xc7, "Syrinx"), (0xda, "Non-FS data"), (0xdb, "CP/M / CTOS"),
  (0xde, "Dell Utility"), (0xdf, "BootIt"), (0xe1, "DOS access"), (0xe3, "DOS R/O"), (0xe4, "SpeedStor"), (0xeb, "BeOS fs"),
  (0xee, "EFI GPT protective"), (0xef, "EFI System (FAT)"), (0xf0, "Linux/PA-RISC boot"), (0xf1, "SpeedStor"), (0xf4, "SpeedStor"),
  (0xf2, "DOS secondary"), (0xfd, "Linux raid autodetect"), (0xfe, "LANstep"), (0xff, "BBT")]

/-- The line of a type, mbr.rs:157-168. -/
def typeLine (kind : Nat) : List Nat :=
  match mbrTypes.find? (·.1 == kind) with
  | some (_, name) => line "    Type\t\t\t\t: 0x" (Display.hex 2 kind ++ codePoints " (" ++ codePoints name ++ codePoints ")")
  | none => line "    Type\t\t\t\t: 0x" (Display.hex 2 kind)

/-- A partition, mbr.rs:145-183. -/
def mbrPartition (s : Mbr.System) (i : Nat) : Out :=
  (say [[]]).andThen (after (Mbr.getPartition s i) fun w =>
    match s.entries[i]? with
    | none => ([], .err)
    | some e => (say [line "Partition: " (VfsParts.decimal (i + 1)), typeLine e.kind, offsetLine w.offset]).andThen
        ((printed (sizeLine " bytes" w.size)).andThen (say [line "    Flags\t\t\t\t: 0x" (Display.hex 2 e.flags)])))

/-- `MbrInfo::print_volume_system`, mbr.rs:26-188. -/
def mbr (data : List Byte) : Out :=
  after (Mbr.readBoot data 0) fun s =>
    (say [codePoints "Master Boot Record (MBR) information:", line "    Disk identity\t\t\t: 0x" (Display.hex 1 s.identity),
      line "    Bytes per sector\t\t\t: " (VfsParts.decimal s.bps ++ codePoints " bytes"),
      line "    Number of partitions\t\t: " (VfsParts.decimal s.entries.length)]).andThen
    ((partitions (mbrPartition s) s.entries.length 0).andThen (say [[]]))

/-- The meaning of the status flags, apm.rs:25-62. -/
def apmFlags : List (Nat × String) := [(0x1, "Is valid"), (0x2, "Is allocated"), (0x4, "Is in use"), (0x8, "Contains boot information"),
  (0x10, "Is readable"), (0x20, "Is writeable"), (0x40, "Boot code is position independent"), (0x100, "Contains a chain-compatible driver"),
  (0x200, "Contains a real driver"), (0x400, "Contains a chain driver"), (0x40000000, "Automatic mount at startup"),
  (0x80000000, "Is startup partition")]

/-- `print_partition_status_flags`, apm.rs:24-62. -/
def flagLines (flags : Nat) : List (List Nat) :=
  (apmFlags.filter fun f => flags &&& f.1 != 0).map fun f => line "        0x" (Display.hex 8 f.1 ++ codePoints ": " ++ codePoints f.2)

/-- The line of a name, apm.rs:103-105. -/
def nameLines (name : List Byte) : Out :=
  if name.isEmpty then say []
  else printed do
    let text ← Path.bytesText name
    return line "    Name\t\t\t\t: " text

/-- A partition, apm.rs:85-124. -/
def apmPartition (entries : List Apm.Entry) (i : Nat) : Out :=
  (say [[]]).andThen (after (Apm.getPartition entries i) fun w =>
    match entries[i]? with
    | none => ([], .err)
    | some e => (say [line "Partition: " (VfsParts.decimal (i + 1))]).andThen
        ((printed do
            let text ← Path.bytesText e.typeId
            return line "    Type identifier\t\t\t: " text).andThen
          ((nameLines e.name).andThen ((say [offsetLine w.offset]).andThen ((printed (sizeLine "" w.size)).andThen
            (say (line "    Status flags\t\t\t: 0x" (Display.hex 8 e.flags) :: flagLines e.flags)))))))

/-- `ApmInfo::print_volume_system`, apm.rs:65-129; there are 512 bytes per sector. -/
def apm (data : List Byte) : Out :=
  after (Apm.readMap data) fun entries =>
    (say [codePoints "Apple Partition Map (APM) information:", line "    Bytes per sector\t\t\t: " (VfsParts.decimal 512 ++ codePoints " bytes"),
      line "    Number of partitions\t\t: " (VfsParts.decimal entries.length)]).andThen
    ((partitions (apmPartition entries) entries.length 0).andThen (say [[]]))

end Keramics.InfoTool
