import Verif.Model.HashTool

/-!
# Model: the bodyfile of the image tool

keramics-tools/src/image_tool.rs and keramics-tools/src/bodyfile.rs, the command that lists the file entries of a storage media image
in the bodyfile format. Lines that were printed stay printed if the tool fails later. Locks, messages and the arguments are left out.
-/

namespace Keramics.ImageTool
open HashTool (Name Out after printed escape joinNames)
open Vfs (Location)
open VfsScanner (Node ScanPath)
open Spec (codePoints)

/-- `DateTime`, keramics-datetime/src/datetime.rs; the kinds that the bodyfile does not support are one. -/
inductive Time
  | notSet
  | filetime (timestamp : Nat)
  | posix32 (timestamp : Int)
  | posix64 (timestamp : Int) (fraction : Nat)
  | other
deriving DecidableEq

/-- `VfsFileType`, keramics-vfs/src/enums.rs. -/
inductive FileType
  | blockDevice | characterDevice | directory | file | namedPipe | socket | symbolicLink | whiteout | unknown
deriving DecidableEq

/-- What the tool asks of the file entry of a kind of file system: ext/file_entry.rs, fat/file_entry.rs, ntfs/file_entry.rs. -/
inductive Kind
  | ext (inode mode owner group : Nat)
  | fat (identifier flags : Nat)
  | ntfs (reference flags : Nat)
  | other
deriving DecidableEq

/-- `NtfsFileName`, ntfs/file_name.rs, without what the tool does not use. -/
structure FileName where
  parent : Nat
  name : List Nat
  nameSpace : Nat
  access : Time
  modification : Time
  entryModification : Time
  creation : Time

/-- A `VfsFileEntry`, vfs/file_entry.rs: its kind, type, size, times, data stream and symbolic link target; of NTFS the reference of
its parent directory and the attributes, of which those that are no $FILE_NAME are none. -/
structure Info (S : Type) where
  kind : Kind
  type : FileType
  size : Nat
  access : Option Time
  modification : Option Time
  change : Option Time
  creation : Option Time
  stream : R (Option S)
  target : R (Option Path.VfsPath)
  parent : Option Nat
  attributes : List (R (Option FileName))

/-- An opened file system with what is known of its file entries. -/
structure Volume (E S : Type) extends HashTool.Volume E S where
  info : E → Info S

/-- What the tool works on: `read` and `get_size` of a data stream, `VfsResolver::open_file_system` of a location and `calculate_md5`. -/
structure Config (E S : Type) where
  read : S → Nat → R (List Byte × S)
  streamSize : S → R Nat
  openVolume : Location ScanPath → R (Volume E S)
  md5 : Bool

/-- `ImageTool::new`, image_tool.rs:414-425: the translation table of `DisplayPath` with the vertical bar. -/
def table (c : Nat) : List Nat := if c = 0x7c then [0x5c, 0x7c] else Display.character c

/-- `format_as_timestamp`, bodyfile.rs:56-88. -/
def timestamp : Option Time → R (List Nat)
  | none => .ok []
  | some .notSet => .ok []
  | some (.filetime t) => .ok ((Bodyfile.filetime t).map Char.toNat)
  | some (.posix32 t) => .ok ((Bodyfile.posix32 t).map Char.toNat)
  | some (.posix64 t f) => .ok ((Bodyfile.posix64 t f).map Char.toNat)
  | some .other => .err

/-- A part of a mode string. -/
def bit (mode flag letter : Nat) : Nat := if mode &&& flag ≠ 0 then letter else 0x2d

/-- The type of a mode, image_tool.rs:496-504. -/
def modeType (mode : Nat) : Nat :=
  if mode &&& 0xf000 = 0x1000 then 0x70
  else if mode &&& 0xf000 = 0x2000 then 0x63
  else if mode &&& 0xf000 = 0x4000 then 0x64
  else if mode &&& 0xf000 = 0x6000 then 0x62
  else if mode &&& 0xf000 = 0xa000 then 0x6c
  else if mode &&& 0xf000 = 0xc000 then 0x73
  else 0x2d

/-- `get_file_mode_string`, image_tool.rs:466-506. -/
def modeString (mode : Nat) : List Nat :=
  [modeType mode, bit mode 0x0100 0x72, bit mode 0x0080 0x77, bit mode 0x0040 0x78, bit mode 0x0020 0x72, bit mode 0x0010 0x77, bit mode 0x0008 0x78,
    bit mode 0x0004 0x72, bit mode 0x0002 0x77, bit mode 0x0001 0x78]

/-- image_tool.rs:520-526 -/
def writable (flags : Nat) : Nat := if flags &&& 1 ≠ 0 ∨ flags &&& 4 ≠ 0 then 0x2d else 0x77

/-- `get_file_mode_string_from_file_attribute_flags`, image_tool.rs:509-528. -/
def modeStringOfFlags (type : FileType) (flags : Nat) : List Nat :=
  let first := match type with
    | .directory => 0x64
    | .symbolicLink => 0x6c
    | _ => 0x2d
  [first, 0x72, writable flags, 0x78, 0x72, writable flags, 0x78, 0x72, writable flags, 0x78]

/-- `get_file_mode_string_from_file_type`, image_tool.rs:531-546. -/
def modeStringOfType (type : FileType) : List Nat :=
  let first := match type with
    | .blockDevice => 0x62
    | .characterDevice => 0x63
    | .directory => 0x64
    | .namedPipe => 0x70
    | .socket => 0x73
    | .symbolicLink => 0x6c
    | .whiteout => 0x77
    | _ => 0x2d
  first :: codePoints "rwxrwxrwx"

/-- `file_identifier`, image_tool.rs:601-619. -/
def identifier : Kind → List Nat
  | .ext inode _ _ _ => VfsParts.decimal inode
  | .fat identifier _ => codePoints "0x" ++ Display.hex 8 identifier
  | .ntfs reference _ => VfsParts.decimal (reference &&& 0xffffffffffff) ++ codePoints "-" ++ VfsParts.decimal (reference >>> 48)
  | .other => []

/-- `file_mode_string`, image_tool.rs:621-644. -/
def mode (type : FileType) : Kind → List Nat
  | .ext _ mode _ _ => modeString mode
  | .fat _ flags => modeStringOfFlags type flags
  | .ntfs _ flags => modeStringOfFlags type flags
  | .other => modeStringOfType type

/-- `owner_identifier`, image_tool.rs:645-652. -/
def owner : Kind → List Nat
  | .ext _ _ owner _ => VfsParts.decimal owner
  | _ => []

/-- `group_identifier`, image_tool.rs:653-660. -/
def group : Kind → List Nat
  | .ext _ _ _ group => VfsParts.decimal group
  | _ => []

variable {E S : Type}

/-- `Bodyfile::calculate_md5`, bodyfile.rs:26-54: the loop is that of `DigestHasher`; and what is done without `calculate_md5`,
image_tool.rs:555-556, 752-764. -/
def streamMd5 (c : Config E S) (fuel : Nat) (s : S) : R (List Nat) :=
  if c.md5 then do
    let text ← Hasher.calculateHash .md5 c.read fuel s
    return text.map Char.toNat
  else .ok (codePoints "0")

/-- `md5`, image_tool.rs:555-578. -/
def entryMd5 (c : Config E S) (fuel : Nat) (stream : R (Option S)) : R (List Nat) :=
  if c.md5 then do
    let stream ← stream
    match stream with
    | some s => streamMd5 c fuel s
    | none => return codePoints "00000000000000000000000000000000"
  else .ok (codePoints "0")

/-- `path_suffix`, image_tool.rs:581-600. -/
def linkSuffix (target : R (Option Path.VfsPath)) : R (List Nat) := do
  let target ← target
  match target with
  | some path => do
    let text ← path.text
    return codePoints " -> " ++ text
  | none => return []

/-- `path_prefix`, image_tool.rs:591-595. -/
def pathPrefix (above : List Nat) : List Nat := if above.getLast? = some 0x2f then above.dropLast else above

/-- The parts of a line, image_tool.rs:555-697, without the size and the path. -/
structure Parts where
  md5 : List Nat
  display : List Nat
  suffix : List Nat
  access : List Nat
  modification : List Nat
  change : List Nat
  creation : List Nat

/-- image_tool.rs:555-697 -/
def parts (c : Config E S) (fuel : Nat) (info : Info S) (path : List (Option Name)) : R Parts := do
  let md5 ← entryMd5 c fuel info.stream
  let display ← joinNames table path
  let suffix ← linkSuffix info.target
  let access ← timestamp info.access
  let modification ← timestamp info.modification
  let change ← timestamp info.change
  let creation ← timestamp info.creation
  return ⟨md5, display, suffix, access, modification, change, creation⟩

/-- A line, image_tool.rs:698-713, 781-797, 883-896. -/
def row (kind : Kind) (type : FileType) (md5 path : List Nat) (size : Nat) (access modification change creation : List Nat) : List Nat :=
  md5 ++ [0x7c] ++ path ++ [0x7c] ++ identifier kind ++ [0x7c] ++ mode type kind ++ [0x7c] ++ owner kind ++ [0x7c] ++ group kind ++ [0x7c] ++
    VfsParts.decimal size ++ [0x7c] ++ access ++ [0x7c] ++ modification ++ [0x7c] ++ change ++ [0x7c] ++ creation

/-- A turn of the loop over the data forks, image_tool.rs:725-797: the line, if there is one. -/
def forkRow (c : Config E S) (fuel : Nat) (v : Volume E S) (above : List Nat) (p : Parts) (e : E) (i : Nat) : R (Option (List Nat)) := do
  let f ← v.fork e i
  match f.name with
  | none => return none
  | some n => do
    let name ← escape table (some n)
    let s ← f.stream
    let md5 ← streamMd5 c fuel s
    let size ← c.streamSize s
    return some (row (v.info e).kind (v.info e).type md5 (pathPrefix above ++ p.display ++ (codePoints ":" ++ name) ++ p.suffix) size
      p.access p.modification p.change p.creation)

/-- A line if there is one, or the end. -/
def printedSome : R (Option (List Nat)) → Out
  | .ok none => ([], .ok ())
  | .ok (some line) => ([line], .ok ())
  | .err => ([], .err)
  | .panic => ([], .panic)

/-- The loop over the data forks, image_tool.rs:714-798, from an index, with the number of turns. -/
def forkRows (c : Config E S) (fuel : Nat) (v : Volume E S) (above : List Nat) (p : Parts) (e : E) : Nat → Nat → Out
  | 0, _ => ([], .ok ())
  | n + 1, i => (printedSome (forkRow c fuel v above p e i)).andThen (forkRows c fuel v above p e n (i + 1))

/-- A $FILE_NAME attribute, image_tool.rs:822-897: the line, if there is one. -/
def fileNameRow (v : Volume E S) (above : List Nat) (p : Parts) (e : E) (parent : Nat) (f : FileName) : R (Option (List Nat)) :=
  if f.parent ≠ parent ∨ some (Name.ucs2 f.name) ≠ v.name e then .ok none
  else if f.nameSpace = 2 then .ok none
  else do
    let access ← timestamp (some f.access)
    let modification ← timestamp (some f.modification)
    let change ← timestamp (some f.entryModification)
    let creation ← timestamp (some f.creation)
    return some (row (v.info e).kind (v.info e).type p.md5 (pathPrefix above ++ p.display ++ codePoints " ($FILE_NAME)") (v.info e).size
      access modification change creation)

/-- image_tool.rs:807-899 -/
def attributeRow (v : Volume E S) (above : List Nat) (p : Parts) (e : E) (parent : Nat) (a : R (Option FileName)) : R (Option (List Nat)) := do
  let a ← a
  match a with
  | some f => fileNameRow v above p e parent f
  | none => return none

/-- The loop over the attributes, image_tool.rs:806-900. -/
def attributeRows (v : Volume E S) (above : List Nat) (p : Parts) (e : E) (parent : Nat) : List (R (Option FileName)) → Out
  | [] => ([], .ok ())
  | a :: more => (printedSome (attributeRow v above p e parent a)).andThen (attributeRows v above p e parent more)

/-- image_tool.rs:799-905 -/
def fileNameRows (v : Volume E S) (above : List Nat) (p : Parts) (e : E) : Out :=
  match (v.info e).kind, (v.info e).parent with
  | .ntfs _ _, some parent => attributeRows v above p e parent (v.info e).attributes
  | _, _ => ([], .ok ())

/-- `print_file_entry_as_bodyfile`, image_tool.rs:548-907. -/
def entryRows (c : Config E S) (fuel : Nat) (v : Volume E S) (above : List Nat) (e : E) (path : List (Option Name)) : Out :=
  after (parts c fuel (v.info e) path) fun p =>
  (printed (.ok (row (v.info e).kind (v.info e).type p.md5 (pathPrefix above ++ p.display ++ p.suffix) (v.info e).size
    p.access p.modification p.change p.creation))).andThen
  ((after (v.forks e) fun n => forkRows c fuel v above p e n 0).andThen
  (fileNameRows v above p e))

/-- How the image tool goes through volumes. -/
def walk (c : Config E S) : HashTool.Walk (Volume E S) E := ⟨c.openVolume, fun v => v.toFiles, entryRows c⟩

/-- `generate_bodyfile` for a source that was scanned, image_tool.rs:450-462. -/
def bodyfile (c : Config E S) (fuel : Nat) (node : Node) : Out :=
  (printed (.ok (codePoints "# extended bodyfile 3 format"))).andThen (HashTool.nodeLines (walk c) fuel node)

end Keramics.ImageTool
