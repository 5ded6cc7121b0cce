import Verif.Model.VfsParts
import Verif.Model.Sigscan

/-!
# Model: the scanner of the VFS

keramics-vfs/src/scanner/scanner.rs. The file systems of images and volume systems are those of `Verif.Model.VfsParts`, the formats and
their signatures those of `Verif.Model.Sigscan`. Data streams are of a type `D`. What depends on the data is in a `World`: the formats
that a format scanner finds in a stream, the volume system of a stream, the image at a path and the files of the operating system.
-/

namespace Keramics.VfsScanner
open Vfs (VfsType Location)
open Sigscan (Format)
open Spec (PartsKind codePoints)
open VfsParts (System Entry)

/-- `VfsPath`, vfs/path.rs:28-34, with the paths of the operating system as text. -/
inductive ScanPath
  | os (text : List Nat)
  | vfs (path : Path.VfsPath)
deriving DecidableEq

/-- `VfsPath::from_path`, vfs/path.rs:38-55. -/
def fromText : VfsType → List Nat → ScanPath
  | .os, text => .os text
  | .ext, text => .vfs (Path.VfsPath.fromText .ext text)
  | .fat, text => .vfs (Path.VfsPath.fromText .fat text)
  | .ntfs, text => .vfs (Path.VfsPath.fromText .ntfs text)
  | _, text => .vfs (Path.VfsPath.fromText .string text)

/-- `get_path`, location.rs:77-82. -/
def pathOf {P : Type} : Location P → P
  | .base p _ => p
  | .layer p _ _ => p

/-- `VfsFileType`, enums.rs, as far as the scanner tells them apart. -/
inductive FileType
  | file | device | other
deriving DecidableEq

/-- A file of the operating system: its type and its data stream, os/file_entry.rs:86-100. -/
structure OsEntry (D : Type) where
  type : FileType
  data : R D

/-- A `VfsFileSystem` that the scanner opens: that of the operating system, or that of an image or volume system. -/
inductive FileSystem (D : Type)
  | os
  | parts (system : System D)

/-- What the data is. -/
structure World (D : Type) where
  /-- `FormatScanner::scan_data_stream` of a scanner for formats: the set of formats as a list without repetition. -/
  scan : List Format → D → R (List Format)
  /-- `read_data_stream` of a volume system. -/
  volumes : PartsKind → D → R (System D)
  /-- `open_image` or `open_file` of an image at a path. -/
  image : PartsKind → FileSystem D → ScanPath → R (System D)
  /-- `get_file_entry_by_path` of the operating system. -/
  os : List Nat → R (Option (OsEntry D))

variable {D : Type}

/-- `get_data_stream_by_path_and_name` without a name, file_system.rs:285-295, with os/file_entry.rs:86-100. -/
def dataStream (w : World D) : FileSystem D → ScanPath → R (Option D)
  | .os, .os path => do
    match ← w.os path with
    | none => return none
    | some e => if e.type = .file then do return some (← e.data) else return none
  | .parts s, .vfs path => do
    match ← VfsParts.byPath s path with
    | none => return none
    | some e => return VfsParts.dataStream e
  | _, _ => .err

/-- `get_file_entry_by_path` and `get_file_type`, scanner.rs:135-154. -/
def fileType (w : World D) : FileSystem D → ScanPath → R (Option FileType)
  | .os, .os path => do return (← w.os path).map OsEntry.type
  | .parts s, .vfs path => do return (← VfsParts.byPath s path).map fun e => if VfsParts.isDirectory e then .other else .file
  | _, _ => .err

/-- The data stream of a path, which must exist: apm/file_system.rs:181-196. -/
def stream (w : World D) (fs : FileSystem D) (path : ScanPath) : R D := do
  match ← dataStream w fs path with
  | some d => return d
  | none => .err

/-- `open` of a `VfsFileSystem` in a parent, context.rs:122-131: volume systems (apm/file_system.rs:137-173, 176-207) and images
(qcow/file_system.rs:135-168). Other file systems are not opened by the scanner. -/
def openIn (w : World D) (parent : FileSystem D) (path : ScanPath) : VfsType → R (System D)
  | .apm => do w.volumes .apm (← stream w parent path)
  | .gpt => do w.volumes .gpt (← stream w parent path)
  | .mbr => do w.volumes .mbr (← stream w parent path)
  | .ewf => w.image .ewf parent path
  | .qcow => w.image .qcow parent path
  | .sparseImage => w.image .sparseImage parent path
  | .udif => w.image .udif parent path
  | .vhd => w.image .vhd parent path
  | .vhdx => w.image .vhdx parent path
  | _ => .err

/-- `VfsResolver::open_file_system`, resolver.rs:76-89, context.rs:78-140. The cache is left out: it gives the file system that would
be opened (C50). A base location is in the operating system. -/
def openFileSystem (w : World D) : Location ScanPath → R (FileSystem D)
  | .base _ type => if type = .os then .ok .os else .err
  | .layer _ parent type => do
    let fs ← openFileSystem w parent
    let s ← openIn w fs (pathOf parent) type
    return .parts s

/-- `scan_results.len() > 1` and `scan_results.iter().next()`, scanner.rs:231-246, 267-286, 655-660, 682-687, 709-714: the only format, if any. -/
def only : List Format → R (Option Format)
  | [] => .ok none
  | [f] => .ok (some f)
  | _ => .err

/-- scanner.rs:236-246 -/
def fileSystemType : Option Format → R (Option VfsType)
  | some .ext => .ok (some .ext)
  | some .fat => .ok (some .fat)
  | some .ntfs => .ok (some .ntfs)
  | some _ => .err
  | none => .ok none

/-- `scan_for_file_system_format`, scanner.rs:215-247; the scanner is of scanner.rs:117-120. -/
def scanFileSystem (w : World D) (d : D) : R (Option VfsType) := do
  fileSystemType (← only (← w.scan [.ext, .fat, .ntfs] d))

/-- scanner.rs:272-286 -/
def imageType : Option Format → R (Option VfsType)
  | some .ewf => .ok (some .ewf)
  | some .qcow => .ok (some .qcow)
  | some .sparseImage => .ok (some .sparseImage)
  | some .udif => .ok (some .udif)
  | some .vhd => .ok (some .vhd)
  | some .vhdx => .ok (some .vhdx)
  | some _ => .err
  | none => .ok none

/-- `scan_for_storage_media_image_format`, scanner.rs:249-287; the scanner is of scanner.rs:86-93. -/
def scanImage (w : World D) (d : D) : R (Option VfsType) := do
  imageType (← only (← w.scan [.ewf, .qcow, .sparseImage, .udif, .vhd, .vhdx] d))

/-- Phase 3, scanner.rs:696-722; the scanner is of scanner.rs:114-115. -/
def phase3 (w : World D) (d : D) : R (Option VfsType) := do
  match ← only (← w.scan [.mbr] d) with
  | some .mbr => .ok (some .mbr)
  | some _ => .err
  | none => .ok none

/-- Phase 2, scanner.rs:669-694; the scanner is of scanner.rs:110-112. -/
def phase2 (w : World D) (d : D) : R (Option VfsType) := do
  match ← only (← w.scan [.fat, .ntfs] d) with
  | some .fat => .ok none
  | some .ntfs => .ok none
  | some _ => .err
  | none => phase3 w d

/-- `scan_for_volume_system_format`, scanner.rs:637-727; the scanner of phase 1 is of scanner.rs:106-108. -/
def scanVolumes (w : World D) (d : D) : R (Option VfsType) := do
  match ← only (← w.scan [.apm, .gpt] d) with
  | some .apm => .ok (some .apm)
  | some .gpt => .ok (some .gpt)
  | some _ => .err
  | none => phase2 w d

/-- `if result.is_none()`, scanner.rs:192-194, 201-206. -/
def orElse (r : Option VfsType) (next : R (Option VfsType)) : R (Option VfsType) :=
  match r with
  | some t => .ok (some t)
  | none => next

/-- `scan_for_format`, scanner.rs:181-212, on the data stream of the location. -/
def formatOf (w : World D) (type : VfsType) (d : D) : R (Option VfsType) :=
  match type with
  | .apm | .gpt | .mbr => scanFileSystem w d
  | .ewf | .qcow | .vhd | .vhdx => do
    let r ← scanVolumes w d
    orElse r (scanFileSystem w d)
  | .fake | .os => do
    let r ← scanImage w d
    let r ← orElse r (scanVolumes w d)
    orElse r (scanFileSystem w d)
  | _ => .err

/-- `scan_for_format`, scanner.rs:162-213. -/
def scanFormat (w : World D) (fs : FileSystem D) (location : Location ScanPath) : R (Option VfsType) := do
  let d ← stream w fs (pathOf location)
  formatOf w location.type d

/-- `VfsScanNode`, scan_node.rs:18-25. -/
inductive Node
  | node (location : Location ScanPath) (subs : List Node)

/-- The root path, scanner.rs:318-321, 479-482, 739-742, 767-770. -/
def rootText : VfsType → List Nat
  | .ntfs => [0x5c]
  | _ => [0x2f]

/-- The location of a format below a location, scanner.rs:322-324, 483-486, 743-744, 771-775. -/
def below (location : Location ScanPath) (type : VfsType) : Location ScanPath := .layer (fromText type (rootText type)) location type

/-- What is below a location whose format was scanned for, scanner.rs:316-331, 477-499, 765-786. -/
def formatNodes (subNodes : FileSystem D → Location ScanPath → VfsType → R (List Node)) (fs : FileSystem D) (location : Location ScanPath) :
    Option VfsType → R (List Node)
  | some t => do return [.node (below location t) (← subNodes fs location t)]
  | none => .ok []

/-- `scan_for_storage_media_image_sub_nodes`, scanner.rs:289-333. -/
def imageNodes (subNodes : FileSystem D → Location ScanPath → VfsType → R (List Node)) (w : World D) (location : Location ScanPath)
    (type : VfsType) (label : List Nat) (number : Nat) : R (List Node) :=
  if number = 0 then .ok []
  else do
    let layer := Location.layer (fromText type (label ++ VfsParts.decimal number)) location type
    let fs ← openFileSystem w layer
    let t ← scanFormat w fs layer
    formatNodes subNodes fs layer t

/-- A turn of the loop of scanner.rs:754-788. -/
def volumeNode (subNodes : FileSystem D → Location ScanPath → VfsType → R (List Node)) (w : World D) (fs : FileSystem D) (location : Location ScanPath)
    (type : VfsType) (label : List Nat) (i : Nat) : R Node := do
  let volume := Location.layer (fromText type (label ++ VfsParts.decimal (i + 1))) location type
  let t ← scanFormat w fs volume
  let subs ← formatNodes subNodes fs volume t
  return .node volume subs

/-- `scan_for_volume_system_sub_nodes`, scanner.rs:729-790. -/
def volumeNodes (subNodes : FileSystem D → Location ScanPath → VfsType → R (List Node)) (w : World D) (location : Location ScanPath)
    (type : VfsType) (label : List Nat) (number : Nat) : R (List Node) := do
  let fs ← openFileSystem w (below location type)
  (List.range number).mapM (volumeNode subNodes w fs location type label)

/-- The kind of the image or volume system of a type with its `PATH_PREFIX`: apm/file_system.rs:35, gpt/file_system.rs:35,
mbr/file_system.rs:35, qcow/file_system.rs:37, vhd/file_system.rs:37, vhdx/file_system.rs:37, ewf/file_system.rs:37,
sparseimage/file_system.rs:35, udif/file_system.rs:35. -/
def pathPrefix : VfsType → List Nat
  | .apm => codePoints "/apm"
  | .gpt => codePoints "/gpt"
  | .mbr => codePoints "/mbr"
  | .qcow => codePoints "/qcow"
  | .vhd => codePoints "/vhd"
  | .vhdx => codePoints "/vhdx"
  | .ewf => codePoints "/ewf"
  | .sparseImage => codePoints "/sparseimage"
  | .udif => codePoints "/udif"
  | _ => []

/-- The number of layers that is used: that of the image, or 1: scanner.rs:396, 510, 543, 569, 588, 613. -/
def layers (type : VfsType) (s : System D) : Nat :=
  match type with
  | .qcow | .vhd | .vhdx => s.number
  | _ => 1

/-- `scan_for_sub_nodes`, scanner.rs:335-635, with the type of the scan node. -/
def subNodes (w : World D) : Nat → FileSystem D → Location ScanPath → VfsType → R (List Node)
  | 0, _, _, _ => .panic
  | fuel + 1, fs, location, type =>
    match type with
    | .apm | .gpt | .mbr => do
      let s ← openIn w fs (pathOf location) type
      volumeNodes (subNodes w fuel) w location type (pathPrefix type) s.number
    | .ext | .fat | .ntfs => .ok []
    | .os => do
      let t ← scanFormat w fs location
      formatNodes (subNodes w fuel) fs location t
    | .ewf | .qcow | .sparseImage | .udif | .vhd | .vhdx => do
      let s ← openIn w fs (pathOf location) type
      imageNodes (subNodes w fuel) w location type (pathPrefix type) (layers type s)
    | .fake => .err

/-- `scan`, scanner.rs:125-160. Returns the root node. -/
def scan (w : World D) (fuel : Nat) (location : Location ScanPath) : R Node := do
  let fs ← openFileSystem w location
  match ← fileType w fs (pathOf location) with
  | some .file => do
    let subs ← subNodes w fuel fs location location.type
    return .node location subs
  | _ => .err

end Keramics.VfsScanner
