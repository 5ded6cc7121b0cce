import Verif.Model.VfsScanner
import Verif.Model.InfoTool

/-!
# Model: the hierarchy command of the image tool

keramics-tools/src/image_tool.rs, `scan_for_hierarchy` and `print_scan_node`. The scan is that of `Verif.Model.VfsScanner`. Error messages
are left out.
-/

namespace Keramics.ImageHierarchy
open Vfs (VfsType Location)
open Spec (codePoints)
open VfsScanner (World ScanPath Node pathOf openFileSystem stream)
open HashTool (Out after printed)
open InfoTool (say)

/-- What the data is, besides the `World` of the scanner: `open` of an ext, FAT or NTFS file system in a data stream with
`get_file_entry_by_path` of its root directory, ext/file_system.rs, fat/file_system.rs, ntfs/file_system.rs, and the `identifier` of a GPT
partition, gpt/partition.rs. -/
structure Data (D : Type) where
  world : World D
  files : VfsType → D → R Unit
  identifier : D → Uuid.Uuid

variable {D : Type}

/-- `VfsType::as_str`, enums.rs:48-65. -/
def typeText : VfsType → List Nat
  | .apm => codePoints "APM"
  | .ext => codePoints "EXT"
  | .ewf => codePoints "EWF"
  | .fake => codePoints "FAKE"
  | .fat => codePoints "FAT"
  | .gpt => codePoints "GPT"
  | .mbr => codePoints "MBR"
  | .ntfs => codePoints "NTFS"
  | .os => codePoints "OS"
  | .qcow => codePoints "QCOW"
  | .sparseImage => codePoints "SPARSEIMAGE"
  | .udif => codePoints "UDIF"
  | .vhd => codePoints "VHD"
  | .vhdx => codePoints "VHDX"

/-- `VfsPath::to_string`, vfs/path.rs:237-246. Paths of the operating system are text. -/
def pathText : ScanPath → R (List Nat)
  | .os text => .ok text
  | .vfs path => path.text

/-- `GptFileEntry::get_identifier`, gpt/file_entry.rs:58-66. -/
def identifierOf (x : Data D) : VfsParts.Entry D → Option Uuid.Uuid
  | .part _ data => some (x.identifier data)
  | .root => none

/-- The file entry at a path of the file system of an image or volume system, and its identifier if it is of a GPT. -/
def partIdentifier (x : Data D) (type : VfsType) (s : VfsParts.System D) (path : Path.VfsPath) : R (Option Uuid.Uuid) := do
  let e ← VfsParts.byPath s path
  return if type = .gpt then e.bind (identifierOf x) else none

/-- `get_file_entry_by_location`, resolver.rs:60-73, context.rs, with the identifier of the file entry, image_tool.rs:913-936. The cache
of file systems is left out: it gives the file system that would be opened (C50). The paths in ext, FAT and NTFS file systems are those of
root directories, as a scan gives no others. -/
def lookup (x : Data D) : Location ScanPath → R (Option Uuid.Uuid)
  | .base (.os path) .os => do
    let _ ← x.world.os path
    return none
  | .base _ _ => .err
  | .layer path parent type => do
    let fs ← openFileSystem x.world parent
    if type = .ext ∨ type = .fat ∨ type = .ntfs then do
      x.files type (← stream x.world fs (pathOf parent))
      return none
    else do
      let s ← VfsScanner.openIn x.world fs (pathOf parent) type
      match path with
      | .vfs path => partIdentifier x type s path
      | .os _ => .err

/-- image_tool.rs:927-936 -/
def suffix : Option Uuid.Uuid → List Nat
  | some identifier => codePoints " (alias: /gpt{" ++ InfoTool.uuidText identifier ++ codePoints "})"
  | none => []

/-- The line of a scan node, image_tool.rs:922-942. -/
def nodeLine (depth : Nat) (location : Location ScanPath) (identifier : Option Uuid.Uuid) : R (List Nat) := do
  let text ← pathText (pathOf location)
  return List.replicate (depth * 4) 0x20 ++ typeText location.type ++ codePoints ": path: " ++ text ++ suffix identifier

mutual
/-- `print_scan_node`, image_tool.rs:910-947. -/
def printNode (x : Data D) : Nat → Node → Out
  | depth, .node location subs =>
    after (lookup x location) fun identifier =>
      (printed (nodeLine depth location identifier)).andThen (printNodes x (depth + 1) subs)
/-- The loop over the sub nodes, image_tool.rs:943-945. -/
def printNodes (x : Data D) : Nat → List Node → Out
  | _, [] => say []
  | depth, sub :: subs => (printNode x depth sub).andThen (printNodes x depth subs)
end

/-- `scan_for_hierarchy`, image_tool.rs:1073-1108. `fuel` bounds the depth of the calls of the scanner. -/
def hierarchy (x : Data D) (fuel : Nat) (source : List Nat) : Out :=
  after (VfsScanner.scan x.world fuel (.base (.os source) .os)) fun node => printNode x 0 node

end Keramics.ImageHierarchy
