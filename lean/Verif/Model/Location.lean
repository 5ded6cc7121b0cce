import Verif.Model.Vfs
import Verif.Model.HashTool

/-! # Model: the text of a location -/

namespace Keramics.Location
open Keramics.Vfs (Location VfsType)
open Keramics.Spec (codePoints)

/-- `VfsType::as_str`, keramics-vfs/src/enums.rs:48-65. -/
def typeText : VfsType → List Nat
  | .apm => codePoints "APM"
  | .ext => codePoints "EXT"
  | .ewf => codePoints "EWF"
  | .fake => codePoints "FAKE"
  | .fat => codePoints "FAT"
  | .gpt => codePoints "GPT"
  | .mbr => codePoints "MBR"
  | .ntfs => codePoints "NTFS"
  | .os => codePoints "OS"
  | .qcow => codePoints "QCOW"
  | .sparseImage => codePoints "SPARSEIMAGE"
  | .udif => codePoints "UDIF"
  | .vhd => codePoints "VHD"
  | .vhdx => codePoints "VHDX"

/-- `VfsLocation::to_string`, keramics-vfs/src/location.rs:93-111. -/
def text : Location Path.VfsPath → R (List Nat)
  | .base path type => do
    let p ← path.text
    return codePoints "type: " ++ typeText type ++ codePoints ": path: " ++ p ++ codePoints "\n"
  | .layer path parent type => do
    let a ← text parent
    let p ← path.text
    return typeText type ++ codePoints "\ntype: " ++ a ++ codePoints ": path: " ++ p ++ codePoints "\n"

/-- `new_with_layer`, location.rs:43-49. -/
def withLayer (l : Location Path.VfsPath) (type : VfsType) (path : Path.VfsPath) : Location Path.VfsPath := .layer path l type

/-- `new_with_parent`, location.rs:52-66. -/
def withParent (l : Location Path.VfsPath) (path : Path.VfsPath) : Location Path.VfsPath := match l with
  | .base _ type => .base path type
  | .layer _ parent type => .layer path parent type

end Keramics.Location
