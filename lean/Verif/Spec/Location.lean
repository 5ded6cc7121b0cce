import Verif.Spec.VfsParts
import Verif.Model.Vfs

/-!
# Specification: the text of a location

A location is a path in a file system or volume system that is itself found at a path in another one, and so on.
-/

namespace Keramics.Spec.Location
open Keramics.Vfs (Location VfsType)

/-- The types and paths of a location, the outermost first. -/
inductive Levels : Location Path.VfsPath → List (VfsType × Path.VfsPath) → Prop
  | base {path type} : Levels (.base path type) [(type, path)]
  | layer {path parent type levels} : Levels parent levels → Levels (.layer path parent type) (levels ++ [(type, path)])

/-- The names of the types. -/
def names : List (VfsType × String) := [(.apm, "APM"), (.ext, "EXT"), (.ewf, "EWF"), (.fake, "FAKE"), (.fat, "FAT"), (.gpt, "GPT"), (.mbr, "MBR"),
  (.ntfs, "NTFS"), (.os, "OS"), (.qcow, "QCOW"), (.sparseImage, "SPARSEIMAGE"), (.udif, "UDIF"), (.vhd, "VHD"), (.vhdx, "VHDX")]

/-- A line for every level, the outermost first: its type and its path. -/
inductive Text : List (VfsType × Path.VfsPath) → List Nat → Prop
  | nil : Text [] []
  | line {type name path p levels rest} : (type, name) ∈ names → path.text = .ok p → Text levels rest →
      Text ((type, path) :: levels) (codePoints "type: " ++ codePoints name ++ codePoints ": path: " ++ p ++ codePoints "\n" ++ rest)

end Keramics.Spec.Location
