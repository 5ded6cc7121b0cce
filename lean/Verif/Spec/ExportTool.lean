import Verif.Model.ExportTool
import Verif.Spec.VfsScanner
import Verif.Spec.Stream

/-!
# Specification: where the export tool looks for a path

In every file system, and in every image or volume system without a file system in it; in the order of the volumes.
-/

namespace Keramics.Spec
open Vfs (Location)
open VfsScanner (ScanPath)

/-- The path in an image or volume system at a location. -/
def PartsKind.asked (k : PartsKind) (components : List (List Nat)) (location : Location ScanPath) : Location ScanPath :=
  .layer (.vfs (.string components)) location k.type

/-- The path in the file system of a volume at a location. -/
def Volume.asked (components : List (List Nat)) (location : Location ScanPath) : Volume → Option (Location ScanPath)
  | .nothing => none
  | .ext => some (.layer (.vfs (.ext (components.map Path.bytesOf))) location .ext)
  | .fat => some (.layer (.vfs (.fat (components.map fun c => .ucs2 (Path.ucs2Of c)))) location .fat)
  | .ntfs => some (.layer (.vfs (.ntfs (components.map Path.ucs2Of))) location .ntfs)

/-- The path in the volumes of a disk. That of a partition without a file system is looked up in the volume system. -/
def Disk.asked (components : List (List Nat)) (location : Location ScanPath) : Disk → List (Location ScanPath)
  | .files f => (f.asked components location).toList
  | .partitions k ps =>
    if ps = [] then [k.asked components location]
    else ps.mapIdx fun i f => (f.asked components (partLocation k (i + 1) location)).getD (k.asked components location)

/-- The path in what a file holds. -/
def Content.asked (components : List (List Nat)) (location : Location ScanPath) : Content → List (Location ScanPath)
  | .raw d => d.asked components location
  | .image k n d => if d.asked components (partLocation k n location) = [] then [k.asked components location] else d.asked components (partLocation k n location)

/-- From the state, reads, however short, give the contents from their begin and then nothing. -/
def ReadsAs {S : Type} (read : S → Nat → R (List Byte × S)) (s : S) (contents : List Byte) : Prop :=
  contents.length < 2 ^ 64 ∧ ∃ position : S → Nat → Prop, position s 0 ∧
    ∀ s p n, position s p → ∃ out s', read s n = .ok (out, s') ∧ readOk false contents contents.length p n out ∧ position s' (p + out.length)

/-- What a lookup gives: nothing, or a data stream with the contents. -/
def Gives {S : Type} (read : S → Nat → R (List Byte × S)) (result : R (Option S)) : Option (List Byte) → Prop
  | none => result = .ok none
  | some contents => ∃ s, result = .ok (some s) ∧ ReadsAs read s contents

end Keramics.Spec
