import Verif.Spec.Vhd
import Verif.Spec.VhdxOpen
import Verif.Spec.Types

/-!
# Specification: images with layers

A differential image is stored in a file that names the file of its parent, up to one that has no parent.
-/

namespace Keramics.Spec.Layers

/-- `files` are the file with the name, its parent, the parent of that, and so on to one without a parent. `IsFile` tells which file has a
name, `Parent` the name of the parent of a file (none if it has none), `Fits` that a file was made for the parent. -/
inductive Chain (IsFile : List Nat → List Byte → Prop) (Parent : List Byte → Option (List Nat) → Prop) (Fits : List Byte → List Byte → Prop) :
    List Nat → List (List Byte) → Prop
  | base {name f} : IsFile name f → Parent f none → Chain IsFile Parent Fits name [f]
  | layer {name f parent g rest} : IsFile name f → Parent f (some parent) → Chain IsFile Parent Fits parent (g :: rest) → Fits f g →
      Chain IsFile Parent Fits name (f :: g :: rest)

/-- The identifier of a VHD file, in its footer. -/
def vhdId (file : List Byte) : List Byte := bytesAt file (Vhd.footer file + 68) 16

/-- The identifier of the parent of a VHD file, in its header. -/
def vhdParentId (file : List Byte) : List Byte := bytesAt file (Vhd.nextOffset file + 40) 16

/-- The path of the parent: the code units before the first zero. -/
def vhdParentName (file : List Byte) : List Nat := (unitsBe (bytesAt file (Vhd.nextOffset file + 64) 512)).takeWhile (· ≠ 0)

/-- A VHD file has a parent if it is no fixed disk and the identifier of the parent is not zeros. -/
def VhdHasParent (file : List Byte) : Prop := Vhd.diskType file ≠ 2 ∧ vhdParentId file ≠ List.replicate 16 0#8

/-- The name of the file of the parent: what follows the last backslash of the path. -/
def VhdParent (file : List Byte) : Option (List Nat) → Prop
  | none => ¬ VhdHasParent file
  | some t => VhdHasParent file ∧ VhdxFile.FileName (vhdParentName file) t

/-- The chain of a VHD image in a directory. -/
def VhdChain (dir : List Nat → Option (List Byte)) : List Nat → List (List Byte) → Prop :=
  Chain (fun name f => dir name = some f ∧ Vhd.Supported f) VhdParent (fun f g => vhdParentId f = vhdId g)

end Keramics.Spec.Layers
