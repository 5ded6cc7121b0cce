import Verif.Spec.VfsScanner
import Verif.Model.ImageHierarchy

/-!
# Specification: the hierarchy that the image tool prints
-/

namespace Keramics.Spec.Hierarchy
open Keramics.Spec
open ImageHierarchy (Data)

/-- The name of an image or volume system. -/
def kindName : PartsKind → String
  | .apm => "APM" | .gpt => "GPT" | .mbr => "MBR" | .qcow => "QCOW" | .vhd => "VHD" | .vhdx => "VHDX" | .ewf => "EWF"
  | .sparseImage => "SPARSEIMAGE" | .udif => "UDIF"

/-- A line at a depth: four spaces for each level, the name of the format and the path. -/
def line (depth : Nat) (name : String) (path : List Nat) : List Nat :=
  (List.replicate depth (codePoints "    ")).flatten ++ codePoints name ++ codePoints ": path: " ++ path

/-- A file system is one line, with its root directory. -/
def volumeLines (depth : Nat) : Volume → List (List Nat)
  | .nothing => []
  | .ext => [line depth "EXT" (codePoints "/")]
  | .fat => [line depth "FAT" (codePoints "/")]
  | .ntfs => [line depth "NTFS" (codePoints "\\")]

/-- What follows the path of a partition: for a GPT, its identifier. -/
def aliasText (k : PartsKind) (identifier : List Nat) : List Nat :=
  match k with
  | .gpt => codePoints " (alias: /gpt{" ++ identifier ++ codePoints "})"
  | _ => []

/-- A volume system is a line, below which is a line for each partition, in their order, with the number of the partition, and below that
the line of its file system. -/
def partitionLines (depth : Nat) (k : PartsKind) (ps : List Volume) (identifier : Nat → List Nat) : List (List Nat) :=
  line depth (kindName k) (codePoints "/") :: (ps.mapIdx fun i f =>
    line (depth + 1) (kindName k) (codePoints "/" ++ k.label ++ codePoints (toString (i + 1)) ++ aliasText k (identifier i)) :: volumeLines (depth + 2) f).flatten

variable {D : Type} (x : Data D)

/-- The text of the identifier of the partition with an index, as the volume system has it. -/
def Identifiers (k : PartsKind) (d : D) (number : Nat) (identifier : Nat → List Nat) : Prop :=
  ∀ s i p, x.world.volumes k d = .ok s → i < number → s.get i = .ok p → identifier i = (Uuid.toString (x.identifier p)).map BitVec.toNat

/-- The lines of the disk that is in a data stream. -/
def DiskLines (depth : Nat) (d : D) (lines : List (List Nat)) : Disk → Prop
  | .files f => lines = volumeLines depth f
  | .partitions k ps => ∃ identifier, Identifiers x k d ps.length identifier ∧ lines = partitionLines depth k ps identifier

/-- The lines of a file: its path, and below that those of the disk, or the image, and below that those of the disk in its last layer. -/
def FileLines (path : List Nat) (d : D) (lines : List (List Nat)) : Content → Prop
  | .raw c => ∃ below, DiskLines x 1 d below c ∧ lines = line 0 "OS" path :: below
  | .image k n c => ∃ s top below, x.world.image k .os (.os path) = .ok s ∧ s.get (n - 1) = .ok top ∧ DiskLines x 2 top below c ∧
      lines = line 0 "OS" path :: line 1 (kindName k) (codePoints "/") :: below

/-- What is recognised as a file system can be opened. -/
def FilesOpen : Prop :=
  ∀ d, (HoldsVolume x.world d .ext → x.files .ext d = .ok ()) ∧ (HoldsVolume x.world d .fat → x.files .fat d = .ok ()) ∧
    (HoldsVolume x.world d .ntfs → x.files .ntfs d = .ok ())

end Keramics.Spec.Hierarchy
