import Verif.Model.VfsScanner

/-!
# Specification: what the scanner of the VFS finds

What a file holds is described by `Content`: an image or not; in the (last layer of the) image, a volume system or not; in each
volume, a file system or not. `HoldsContent` ties it to the data: which formats are recognised and what the images and volume systems
give when they are opened. `Content.nodes` are the nodes that the scanner is to give.
-/

namespace Keramics.Spec
open Vfs (VfsType Location)
open Sigscan (Format)
open VfsScanner (World Node ScanPath FileSystem)

/-- A file system, or none that is known. -/
inductive Volume
  | nothing | ext | fat | ntfs

/-- What a whole disk holds: a file system, or partitions. -/
inductive Disk
  | files (f : Volume)
  | partitions (k : PartsKind) (ps : List Volume)

/-- What a file holds: a disk as it is, or an image of `n` layers whose last layer is the disk. -/
inductive Content
  | raw (d : Disk)
  | image (k : PartsKind) (n : Nat) (d : Disk)

/-- The type of an image or volume system. -/
def PartsKind.type : PartsKind → VfsType
  | .apm => .apm | .gpt => .gpt | .mbr => .mbr | .qcow => .qcow | .vhd => .vhd | .vhdx => .vhdx | .ewf => .ewf
  | .sparseImage => .sparseImage | .udif => .udif

/-- The format of an image or volume system. -/
def PartsKind.format : PartsKind → Format
  | .apm => .apm | .gpt => .gpt | .mbr => .mbr | .qcow => .qcow | .vhd => .vhd | .vhdx => .vhdx | .ewf => .ewf
  | .sparseImage => .sparseImage | .udif => .udif

/-- The location of the partition or layer with number `n` of an image or volume system at a location: `/qcow1`. -/
def partLocation (k : PartsKind) (n : Nat) (location : Location ScanPath) : Location ScanPath :=
  .layer (.vfs (.string [[], k.label ++ codePoints (toString n)])) location k.type

/-- The location of an image or volume system itself at a location: `/`. -/
def rootLocation (k : PartsKind) (location : Location ScanPath) : Location ScanPath := .layer (.vfs (.string [[]])) location k.type

/-- A file system is one node, with its root directory. -/
def Volume.nodes (location : Location ScanPath) : Volume → List Node
  | .nothing => []
  | .ext => [.node (.layer (.vfs (.ext [[]])) location .ext) []]
  | .fat => [.node (.layer (.vfs (.fat [.ucs2 []])) location .fat) []]
  | .ntfs => [.node (.layer (.vfs (.ntfs [[]])) location .ntfs) []]

/-- Partitions are below the node of the volume system, in their order, and each has the node of its file system below it. -/
def Disk.nodes (location : Location ScanPath) : Disk → List Node
  | .files f => f.nodes location
  | .partitions k ps =>
    [.node (rootLocation k location) (ps.mapIdx fun i f => .node (partLocation k (i + 1) location) (f.nodes (partLocation k (i + 1) location)))]

/-- What is in the last layer of an image is below the node of the image. -/
def Content.nodes (location : Location ScanPath) : Content → List Node
  | .raw d => d.nodes location
  | .image k n d => [.node (rootLocation k location) (d.nodes (partLocation k n location))]

variable {D : Type} (w : World D)

/-- The stream holds a file system that is recognised, and no other is. -/
def HoldsVolume (d : D) : Volume → Prop
  | .nothing => w.scan [.ext, .fat, .ntfs] d = .ok []
  | .ext => w.scan [.ext, .fat, .ntfs] d = .ok [.ext]
  | .fat => w.scan [.ext, .fat, .ntfs] d = .ok [.fat]
  | .ntfs => w.scan [.ext, .fat, .ntfs] d = .ok [.ntfs]

/-- The stream holds a disk. An MBR is recognised only if the stream is not recognised as FAT or NTFS, whose boot records end with
the same bytes. -/
def HoldsDisk (d : D) : Disk → Prop
  | .files f => HoldsVolume w d f ∧ w.scan [.apm, .gpt] d = .ok [] ∧
      (w.scan [.fat, .ntfs] d = .ok [.fat] ∨ w.scan [.fat, .ntfs] d = .ok [.ntfs] ∨
        (w.scan [.fat, .ntfs] d = .ok [] ∧ w.scan [.mbr] d = .ok []))
  | .partitions k ps =>
      (((k = .apm ∨ k = .gpt) ∧ w.scan [.apm, .gpt] d = .ok [k.format]) ∨
        (k = .mbr ∧ w.scan [.apm, .gpt] d = .ok [] ∧ w.scan [.fat, .ntfs] d = .ok [] ∧ w.scan [.mbr] d = .ok [.mbr])) ∧
      ps.length < 2 ^ 64 ∧ ∃ s, w.volumes k d = .ok s ∧ s.kind = k ∧ s.number = ps.length ∧
        ∀ i (h : i < ps.length), ∃ p, s.get i = .ok p ∧ HoldsVolume w p ps[i]

/-- The image at a path of a file system has `n` layers, the last of which holds the disk. -/
def HoldsImage (fs : FileSystem D) (path : ScanPath) (k : PartsKind) (n : Nat) (d : Disk) : Prop :=
  ∃ s top, w.image k fs path = .ok s ∧ s.kind = k ∧ s.number = n ∧ 0 < n ∧ n < 2 ^ 64 ∧ (k.OneLayer → n = 1) ∧
    s.get (n - 1) = .ok top ∧ HoldsDisk w top d

/-- The file at a path of the operating system, with this data stream, holds the content. -/
def HoldsContent (path : List Nat) (d : D) : Content → Prop
  | .raw c => w.scan [.ewf, .qcow, .sparseImage, .udif, .vhd, .vhdx] d = .ok [] ∧ HoldsDisk w d c
  | .image k n c => w.scan [.ewf, .qcow, .sparseImage, .udif, .vhd, .vhdx] d = .ok [k.format] ∧
      HoldsImage w .os (.os path) k n c

end Keramics.Spec
