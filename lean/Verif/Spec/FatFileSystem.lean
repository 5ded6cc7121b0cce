import Verif.Spec.Fat
import Verif.Spec.FatDirectory

/-!
# Specification: FAT file systems

After the Microsoft FAT specification: the boot sector, the layout of the volume, directories and paths.
-/

namespace Keramics.Spec.FatFs
open Keramics.Spec.Fat Keramics.Spec.FatDir

/-- The parameters in the boot sector. -/
structure Params where
  bytesPerSector : Nat
  sectorsPerCluster : Nat
  reserved : Nat
  tables : Nat
  rootEntries : Nat
  tableSectors : Nat
  sectors : Nat

/-- The number in a field. -/
def field (volume : List Byte) (offset size : Nat) : Nat := leNat ((volume.drop offset).take size)

/-- The parameters: sizes with a 16-bit and a 32-bit field have zero in one of them. -/
def params (volume : List Byte) : Params where
  bytesPerSector := field volume 11 2
  sectorsPerCluster := field volume 13 1
  reserved := field volume 14 2
  tables := field volume 16 1
  rootEntries := field volume 17 2
  tableSectors := if field volume 22 2 ≠ 0 then field volume 22 2 else field volume 36 4
  sectors := if field volume 19 2 ≠ 0 then field volume 19 2 else field volume 32 4

/-- The sectors of the root directory. -/
def Params.rootSectors (p : Params) : Nat := (p.rootEntries * 32 + (p.bytesPerSector - 1)) / p.bytesPerSector

/-- The first sector of the root directory, and that of the clusters. -/
def Params.rootSector (p : Params) : Nat := p.reserved + p.tables * p.tableSectors

def Params.firstSector (p : Params) : Nat := p.rootSector + p.rootSectors

/-- The number of clusters, which have the numbers from 2 on. -/
def Params.clusters (p : Params) : Nat := (p.sectors - p.firstSector) / p.sectorsPerCluster

/-- The number of clusters determines the width of the table. -/
def Params.width (p : Params) : Width :=
  if p.clusters < 4085 then .w12 else if p.clusters < 65525 then .w16 else .w32

/-- Where things are in a volume: the table, the first cluster and the size of a cluster. -/
structure Layout where
  width : Width
  table : Nat
  first : Nat
  clusterSize : Nat

def Params.layout (p : Params) : Layout :=
  ⟨p.width, p.reserved * p.bytesPerSector, p.firstSector * p.bytesPerSector, p.sectorsPerCluster * p.bytesPerSector⟩

/-- The sectors after the tables in clusters, those of the root directory included. -/
def Params.area (p : Params) : Nat := (p.sectors - p.rootSector) / p.sectorsPerCluster

/-- The boot sector describes a volume: FAT-12 and FAT-16 volumes have a root directory of a given number of entries, whole sectors of it; FAT-32
volumes have a cluster where the root directory starts. -/
structure Valid (volume : List Byte) : Prop where
  length : 512 ≤ volume.length
  signature : (volume.drop 510).take 2 = [0x55#8, 0xaa#8]
  bytes : (params volume).bytesPerSector ∈ [512, 1024, 2048, 4096]
  cluster : (params volume).sectorsPerCluster ∈ [1, 2, 4, 8, 16, 32, 64, 128]
  sectors : field volume 19 2 = 0 ∨ field volume 32 4 = 0
  fits : (params volume).firstSector ≤ (params volume).sectors
  kind : (field volume 22 2 ≠ 0 ∧ 0 < (params volume).rootEntries ∧ (params volume).bytesPerSector ∣ (params volume).rootEntries * 32 ∧
      (params volume).width ≠ .w32) ∨
    (field volume 22 2 = 0 ∧ (params volume).rootEntries = 0 ∧ field volume 19 2 = 0 ∧ 2 ≤ field volume 44 4 ∧ (params volume).width = .w32)

/-- Which clusters may be used: those with smaller numbers, of files and directories those that start at smaller numbers. In a volume with `n` clusters
all have numbers smaller than `n + 2`. -/
structure Limits where
  clusters : Nat
  starts : Nat

/-- The clusters of a chain and their entries in the table are in the volume, and reserved bits are not used. -/
def InVolume (volume : List Byte) (l : Layout) (m : Limits) (chain : List Nat) : Prop :=
  ∀ c ∈ chain, c < m.clusters ∧ l.table + l.width.bits * (c + 1) / 8 + 2 ≤ volume.length ∧ (l.width = .w32 → stored .w32 (volume.drop l.table) c < 2 ^ 28) ∧
    l.first + (c - 2) * l.clusterSize + l.clusterSize ≤ volume.length

/-- The data of a directory lists what is stored; the rest is zeros. -/
def Lists (data : List Byte) (stored : List Stored) : Prop :=
  (∀ s ∈ stored, s.Ok) ∧ ∃ n, data = (stored.flatMap fun s => s.item.bytes) ++ List.replicate n 0#8

/-- The directory that starts at a cluster. -/
def Directory (volume : List Byte) (l : Layout) (m : Limits) (c : Nat) (stored : List Stored) : Prop :=
  ∃ chain, Chain l.width (volume.drop l.table) c chain ∧ InVolume volume l m chain ∧ Lists (chain.flatMap (cluster volume l.first l.clusterSize)) stored

/-- The root directory. -/
def Root (volume : List Byte) (m : Limits) (stored : List Stored) : Prop :=
  if (params volume).rootEntries ≠ 0 then
    (params volume).firstSector * (params volume).bytesPerSector ≤ volume.length ∧
      Lists ((volume.drop ((params volume).rootSector * (params volume).bytesPerSector)).take ((params volume).rootEntries * 32)) stored
  else Directory volume (params volume).layout m (field volume 44 4) stored

/-- A file of a directory: its long name, if it has one, and its short name entry. -/
abbrev File := Option (List Nat) × Short

/-- The file with a name, in any case: the last one. -/
def lookup (fold : Nat → Option Nat) (stored : List Stored) (name : List Nat) : Option File :=
  (stored.flatMap Stored.files).reverse.find? fun f => folded fold (fileName f) = folded fold name

/-- The first cluster of a file: FAT-32 has the upper 16 bits in the middle of the times. -/
def firstCluster (l : Layout) (f : File) : Nat :=
  if l.width = .w32 then f.2.cluster + 65536 * leNat ((f.2.times.drop 7).take 2) else f.2.cluster

/-- A file is a directory. -/
def IsDirectory (f : File) : Prop := f.2.attributes.getLsbD 4 = true ∧ f.2.attributes.getLsbD 6 = false

/-- What is found at a path below a directory: a file, or nothing. -/
inductive Path (fold : Nat → Option Nat) (volume : List Byte) (l : Layout) (m : Limits) : List Stored → List (List Nat) → Option File → Prop
  | here {stored name f} : lookup fold stored name = some f → Path fold volume l m stored [name] (some f)
  | missing {stored name rest} : lookup fold stored name = none → Path fold volume l m stored (name :: rest) none
  | file {stored name rest f} : lookup fold stored name = some f → ¬ IsDirectory f → rest ≠ [] → Path fold volume l m stored (name :: rest) none
  | directory {stored name rest f stored' r} : lookup fold stored name = some f → IsDirectory f → firstCluster l f < m.starts → Directory volume l m (firstCluster l f) stored' →
      rest ≠ [] → Path fold volume l m stored' rest r → Path fold volume l m stored (name :: rest) r

/-- The clusters of a file: none if it is empty, and else those of its chain, as many as its size asks for. -/
def FileChain (volume : List Byte) (l : Layout) (m : Limits) (f : File) (chain : List Nat) : Prop :=
  (f.2.size = 0 ∧ firstCluster l f = 0 ∧ chain = []) ∨
    (firstCluster l f < m.starts ∧ Chain l.width (volume.drop l.table) (firstCluster l f) chain ∧ InVolume volume l m chain ∧ chain.length = (f.2.size + l.clusterSize - 1) / l.clusterSize)

end Keramics.Spec.FatFs
