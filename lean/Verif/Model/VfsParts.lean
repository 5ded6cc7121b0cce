import Verif.Spec.VfsParts
import Verif.Model.Volumes

/-!
# Model: the file systems of volume systems and images

keramics-vfs/src/{apm,gpt,mbr,qcow,vhd,vhdx,ewf,sparseimage,udif}/{file_system,file_entry}.rs. Line numbers are of apm for volume
systems, of qcow for images with layers and of ewf for images with one layer; the others are the same code with other names. Text is
a list of code points. A partition or layer is a data stream of type `D`.
-/

namespace Keramics.VfsParts
open Spec (PartsKind codePoints)

/-- `ApmFileSystem`, `QcowFileSystem`, `EwfFileSystem` after `open`: `get` is `get_partition_by_index` or `get_layer_by_index` of the
volume system or image, and `number` its `get_number_of_partitions` or `get_number_of_layers`. -/
structure System (D : Type) where
  kind : PartsKind
  number : Nat
  get : Nat → R D

/-- `ApmFileEntry`, apm/file_entry.rs:22-37; `QcowFileEntry`, qcow/file_entry.rs:22-37; `EwfFileEntry`, ewf/file_entry.rs:22-34. -/
inductive Entry (D : Type)
  | part (index : Nat) (data : D)
  | root
deriving DecidableEq

/-- Decimal text of a number, `format!("{}", n)`. -/
def decimal (n : Nat) : List Nat := (Nat.toDigits 10 n).map Char.toNat

/-- The digits of `usize::from_str` (standard library): none if one is no digit or the number does not fit in 64 bits. -/
def parseDigits : List Nat → Nat → Option Nat
  | [], v => some v
  | c :: cs, v =>
    if 48 ≤ c ∧ c ≤ 57 then
      if v * 10 + (c - 48) < 2 ^ 64 then parseDigits cs (v * 10 + (c - 48)) else none
    else none

/-- `str::parse::<usize>` (standard library): an optional plus sign and at least one digit. -/
def parse (text : List Nat) : Option Nat :=
  match text with
  | [] => none
  | 43 :: rest => if rest = [] then none else parseDigits rest 0
  | text => parseDigits text 0

/-- What the names begin with: apm/file_system.rs:114, gpt/file_system.rs:114, mbr/file_system.rs:114, qcow/file_system.rs:112,
vhd/file_system.rs:115, vhdx/file_system.rs:115; ewf/file_system.rs:62, sparseimage/file_system.rs:60, udif/file_system.rs:60. -/
def label : PartsKind → List Nat
  | .apm => codePoints "apm"
  | .gpt => codePoints "gpt"
  | .mbr => codePoints "mbr"
  | .qcow => codePoints "qcow"
  | .vhd => codePoints "vhd"
  | .vhdx => codePoints "vhdx"
  | .ewf => codePoints "ewf"
  | .sparseImage => codePoints "sparseimage"
  | .udif => codePoints "udif"

/-- The number of bytes of the file name that are skipped: apm/file_system.rs:117, gpt/file_system.rs:117, mbr/file_system.rs:117,
qcow/file_system.rs:115, vhd/file_system.rs:118, vhdx/file_system.rs:118. They are ASCII characters. -/
def skipped : PartsKind → Nat
  | .apm => 3
  | .gpt => 3
  | .mbr => 3
  | .qcow => 4
  | .vhd => 3
  | .vhdx => 4
  | _ => 0

/-- `get_partition_index`, apm/file_system.rs:113-127; `get_layer_index`, qcow/file_system.rs:111-125. -/
def numbered {D} (s : System D) (name : List Nat) : Option Nat :=
  if ¬ (label s.kind).isPrefixOf name then none
  else match parse (name.drop (skipped s.kind)) with
    | some n => if n > 0 ∧ n ≤ s.number then some (n - 1) else none
    | none => none

/-- The index of the partition or layer with a name; for images with one layer the name is compared, ewf/file_system.rs:62-66,
92-99. -/
def indexOf {D} (s : System D) (name : List Nat) : Option Nat :=
  match s.kind with
  | .ewf | .sparseImage | .udif => if name = label s.kind ++ [49] then some 0 else none
  | _ => numbered s name

/-- `file_entry_exists`, apm/file_system.rs:46-67, qcow/file_system.rs:48-69, ewf/file_system.rs:48-70. -/
def existsAt {D} (s : System D) (path : Path.VfsPath) : R Bool :=
  match path with
  | .string components =>
    if components.length = 0 ∨ components.length > 2 then .ok false
    else if components[0]? ≠ some [] then .ok false
    else match components[1]? with
      | none => .ok true
      | some name => .ok (indexOf s name).isSome
  | _ => .err

/-- `get_file_entry_by_path`, apm/file_system.rs:70-110, qcow/file_system.rs:72-108, ewf/file_system.rs:73-103. -/
def byPath {D} (s : System D) (path : Path.VfsPath) : R (Option (Entry D)) :=
  match path with
  | .string components =>
    if components.length = 0 ∨ components.length > 2 then .ok none
    else if components[0]? ≠ some [] then .ok none
    else match components[1]? with
      | none => .ok (some .root)
      | some name =>
        match indexOf s name with
        | some i => do return some (.part i (← s.get i))
        | none => .ok none
  | _ => .err

/-- `get_name`, apm/file_entry.rs:57-62, qcow/file_entry.rs:57-62; ewf/file_entry.rs:54-59, where the index is 0. -/
def name {D} (s : System D) : Entry D → Option (List Nat)
  | .part index _ => some (label s.kind ++ decimal (index + 1))
  | .root => none

/-- `get_data_stream`, apm/file_entry.rs:41-46. -/
def dataStream {D} : Entry D → Option D
  | .part _ data => some data
  | .root => none

/-- `get_file_type`, apm/file_entry.rs:49-54: a directory or a file. -/
def isDirectory {D} : Entry D → Bool
  | .part _ _ => false
  | .root => true

/-- `get_number_of_sub_file_entries`, apm/file_entry.rs:65-70. -/
def numberOfSubs {D} (s : System D) : Entry D → Nat
  | .part _ _ => 0
  | .root => s.number

/-- `get_sub_file_entry_by_index`, apm/file_entry.rs:73-97, qcow/file_entry.rs:73-98, ewf/file_entry.rs:70-90. -/
def sub {D} (s : System D) (e : Entry D) (i : Nat) : R (Entry D) :=
  match e with
  | .part _ _ => .err
  | .root => do return .part i (← s.get i)

/-- An opened APM volume system. -/
def ofApm (entries : List Apm.Entry) : System Window.Win := ⟨.apm, entries.length, Apm.getPartition entries⟩

/-- An opened GPT volume system. -/
def ofGpt (s : Gpt.System) : System Window.Win := ⟨.gpt, s.entries.length, Gpt.getPartition s⟩

/-- An opened MBR volume system. -/
def ofMbr (s : Mbr.System) : System Window.Win := ⟨.mbr, s.entries.length, Mbr.getPartition s⟩

/-- An opened image with the streams of its layers. -/
def ofLayers {D} (kind : PartsKind) (layers : List D) : System D :=
  ⟨kind, layers.length, fun i => match layers[i]? with | some d => .ok d | none => .err⟩

end Keramics.VfsParts
