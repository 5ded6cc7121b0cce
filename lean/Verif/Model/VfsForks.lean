import Verif.Model.ImageTool
import Verif.Model.ExtFileSystem
import Verif.Model.FatFileSystem
import Verif.Model.NtfsVolume
import Verif.Model.VfsParts

/-!
# Model: data forks and data streams of file entries

keramics-vfs/src/file_entry.rs and data_fork.rs.
-/

namespace Keramics.VfsForks
open ImageTool (FileType)

/-- `VfsFileEntry`, keramics-vfs/src/file_entry.rs:44-59: an entry with the file system it is of. `member` is an entry of a volume system or a
storage media image (Apm, Ewf, Gpt, Mbr, Qcow, SparseImage, Udif, Vhd, Vhdx) with data streams `D`, `other` an entry of the operating system or
a fake one (Os, Fake), with its type and what its `get_data_stream` gives. -/
inductive Entry (D : Type)
  | ext (fs : ExtFs.Fs) (e : ExtFs.Entry)
  | fat (v : FatFs.Volume) (e : FatFs.FileEntry)
  | ntfs (v : NtfsFs.Volume) (f : NtfsFs.File)
  | member (e : VfsParts.Entry D)
  | other (type : FileType) (data : R (Option D))

/-- A data stream that was opened. -/
inductive Source (D : Type)
  | ext (s : ExtFs.Data)
  | fat (s : Nat × BlockTree.Tree Fat.Range)
  | ntfs (s : NtfsFs.Opened)
  | other (d : D)

/-- `VfsDataFork`, data_fork.rs:20-45: what `get_name` and `get_data_stream` give. -/
structure Fork (D : Type) where
  name : Option (List Nat)
  stream : R (Source D)

/-- `get_number_of_data_forks`, file_entry.rs:338-411. -/
def forkCount {D : Type} : Entry D → Nat
  | .ext _ e => if e.inode.mode &&& 0xf000 ≠ 0x8000 then 0 else 1
  | .fat _ e => if FatFs.isDirectory e then 0 else 1
  | .ntfs _ f => f.forkCount
  | .member e => match e with
    | .part _ _ => 1
    | .root => 0
  | .other type _ => match type with
    | .file => 1
    | _ => 0

/-- The match on the result, file_entry.rs:441-446 and 464-469. -/
def single {D : Type} : Option (Source D) → R (Fork D)
  | some s => .ok ⟨none, .ok s⟩
  | none => .err

/-- `get_data_fork_by_index`, file_entry.rs:414-495; `todo!()` is a panic. -/
def fork {D : Type} (U : List Byte) (entry : Entry D) (i : Nat) : R (Fork D) := match entry with
  | .ext fs e => do
    R.require (i = 0)
    let r ← ExtFs.dataStream fs e
    single (r.map .ext)
  | .fat v e => do
    R.require (i = 0)
    let r ← FatFs.dataStream U v e
    single (r.map .fat)
  | .ntfs v f => do
    let name ← f.forkName i
    return ⟨name, f.forkStream v i >>= fun o => .ok (.ntfs o)⟩
  | .member _ => .panic
  | .other _ _ => .panic

/-- `get_data_stream`, file_entry.rs:498-640. -/
def stream {D : Type} (U : List Byte) : Entry D → R (Option (Source D))
  | .ext fs e => do return (← ExtFs.dataStream fs e).map .ext
  | .fat v e => do return (← FatFs.dataStream U v e).map .fat
  | .ntfs v f => do return (← f.stream v none).map .ntfs
  | .member e => .ok ((VfsParts.dataStream e).map .other)
  | .other _ data => do return (← data).map .other

/-- `get_data_stream_by_name`, file_entry.rs:643-690, with the name as the code units of `Ucs2String::from`. -/
def streamByName {D : Type} (U : List Byte) (entry : Entry D) (name : Option (List Nat)) : R (Option (Source D)) := match entry with
  | .ntfs v f => do return (← f.stream v name).map .ntfs
  | entry => match name with
    | some _ => .ok none
    | none => stream U entry

end Keramics.VfsForks
