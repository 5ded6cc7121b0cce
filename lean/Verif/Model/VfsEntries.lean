import Verif.Model.ImageTool
import Verif.Model.ExtFileSystem
import Verif.Model.NtfsVolume

/-!
# Model: file entries of the operating system and targets of symbolic links

keramics-vfs/src/os/file_entry.rs (for Unix) and keramics-vfs/src/file_entry.rs.
-/

namespace Keramics.VfsEntries
open ImageTool (Time FileType)

/-- `std::fs::Metadata`: `mode`, `mtime`, `atime` and `ctime` with their nanoseconds, and `created`, if it is supported, as seconds since
1970 and the nanoseconds that follow them. -/
structure Metadata where
  mode : Nat
  modified : Int × Int
  accessed : Int × Int
  changed : Int × Int
  created : Option (Int × Nat)

/-- `OsFileEntry`, os/file_entry.rs:38-55, without the path. -/
structure OsEntry where
  type : FileType
  access : Option Time
  change : Option Time
  creation : Option Time
  modification : Option Time

/-- `as i32` -/
def asI32 (t : Int) : Int := Int.bmod t (2 ^ 32)

/-- `as u32` -/
def asU32 (t : Int) : Nat := (t % 2 ^ 32).toNat

/-- `get_posix_datetime_value`, os/file_entry.rs:119-127. -/
def posixTime (t : Int × Int) : Time :=
  if t.2 ≠ 0 then .posix64 t.1 (asU32 t.2)
  else if t.1 ≠ 0 then .posix32 (asI32 t.1)
  else .notSet

/-- os/file_entry.rs:143-153 -/
def osType (mode : Nat) : R FileType :=
  if mode &&& 0xf000 = 0x1000 then .ok .namedPipe
  else if mode &&& 0xf000 = 0x2000 then .ok .characterDevice
  else if mode &&& 0xf000 = 0x4000 then .ok .directory
  else if mode &&& 0xf000 = 0x6000 then .ok .blockDevice
  else if mode &&& 0xf000 = 0x8000 then .ok .file
  else if mode &&& 0xf000 = 0xa000 then .ok .symbolicLink
  else .err

/-- os/file_entry.rs:167-183; `duration_since` fails for a time before 1970. -/
def creationTime : Option (Int × Nat) → R (Option Time)
  | some t => if t.1 < 0 then .err else .ok (some (.posix64 t.1 t.2))
  | none => .ok none

/-- `OsFileEntry::open`, os/file_entry.rs:130-187, with the metadata. -/
def openOs (m : Metadata) : R OsEntry := do
  let type ← osType m.mode
  let creation ← creationTime m.created
  return ⟨type, some (posixTime m.accessed), some (posixTime m.changed), creation, some (posixTime m.modified)⟩

/-- Standard library `slice::split` at a value. -/
def split {α} [DecidableEq α] (sep : α) : List α → List (List α)
  | [] => [[]]
  | c :: cs =>
    if c = sep then [] :: split sep cs
    else match split sep cs with
      | [] => [[c]]
      | x :: xs => (c :: x) :: xs

/-- `Ucs2String::from(&[u16])`, ucs2_string.rs:149-160. -/
def ucs2Slice (s : List Nat) : List Nat := s.takeWhile (· ≠ 0)

/-- The path of an ext target, file_entry.rs:290-297. -/
def extPath (target : List Byte) : Path.VfsPath := .ext ((split 0x2f target).map ByteString.elements)

/-- The path of an NTFS target, file_entry.rs:313-321. -/
def ntfsPath (target : List Nat) : Path.VfsPath := .ntfs (((split 0x5c target).drop 2).map ucs2Slice)

/-- `get_symbolic_link_target` of an ext file entry, file_entry.rs:287-309. -/
def extTarget (U : List Byte) (fs : ExtFs.Fs) (e : ExtFs.Entry) : R (Option Path.VfsPath) := do
  return (← ExtFs.linkTarget U fs e).map extPath

/-- `get_symbolic_link_target` of an NTFS file entry, file_entry.rs:310-332. -/
def ntfsTarget (f : NtfsFs.File) : Option Path.VfsPath := f.target.map ntfsPath

end Keramics.VfsEntries
