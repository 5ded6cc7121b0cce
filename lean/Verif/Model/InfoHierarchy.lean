import Verif.Model.InfoTool
import Verif.Model.ExtFileSystem
import Verif.Model.NtfsIndex

/-!
# Model: the hierarchy command of the info tool

keramics-tools/src/info/{ext,ntfs}.rs, `print_hierarchy`. Byte strings are in UTF-8, the encoding if none is asked for. Error messages are
left out.
-/

namespace Keramics.InfoTool
open HashTool (Out after printed)
open Spec (codePoints)

/-- The functions of a file entry that are used: `is_root_directory`, the text of `get_name` (empty if there is none), what is printed for
a path, `get_number_of_sub_file_entries` and `get_sub_file_entry_by_index`. -/
structure Walk (E : Type) where
  isRoot : E → Bool
  text : E → R (List Nat)
  lines : E → List Nat → Out
  count : E → R Nat
  sub : E → Nat → R E

/-- The path of a file entry and the components for its sub entries, ext.rs:625-634, ntfs.rs:778-787: a name is pushed, unless for the root
directory. -/
def entryPath {E : Type} (w : Walk E) (above : List (List Nat)) (e : E) : R (List Nat × List (List Nat)) :=
  if w.isRoot e then .ok ([0x2f], above)
  else do
    let name ← w.text e
    return (0x2f :: [0x2f].intercalate (above ++ [name]), above ++ [name])

/-- `print_hierarchy_file_entry`, ext.rs:620-680, ntfs.rs:715-771. The components are as before the call when it returns `Ok`. Running out of
`fuel`, the depth of calls, is a stack overflow. -/
def hierarchyEntry {E : Type} (w : Walk E) : Nat → List (List Nat) → E → Out
  | 0, _, _ => ([], .panic)
  | fuel + 1, above, e =>
    after (entryPath w above e) fun p =>
      (w.lines e p.1).andThen (after (w.count e) fun n =>
        partitions (fun i => after (w.sub e i) fun s => hierarchyEntry w fuel p.2 s) n 0)

/-- The text of the name of an ext file entry, ext.rs:628-631. -/
def extText (e : ExtFs.Entry) : R (List Nat) :=
  match e.name with
  | some name => Path.bytesText name
  | none => .ok []

/-- The file entries of an ext file system; for the root directory see ext/file_entry.rs:379-382. -/
def extWalk (U : List Byte) (fs : ExtFs.Fs) : Walk ExtFs.Entry where
  isRoot e := decide (e.number = 2)
  text := extText
  lines _ path := say [path]
  count := ExtFs.subCount U fs
  sub := ExtFs.subByIndex U fs

/-- `ExtInfo::print_hierarchy`, ext.rs:563-618. -/
def extHierarchy (U : List Byte) (fuel : Nat) : Out :=
  after (ExtFs.openFs U) fun fs =>
    (say [codePoints "Extended File System (ext) hierarchy:"]).andThen (after (ExtFs.rootEntry U fs) fun root =>
      match root with
      | none => say [codePoints "No root directory found"]
      | some e => hierarchyEntry (extWalk U fs) fuel [] e)

/-- The line of a data fork, ntfs.rs:799-812. -/
def forkLine (path : List Nat) : Option (List Nat) → List Nat
  | some name => path ++ codePoints ":" ++ Path.ucs2Text name
  | none => path

/-- `print_hierarchy_file_entry_as_path` from the path on, ntfs.rs:788-817. -/
def ntfsLines (e : NtfsFs.FileEntry) (path : List Nat) : Out :=
  partitions (fun i => after (e.file.forkName i) fun name => say [forkLine path name]) e.file.forkCount 0

/-- The file entries of an NTFS file system. -/
def ntfsWalk (U : List Byte) (v : NtfsFs.Volume) : Walk NtfsFs.FileEntry where
  isRoot e := e.file.isRoot
  text e := .ok (match e.name with | some name => Path.ucs2Text name | none => [])
  lines := ntfsLines
  count e := NtfsFs.subCount U v e.file
  sub e := NtfsFs.subByIndex U v e.file

/-- `NtfsInfo::print_hierarchy`, ntfs.rs:677-713. -/
def ntfsHierarchy (U : List Byte) (fuel : Nat) : Out :=
  after (NtfsFs.openVolume U) fun v =>
    (say [codePoints "New Technologies File System (NTFS) hierarchy:"]).andThen (after (NtfsFs.fileByNumber U v 5) fun f =>
      hierarchyEntry (ntfsWalk U v) fuel [] ⟨f, none⟩)

end Keramics.InfoTool
