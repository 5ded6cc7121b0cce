import Verif.Model.InfoHierarchy
import Verif.Model.FatListing

/-!
# Model: the hierarchy command of the info tool for FAT

keramics-tools/src/info/fat.rs, `print_hierarchy`. Error messages are left out.
-/

namespace Keramics.InfoTool
open HashTool (Out after)
open Spec (codePoints)

/-- The text of the name of a FAT file entry, fat.rs:256-259, fat/string.rs `to_string`. Short names are in ASCII, short_name_directory_entry.rs; its
decoder gives every byte as the character of the same number, ascii.rs:43-53, and backslashes are printed as for long names, byte_string.rs:122-146. -/
def fatText (e : FatFs.FileEntry) : List Nat :=
  match FatFs.name e with
  | some (.inl long) => Path.ucs2Text long
  | some (.inr short) => Path.ucs2Text (short.map BitVec.toNat)
  | none => []

/-- The file entries of a FAT file system; for the root directory see fat/file_entry.rs:249-251. -/
def fatWalk (fold : Nat → Option Nat) (U : List Byte) (v : FatFs.Volume) : Walk FatFs.FileEntry where
  isRoot e := e.entry.isNone
  text e := .ok (fatText e)
  lines _ path := say [path]
  count := FatFs.subCount fold U v
  sub := FatFs.subByIndex fold U v

/-- `FatInfo::print_hierarchy`, fat.rs:214-246, with `print_hierarchy_file_entry`, 249-308. -/
def fatHierarchy (fold : Nat → Option Nat) (U : List Byte) (fuel : Nat) : Out :=
  after (FatFs.openVolume fold U) fun v =>
    (say [codePoints "File Allocation Table (FAT) hierarchy:"]).andThen (after (FatFs.rootEntry fold U v) fun e =>
      hierarchyEntry (fatWalk fold U v) fuel [] e)

end Keramics.InfoTool
