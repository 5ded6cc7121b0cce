import Verif.Model.VfsScanner

/-!
# Model: the export tool

keramics-tools/src/export_tool.rs with keramics-tools/src/writer.rs. What is written stays written if the tool fails later. Locks,
messages and the other arguments are left out.
-/

namespace Keramics.ExportTool
open Vfs (VfsType Location)
open VfsScanner (Node ScanPath)

/-- The file `keramics.bin` in the target directory, if there is one, and `number_of_streams_written`, writer.rs:19-26. -/
structure Target where
  file : Option (List Byte)
  written : Nat

/-- What the tool works on: `read` of a data stream; if `File::create` succeeds; how many of the bytes `File::write` writes behind what
is already in the file, none if it fails; `VfsResolver::get_data_stream_by_path_and_name`. -/
structure Config (S : Type) where
  read : S → Nat → R (List Byte × S)
  create : Bool
  write : List Byte → List Byte → Option Nat
  lookup : Location ScanPath → Option (List Nat) → R (Option S)

variable {S : Type}

/-- The loop of `write_data_stream`, writer.rs:60-89: what is in the file then, and the result. It never ends when the fuel runs out. -/
def copyLoop (c : Config S) : Nat → List Byte → S → List Byte × R Unit
  | 0, file, _ => (file, .panic)
  | fuel + 1, file, s =>
    match c.read s 65536 with
    | .err => (file, .err)
    | .panic => (file, .panic)
    | .ok (data, s) =>
      if data.length = 0 then (file, .ok ())
      else
        match c.write file data with
        | none => (file, .err)
        | some count => if count ≠ data.length then (file ++ data.take count, .err) else copyLoop c fuel (file ++ data.take count) s

/-- `DataStreamWriter::write_data_stream`, writer.rs:40-100. -/
def writeStream (c : Config S) (fuel : Nat) (t : Target) (s : S) : Target × R Unit :=
  if c.create then
    match copyLoop c fuel [] s with
    | (file, .ok _) => (⟨some file, t.written + 1⟩, .ok ())
    | (file, r) => (⟨some file, t.written⟩, r)
  else (t, .err)

/-- `VfsPath::from_path_components`, vfs/path.rs:58-75, with ext/path.rs:155-168, fat/path.rs:193-206, ntfs/path.rs:155-168 and
string_path.rs:84-97. Paths of the operating system are simplified: the tool does not make any, because it ends if the node of the source
is the only one. -/
def fromComponents : VfsType → List (List Nat) → ScanPath
  | .ext, cs => .vfs (.ext (cs.map Path.bytesOf))
  | .fat, cs => .vfs (.fat (cs.map fun c => .ucs2 (Path.ucs2Of c)))
  | .ntfs, cs => .vfs (.ntfs (cs.map Path.ucs2Of))
  | .os, cs => .os (Path.joinText 0x2f cs)
  | _, cs => .vfs (.string cs)

/-- `VfsLocation::new_with_parent`, location.rs:52-66. -/
def newWithParent (path : ScanPath) : Location ScanPath → Location ScanPath
  | .base _ type => .base path type
  | .layer _ parent type => .layer path parent type

/-- `export_data_stream_from_scan_node` of a node without sub nodes, export_tool.rs:85-115. -/
def exportLeaf (c : Config S) (fuel : Nat) (components : List (List Nat)) (name : Option (List Nat)) (t : Target) (location : Location ScanPath) :
    Target × R Unit :=
  match c.lookup (newWithParent (fromComponents location.type components) location) name with
  | .ok (some s) => writeStream c fuel t s
  | .ok none => (t, .ok ())
  | .err => (t, .err)
  | .panic => (t, .panic)

/-- What is done next if there was no error. -/
def andThen (a : Target × R Unit) (next : Target → Target × R Unit) : Target × R Unit :=
  match a.2 with
  | .ok _ => next a.1
  | _ => a

mutual
/-- `export_data_stream_from_scan_node`, export_tool.rs:78-135. -/
def exportNode (c : Config S) (fuel : Nat) (components : List (List Nat)) (name : Option (List Nat)) (t : Target) : Node → Target × R Unit
  | .node location [] => exportLeaf c fuel components name t location
  | .node _ (sub :: subs) => andThen (exportNode c fuel components name t sub) fun t => exportNodes c fuel components name t subs
/-- The loop over the sub nodes, export_tool.rs:116-133. -/
def exportNodes (c : Config S) (fuel : Nat) (components : List (List Nat)) (name : Option (List Nat)) (t : Target) : List Node → Target × R Unit
  | [] => (t, .ok ())
  | sub :: subs => andThen (exportNode c fuel components name t sub) fun t => exportNodes c fuel components name t subs
end

/-- `main` for a source that was scanned, export_tool.rs:177-219: the path is split at slashes. -/
def tool (c : Config S) (fuel : Nat) (path : List Nat) (name : Option (List Nat)) (t : Target) : Node → Target × R Unit
  | .node _ [] => (t, .err)
  | .node location (sub :: subs) => exportNode c fuel (Path.splitText 0x2f path) name t (.node location (sub :: subs))

end Keramics.ExportTool
