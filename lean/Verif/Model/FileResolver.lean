import Mathlib.Data.List.DropRight
import Verif.Model.Vfs

/-!
# Model: the file resolver of images

keramics-vfs/src/file_resolver.rs, on the file system of the operating system, and keramics-formats/src/os_file_resolver.rs. The resolver finds the other files of an image: parents,
backing files and segments. A path of the operating system is a standard library `PathBuf`, modelled as its text on Unix.
-/

namespace Keramics.FileResolver
open Keramics.Path

/-- `PathBuf::push` of the standard library on Unix: an absolute path replaces the path. -/
def push (path name : List Nat) : List Nat :=
  if name.head? = some 0x2f then name
  else if path = [] ∨ path.getLast? = some 0x2f then path ++ name
  else path ++ 0x2f :: name

/-- `new_with_join` of a path of the operating system, vfs/path.rs:137-152. -/
def join : List Nat → List Component → R (List Nat)
  | path, [] => .ok path
  | path, c :: cs => do
    let name ← stringComponent c
    join (push path name) cs

/-- The files of the operating system: `get_file_entry_by_path`, vfs/file_system.rs:454-486, where `none` is that there is no file, and
`get_data_stream_by_name(None)` of a file entry, os/file_entry.rs:86-100. -/
structure Os (E D : Type) where
  entry : List Nat → R (Option E)
  data : E → R (Option D)

/-- `get_data_stream`, file_resolver.rs:41-65. -/
def getDataStream {E D : Type} (os : Os E D) (basePath : List Nat) (components : List Component) : R (Option D) := do
  let path ← join basePath components
  match ← os.entry path with
  | some e => os.data e
  | none => return none

/-- The components that `Path::components` of the standard library leaves out: empty ones and ".". -/
def skipped (name : List Nat) : Bool := name = [] ∨ name = [0x2e]

/-- `PathBuf::pop` of the standard library on Unix, of `new_with_parent_directory`, vfs/path.rs:190-195. A "." at the start of what is left is
left out as well, which the standard library keeps: it is the same folder. -/
def pop (path : List Nat) : List Nat :=
  let absolute := path.head? = some 0x2f
  let body := if absolute then (splitText 0x2f path).tail else splitText 0x2f path
  let kept := List.rdropWhile skipped body
  if kept = [] then path
  else (if absolute then [0x2f] else []) ++ joinText 0x2f (List.rdropWhile skipped kept.dropLast)

/-- What is at a path: a regular file, or a folder, device or other. -/
inductive Node (D : Type)
  | file (data : D)
  | other

/-- The file system of the operating system on a tree of files where every file can be opened, vfs/file_system.rs:454-486, os/file_entry.rs:86-100. -/
def osOf {D : Type} (tree : List Nat → Option (Node D)) : Os (Node D) D where
  entry path := .ok (tree path)
  data
    | .file d => .ok (some d)
    | .other => .ok none

/-- `open_os_data_stream`, keramics-core/src/os_data_stream.rs:79-84, on the same tree. What the operating system does for anything but a
regular file is a parameter. -/
def openFile {D : Type} (tree : List Nat → Option (Node D)) (other : R D) (path : List Nat) : R D :=
  match tree path with
  | some (.file d) => .ok d
  | some .other => other
  | none => .err

/-- `OsFileResolver::get_data_stream`, os_file_resolver.rs:37-66. The loop over the components is that of `new_with_join`. -/
def osDataStream {D : Type} (openAt : List Nat → R D) (basePath : List Nat) (components : List Component) : R (Option D) := do
  let path ← join basePath components
  let d ← openAt path
  return some d

end Keramics.FileResolver
