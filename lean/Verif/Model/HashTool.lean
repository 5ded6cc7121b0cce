import Verif.Model.Tools
import Verif.Model.DataStreams
import Verif.Model.Finder
import Verif.Model.VfsScanner

/-!
# Model: the hash tool

keramics-tools/src/hash_tool.rs with the display paths of keramics-tools/src/display_path.rs. What the tool prints is a list of lines;
a line that was printed stays printed if the tool fails later. Locks, messages and the arguments are left out.
-/

namespace Keramics.HashTool
open Vfs (VfsType Location)
open VfsScanner (Node ScanPath)
open Spec (Files Found codePoints)

/-- `VfsString`, keramics-vfs/src/string.rs:18-26, without `Empty`, which is none here. Byte strings are in UTF-8; what is in a string
of the operating system is left out. -/
inductive Name
  | byte (s : List Byte)
  | os
  | text (s : List Nat)
  | ucs2 (s : List Nat)
deriving DecidableEq

/-- `VfsString::is_empty`, string.rs:30-38. -/
def isEmpty : Option Name → Bool
  | none => true
  | some (.byte s) => s.isEmpty
  | some .os => false
  | some (.text s) => s.isEmpty
  | some (.ucs2 s) => s.isEmpty

/-- `escape_string`, display_path.rs:57-103, with the characters of a translation table (`Display.character` for that of a new
`DisplayPath`); strings of the operating system are `todo!()`. -/
def escape (table : Nat → List Nat) : Option Name → R (List Nat)
  | none => .ok []
  | some (.byte s) =>
    match Utf8.decodeAll s with
    | .ok cs => .ok (cs.flatMap fun c => if Display.isChar c then table c else [0x5c, 0x55, 0x7b] ++ Display.hex 8 c ++ [0x7d])
    | _ => .panic
  | some .os => .panic
  | some (.text s) => .ok (s.flatMap table)
  | some (.ucs2 s) => .ok (s.flatMap fun c => if Display.isChar c then table c else [0x5c, 0x55] ++ Display.hex 8 c)

/-- `join_path_components`, display_path.rs:221-232. -/
def joinNames (table : Nat → List Nat) (path : List (Option Name)) : R (List Nat) :=
  if path.length = 1 ∧ path.all isEmpty then .ok [0x2f]
  else do
    let parts ← path.mapM (escape table)
    return List.intercalate [0x2f] parts

/-- `str::replace`; the number is that of the characters of a match that are still to be passed over. -/
def replace (find by' : List Nat) : Nat → List Nat → List Nat
  | _, [] => []
  | skip + 1, _ :: cs => replace find by' skip cs
  | 0, c :: cs => if find.isPrefixOf (c :: cs) then by' ++ replace find by' (find.length - 1) cs else c :: replace find by' 0 cs

/-- `VfsPath::to_string`, vfs/path.rs:237-246. -/
def pathText : ScanPath → R (List Nat)
  | .os text => .ok text
  | .vfs path => path.text

/-- `get_index_display_path`, display_path.rs:178-210, with `get_path`, display_path.rs:213-219, for `DisplayPathType::Index`. -/
def indexPath : Location ScanPath → R (List Nat)
  | .base _ _ => .ok []
  | .layer path parent type => do
    let text ← pathText path
    match type with
    | .apm => .ok (replace (codePoints "apm") (codePoints "p") 0 text)
    | .ext | .fat | .ntfs => do
      let p ← indexPath parent
      return p ++ text
    | .gpt => .ok (replace (codePoints "gpt") (codePoints "p") 0 text)
    | .mbr => .ok (replace (codePoints "mbr") (codePoints "p") 0 text)
    | _ => .ok []

/-- A data fork: its name and `get_data_stream`, vfs/data_fork.rs:28-46. -/
structure Fork (S : Type) where
  name : Option Name
  stream : R S

/-- An opened file system: its file entries, and the number and the data forks of each, vfs/file_entry.rs:338-500. -/
structure Volume (E S : Type) extends Files E Name where
  forks : E → R Nat
  fork : E → Nat → R (Fork S)

/-- What the tool works on: `read` of a data stream, `VfsResolver::open_file_system` of a location, the digest hash type and
`stop_on_error`. -/
structure Config (E S : Type) where
  read : S → Nat → R (List Byte × S)
  openVolume : Location ScanPath → R (Volume E S)
  hashType : Hasher.HashType
  stop : Bool

/-- The lines that were printed and the result. -/
abbrev Out := List (List Nat) × R Unit

/-- What is done next if there was no error. -/
def Out.andThen (a b : Out) : Out :=
  match a.2 with
  | .ok _ => (a.1 ++ b.1, b.2)
  | _ => a

variable {E S : Type}

/-- `calculate_hash_from_data_stream`, hash_tool.rs:122-160; the loop is that of `DigestHasher`. -/
def streamHash (c : Config E S) (fuel : Nat) (s : S) : R (List Nat) := do
  let text ← Hasher.calculateHash c.hashType c.read fuel s
  return text.map Char.toNat

/-- `calculate_hash_from_data_fork`, hash_tool.rs:97-120, with what is done on an error, hash_tool.rs:218-233. -/
def forkHash (c : Config E S) (fuel : Nat) (f : Fork S) : R (List Nat) :=
  match (do
    let s ← f.stream
    streamHash c fuel s) with
  | .ok text => .ok text
  | .err => if c.stop then .err else .ok (codePoints "N/A (error)")
  | .panic => .panic

/-- hash_tool.rs:212-214 -/
def skipped (path : List (Option Name)) (name : Option Name) : Bool :=
  path.length > 1 && path[1]? == some (some (.ucs2 (codePoints "$BadClus"))) && name == some (.ucs2 (codePoints "$Bad"))

/-- hash_tool.rs:212-234 -/
def result (c : Config E S) (fuel : Nat) (path : List (Option Name)) (f : Fork S) : R (List Nat) :=
  if skipped path f.name then .ok (codePoints "N/A (skipped)") else forkHash c fuel f

/-- `display_path_and_name`, hash_tool.rs:200-206. -/
def withName (display : List Nat) : Option Name → R (List Nat)
  | none => .ok display
  | some n => do
    let text ← escape Display.character (some n)
    return display ++ [0x3a] ++ text

/-- A turn of the loop over the data forks, hash_tool.rs:185-238: the line that is printed. -/
def forkLine (c : Config E S) (fuel : Nat) (v : Volume E S) (above display : List Nat) (path : List (Option Name)) (e : E) (i : Nat) : R (List Nat) := do
  let f ← v.fork e i
  let text ← withName display f.name
  let hash ← result c fuel path f
  return hash ++ [0x09] ++ above ++ text

/-- A line, or the end. -/
def printed : R (List Nat) → Out
  | .ok line => ([line], .ok ())
  | .err => ([], .err)
  | .panic => ([], .panic)

/-- The loop over the data forks, hash_tool.rs:184-239, from an index, with the number of turns. -/
def forkLines (c : Config E S) (fuel : Nat) (v : Volume E S) (above display : List Nat) (path : List (Option Name)) (e : E) : Nat → Nat → Out
  | 0, _ => ([], .ok ())
  | n + 1, i => (printed (forkLine c fuel v above display path e i)).andThen (forkLines c fuel v above display path e n (i + 1))

/-- What is printed by a step that prints nothing itself. -/
def after {α : Type} (r : R α) (next : α → Out) : Out :=
  match r with
  | .ok a => next a
  | .err => ([], .err)
  | .panic => ([], .panic)

/-- `calculate_hash_from_file_entry`, hash_tool.rs:162-241. -/
def entryLines (c : Config E S) (fuel : Nat) (v : Volume E S) (above : List Nat) (e : E) (path : List (Option Name)) : Out :=
  after (joinNames Display.character path) fun display =>
  after (v.forks e) fun n =>
  forkLines c fuel v above display path e n 0

variable {V : Type}

/-- The loop over the results of the finder, hash_tool.rs:273-297, image_tool.rs:984-1010, with what is done for a file entry; it never
ends when the fuel runs out. -/
def searchLines (fs : Files E Name) (fuel : Nat) (entry : E → List (Option Name) → Out) : Nat → Finder.Finder E Name → Out
  | 0, _ => ([], .panic)
  | turns + 1, f =>
    match Finder.next fs fuel f with
    | .ok (none, _) => ([], .ok ())
    | .ok (some (.entry e path), f) => (entry e path).andThen (searchLines fs fuel entry turns f)
    | .ok (some .error, _) => ([], .err)
    | .err => ([], .err)
    | .panic => ([], .panic)

/-- `is_file_system`, scan_node.rs:46-64, image_tool.rs:957-960. -/
def isFileSystem : VfsType → Bool
  | .ext | .fat | .ntfs => true
  | _ => false

/-- hash_tool.rs:260-272, image_tool.rs:971-983 -/
def abovePath (location : Location ScanPath) : R (List Nat) :=
  match location.parent with
  | some parent => indexPath parent
  | none => .ok []

/-- How a tool goes through volumes: `VfsResolver::open_file_system`, the file entries of what was opened, and what is done for a file
entry with the path above the volume and its own. -/
structure Walk (V E : Type) where
  openVolume : Location ScanPath → R V
  files : V → Files E Name
  entry : Nat → V → List Nat → E → List (Option Name) → Out

/-- `calculate_hash_from_scan_node` of a node without sub nodes, hash_tool.rs:245-297, and `print_scan_node_as_bodyfile`,
image_tool.rs:955-1010. -/
def leafLines (w : Walk V E) (fuel : Nat) (location : Location ScanPath) : Out :=
  if isFileSystem location.type then
    after (w.openVolume location) fun v =>
    after (abovePath location) fun above =>
    searchLines (w.files v) fuel (w.entry fuel v above) fuel Finder.new
  else ([], .ok ())

mutual
/-- `calculate_hash_from_scan_node`, hash_tool.rs:243-313, and `print_scan_node_as_bodyfile`, image_tool.rs:949-1026. -/
def nodeLines (w : Walk V E) (fuel : Nat) : Node → Out
  | .node location [] => leafLines w fuel location
  | .node _ (sub :: subs) => (nodeLines w fuel sub).andThen (nodesLines w fuel subs)
/-- The loop over the sub nodes, hash_tool.rs:299-310, image_tool.rs:1012-1023. -/
def nodesLines (w : Walk V E) (fuel : Nat) : List Node → Out
  | [] => ([], .ok ())
  | sub :: subs => (nodeLines w fuel sub).andThen (nodesLines w fuel subs)
end

/-- How the hash tool goes through volumes. -/
def walk (c : Config E S) : Walk (Volume E S) E := ⟨c.openVolume, Volume.toFiles, entryLines c⟩

/-- hash_tool.rs:381-399: a source in which nothing is found; `file` is `open_os_data_stream`. -/
def fileLine (c : Config E S) (fuel : Nat) (source : List Nat) (file : R S) : Out :=
  after file fun s =>
  printed (do
    let hash ← forkHash c fuel ⟨none, .ok s⟩
    return hash ++ codePoints "  " ++ source)

/-- `main` for a source that was scanned, hash_tool.rs:373-411. -/
def toolLines (c : Config E S) (fuel : Nat) (source : List Nat) (file : R S) : Node → Out
  | .node _ [] => fileLine c fuel source file
  | .node location (sub :: subs) => nodeLines (walk c) fuel (.node location (sub :: subs))

end Keramics.HashTool
