import Verif.Model.Types
import Verif.Model.Utf8
import Verif.Model.Tools

/-!
# Model: VFS paths, locations and the VFS context

Text is a list of code points.
-/

namespace Keramics.Path

/-! ## Component lists: the code shared by `StringPath`, `ExtPath`, `FatPath` and `NtfsPath` -/

/-- `new_with_parent_directory`, string_path.rs:25-35, ext/path.rs:37-47, fat/path.rs:39-49, ntfs/path.rs:37-47. -/
def parent {α} (p : List α) : List α := if p.length > 1 then p.take (p.length - 1) else p.take p.length

/-- `file_name`, string_path.rs:38-45, ext/path.rs:92-99, fat/path.rs:130-137, ntfs/path.rs:92-99. -/
def fileName {α} (p : List α) : Option α := if p.length > 1 then p[p.length - 1]? else none

/-- Standard library `[String]::join`. -/
def joinText (sep : Nat) : List (List Nat) → List Nat
  | [] => []
  | [c] => c
  | c :: d :: rest => c ++ sep :: joinText sep (d :: rest)

/-- Standard library `str::split` at a character. -/
def splitText (sep : Nat) : List Nat → List (List Nat)
  | [] => [[]]
  | c :: cs =>
    if c = sep then [] :: splitText sep cs
    else match splitText sep cs with
      | [] => [[c]]
      | x :: xs => (c :: x) :: xs

/-- `to_string`, string_path.rs:48-55, ext/path.rs:112-123, fat/path.rs:150-161, ntfs/path.rs:112-123, where `text` is the
text of a component and `isEmpty` tells if it is empty. -/
def toText {α} (sep : Nat) (isEmpty : α → Bool) (text : α → R (List Nat)) (p : List α) : R (List Nat) :=
  if p.length = 1 ∧ (p.map isEmpty)[0]? = some true then .ok [sep]
  else do return joinText sep (← p.mapM text)

/-! ## Components -/

/-- Standard library `str::encode_utf16` of a character. -/
def utf16 (c : Nat) : List Nat :=
  if c < 0x10000 then [c] else [0xd800 + (c - 0x10000) / 0x400, 0xdc00 + (c - 0x10000) % 0x400]

/-- `Ucs2String::from(&str)`, ucs2_string.rs:162-170. -/
def ucs2Of (s : List Nat) : List Nat := s.flatMap utf16

/-- `Ucs2String::to_string`, ucs2_string.rs:131-146. -/
def ucs2Text (s : List Nat) : List Nat :=
  s.flatMap fun e => if Display.isChar e then (if e = 0x5c then [0x5c, 0x5c] else [e]) else [0x5c, 0x7b] ++ Display.hex 4 e ++ [0x7d]

/-- UTF-8 bytes of a character (standard library). -/
def utf8 (c : Nat) : List Byte :=
  (if c < 0x80 then [c]
   else if c < 0x800 then [0xc0 + c / 64, 0x80 + c % 64]
   else if c < 0x10000 then [0xe0 + c / 4096, 0x80 + c / 64 % 64, 0x80 + c % 64]
   else [0xf0 + c / 262144, 0x80 + c / 4096 % 64, 0x80 + c / 64 % 64, 0x80 + c % 64]).map (BitVec.ofNat 8)

/-- `ByteString::from(&str)`, byte_string.rs:149-169. The encoding is always UTF-8 here. -/
def bytesOf (s : List Nat) : List Byte := ByteString.elements (s.flatMap utf8)

/-- `ByteString::to_string`, byte_string.rs:122-146, in UTF-8; a decode error is `todo!()`. -/
def bytesText (s : List Byte) : R (List Nat) :=
  match Utf8.decodeAll s with
  | .ok cs => .ok (cs.flatMap fun e => if Display.isChar e then (if e = 0x5c then [0x5c, 0x5c] else [e]) else [0x5c, 0x7b] ++ Display.hex 4 e ++ [0x7d])
  | _ => .panic

/-- `PathComponent`, path_component.rs:19-23. Byte strings are in UTF-8 here. -/
inductive Component
  | bytes (s : List Byte)
  | text (s : List Nat)
  | ucs2 (s : List Nat)
deriving DecidableEq, Repr

/-- `FatString`, fat/string.rs:23-29. -/
inductive FatString
  | bytes (s : List Byte)
  | ucs2 (s : List Nat)
deriving DecidableEq, Repr

/-- `FatString::is_empty`, fat/string.rs:77-82. -/
def FatString.isEmpty : FatString → Bool
  | .bytes s => s.isEmpty
  | .ucs2 s => s.isEmpty

/-- `FatString::to_string`, fat/string.rs:93-98. -/
def FatString.text : FatString → R (List Nat)
  | .bytes s => bytesText s
  | .ucs2 s => .ok (ucs2Text s)

/-- `VfsPath`, vfs/path.rs:28-34. `VfsPath::Os` is a standard library `PathBuf` and is not modelled. -/
inductive VfsPath
  | ext (components : List (List Byte))
  | fat (components : List FatString)
  | ntfs (components : List (List Nat))
  | string (components : List (List Nat))
deriving DecidableEq, Repr

/-- The kinds of VFS types that determine the kind of a path, vfs/path.rs:39-54. -/
inductive Kind
  | ext | fat | ntfs | string
deriving DecidableEq, Repr

/-- `VfsPath::from_path`, vfs/path.rs:38-55, with `From<&str>` of the paths: string_path.rs:58-74, ext/path.rs:126-145,
fat/path.rs:164-183, ntfs/path.rs:126-145. -/
def VfsPath.fromText (kind : Kind) (s : List Nat) : VfsPath :=
  match kind with
  | .string => .string (if s = [0x2f] then [[]] else splitText 0x2f s)
  | .ext => .ext (if s = [] then [] else if s = [0x2f] then [[]] else (splitText 0x2f s).map bytesOf)
  | .fat => .fat (if s = [] then [] else if s = [0x2f] then [.ucs2 []] else (splitText 0x2f s).map fun c => .ucs2 (ucs2Of c))
  | .ntfs => .ntfs (if s = [] then [] else if s = [0x5c] then [[]] else (splitText 0x5c s).map ucs2Of)

/-- vfs/path.rs:83-94 -/
def extComponent : Component → R (List Byte)
  | .bytes s => .ok s
  | .text s => .ok (bytesOf s)
  | .ucs2 _ => .err

/-- vfs/path.rs:102-113 -/
def fatComponent : Component → R FatString
  | .bytes s => .ok (.bytes s)
  | .ucs2 s => .ok (.ucs2 s)
  | .text s => .ok (.ucs2 (ucs2Of s))

/-- vfs/path.rs:121-132 -/
def ntfsComponent : Component → R (List Nat)
  | .text s => .ok (ucs2Of s)
  | .ucs2 s => .ok s
  | .bytes _ => .err

/-- vfs/path.rs:156-166 -/
def stringComponent : Component → R (List Nat)
  | .text s => .ok s
  | _ => .err

/-- The loops of `new_with_join`, vfs/path.rs:83-94, 102-113, 121-132, 156-166. -/
def push {α} (convert : Component → R α) : List Component → List α → R (List α)
  | [], acc => .ok acc
  | c :: cs, acc => do
    let x ← convert c
    push convert cs (acc ++ [x])

/-- `new_with_join`, vfs/path.rs:78-173. -/
def VfsPath.join (p : VfsPath) (cs : List Component) : R VfsPath :=
  match p with
  | .ext c => do return .ext (← push extComponent cs c)
  | .fat c => do return .fat (← push fatComponent cs c)
  | .ntfs c => do return .ntfs (← push ntfsComponent cs c)
  | .string c => do return .string (← push stringComponent cs c)

/-- `new_with_parent_directory`, vfs/path.rs:176-201. -/
def VfsPath.parent : VfsPath → VfsPath
  | .ext c => .ext (Path.parent c)
  | .fat c => .fat (Path.parent c)
  | .ntfs c => .ntfs (Path.parent c)
  | .string c => .string (Path.parent c)

/-- vfs/path.rs:211-218 -/
def fatName : FatString → Component
  | .bytes s => .bytes s
  | .ucs2 s => .ucs2 s

/-- `get_file_name`, vfs/path.rs:204-234. -/
def VfsPath.fileName : VfsPath → Option Component
  | .ext c => (Path.fileName c).map .bytes
  | .fat c => (Path.fileName c).map fatName
  | .ntfs c => (Path.fileName c).map .ucs2
  | .string c => (Path.fileName c).map .text

/-- `to_string`, vfs/path.rs:237-246. -/
def VfsPath.text : VfsPath → R (List Nat)
  | .ext c => toText 0x2f List.isEmpty bytesText c
  | .fat c => toText 0x2f FatString.isEmpty FatString.text c
  | .ntfs c => toText 0x5c List.isEmpty (fun s => .ok (ucs2Text s)) c
  | .string c => toText 0x2f List.isEmpty .ok c

end Keramics.Path

namespace Keramics.Vfs

/-- `VfsType`, vfs/enums.rs. -/
inductive VfsType
  | apm | ext | ewf | fake | fat | gpt | mbr | ntfs | os | qcow | sparseImage | udif | vhd | vhdx
deriving DecidableEq, Repr

/-- `VfsLocation`, vfs/location.rs:21-31. Paths are opaque. -/
inductive Location (Path : Type)
  | base (path : Path) (type : VfsType)
  | layer (path : Path) (parent : Location Path) (type : VfsType)
deriving DecidableEq, Repr

/-- `get_type`, location.rs:85-90. -/
def Location.type {Path} : Location Path → VfsType
  | .base _ t => t
  | .layer _ _ t => t

/-- `get_parent`, location.rs:69-74. -/
def Location.parent {Path} : Location Path → Option (Location Path)
  | .base _ _ => none
  | .layer _ p _ => some p

/-- `VfsFileSystem` after `open`, vfs/file_system.rs: its type, the location it was opened from and the file system that
location is in. What the file system contains is not modelled here. -/
inductive FileSystem (Path : Type)
  | root (type : VfsType) (location : Location Path)
  | inside (type : VfsType) (location : Location Path) (parent : FileSystem Path)

/-- The parent and the new file system, context.rs:105-129. -/
def FileSystem.new {Path} (type : VfsType) (location : Location Path) : Option (FileSystem Path) → FileSystem Path
  | none => .root type location
  | some p => .inside type location p

/-- `VfsContext`, context.rs:27-33: the file systems whose weak reference can be upgraded. An expired weak reference is the
same as none. -/
abbrev Context (Path : Type) := Location Path → Option (FileSystem Path)

variable {Path : Type} [DecidableEq Path]

/-- context.rs:118-139: open a file system that is not cached. `can` tells if `VfsFileSystem::open` succeeds. -/
def openNew (can : VfsType → Option (FileSystem Path) → Location Path → Bool) (ctx : Context Path) (type : VfsType) (key : Location Path)
    (parent : Option (FileSystem Path)) : Context Path × Option (FileSystem Path) :=
  if can type parent key then
    (fun l => if l = key then some (FileSystem.new type key parent) else ctx l, some (FileSystem.new type key parent))
  else (ctx, none)

/-- `open_file_system`, context.rs:78-140, where `os` is the location of the operating system. Returns the new context and
the file system, none for an error. -/
def openFileSystem (os : Location Path) (can : VfsType → Option (FileSystem Path) → Location Path → Bool) (ctx : Context Path) :
    Location Path → Context Path × Option (FileSystem Path)
  | .base _ type =>
    if type = .fake then (ctx, none)
    else match ctx os with
      | some fs => (ctx, some fs)
      | none => openNew can ctx type os none
  | .layer _ parent type =>
    if type = .fake then (ctx, none)
    else match ctx parent with
      | some fs => (ctx, some fs)
      | none =>
        match openFileSystem os can ctx parent with
        | (ctx, none) => (ctx, none)
        | (ctx, some p) => openNew can ctx type parent (some p)

/-- What happens to a context: a location is opened, or the last reference to the file system of a location is dropped. -/
inductive Event (Path : Type)
  | opened (location : Location Path)
  | dropped (key : Location Path)

/-- The context after an event. -/
def step (os : Location Path) (can : VfsType → Option (FileSystem Path) → Location Path → Bool) (ctx : Context Path) : Event Path → Context Path
  | .opened l => (openFileSystem os can ctx l).1
  | .dropped key => fun l => if l = key then none else ctx l

/-- The context after a history, from `VfsContext::new`, context.rs:37-42. -/
def after (os : Location Path) (can : VfsType → Option (FileSystem Path) → Location Path → Bool) (history : List (Event Path)) : Context Path :=
  history.foldl (step os can) fun _ => none

end Keramics.Vfs
