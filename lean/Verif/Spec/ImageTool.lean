import Verif.Model.ImageTool
import Verif.Spec.HashTool

/-!
# Specification: the bodyfile of a file

A bodyfile has a line for each file entry of each volume and for each named data stream; for a file entry of NTFS also one for each
$FILE_NAME attribute of the name by which it was found. A line has eleven fields with vertical bars between them.
-/

namespace Keramics.Spec
open HashTool (Name)
open ImageTool (Time FileType Kind FileName Info)
open Vfs (Location)
open VfsScanner (ScanPath)

/-- A line of a bodyfile. -/
structure BodyRow where
  md5 : List Nat
  path : List Nat
  identifier : List Nat
  mode : List Nat
  owner : List Nat
  group : List Nat
  size : List Nat
  access : List Nat
  modification : List Nat
  change : List Nat
  creation : List Nat

/-- Its fields. -/
def BodyRow.fields (r : BodyRow) : List (List Nat) :=
  [r.md5, r.path, r.identifier, r.mode, r.owner, r.group, r.size, r.access, r.modification, r.change, r.creation]

/-- Its text. -/
def BodyRow.line (r : BodyRow) : List Nat := List.intercalate [0x7c] r.fields

/-- The fields of a line from somewhere in a field; a character behind a backslash does not end a field. -/
def splitFrom (field : List Nat) : List Nat → List (List Nat)
  | [] => [field]
  | [c] => if c = 0x7c then [field, []] else [field ++ [c]]
  | c :: d :: rest =>
    if c = 0x5c then splitFrom (field ++ [c, d]) rest
    else if c = 0x7c then field :: splitFrom [] (d :: rest)
    else splitFrom (field ++ [c]) (d :: rest)

/-- How a line is read: its fields. -/
def splitFields (line : List Nat) : List (List Nat) := splitFrom [] line

/-- The letter of the type in a mode. -/
def typeLetter (mode : Nat) : Nat :=
  match mode / 4096 with
  | 1 => 0x70
  | 2 => 0x63
  | 4 => 0x64
  | 6 => 0x62
  | 10 => 0x6c
  | 12 => 0x73
  | _ => 0x2d

/-- The letters of the permissions. -/
def permissions : List Nat := codePoints "rwxrwxrwx"

/-- A mode as `ls` shows it: the letter of its type, and of its lower 9 bits, from the highest on, the letter if it is set. -/
def modeText (mode : Nat) : List Nat :=
  typeLetter mode :: (List.range 9).map fun i => if mode.testBit (8 - i) then permissions.getD i 0 else 0x2d

/-- The mode of a file entry without one: all permissions, but those to write if it is read-only. -/
def modeOfFlags (letter : Nat) (readOnly : Bool) : List Nat :=
  letter :: permissions.map fun c => if readOnly = true ∧ c = 0x77 then 0x2d else c

/-- The letter of a file type. -/
def fileTypeLetter : FileType → Nat
  | .blockDevice => 0x62
  | .characterDevice => 0x63
  | .directory => 0x64
  | .namedPipe => 0x70
  | .socket => 0x73
  | .symbolicLink => 0x6c
  | .whiteout => 0x77
  | _ => 0x2d

/-- The mode of a file entry. In the file attribute flags bit 0 is read-only and bit 2 system. -/
def entryMode (type : FileType) : Kind → List Nat
  | .ext _ mode _ _ => modeText mode
  | .fat _ flags => modeOfFlags (fileTypeLetter type) (flags.testBit 0 || flags.testBit 2)
  | .ntfs _ flags => modeOfFlags (fileTypeLetter type) (flags.testBit 0 || flags.testBit 2)
  | .other => modeOfFlags (fileTypeLetter type) false

/-- The identifier: the number of the inode, the offset of the directory entry in hexadecimal, or the number of the MFT entry and
the sequence number. -/
def entryIdentifier : Kind → List Nat
  | .ext inode _ _ _ => codePoints (toString inode)
  | .fat identifier _ => codePoints "0x" ++ Display.hex 8 identifier
  | .ntfs reference _ => codePoints (toString (reference % 2 ^ 48)) ++ codePoints "-" ++ codePoints (toString (reference / 2 ^ 48))
  | .other => []

def entryOwner : Kind → List Nat
  | .ext _ _ owner _ => codePoints (toString owner)
  | _ => []

def entryGroup : Kind → List Nat
  | .ext _ _ _ group => codePoints (toString group)
  | _ => []

/-- The text of a time (C52); nothing if there is none. -/
def timeText : Option Time → List Nat
  | some (.filetime t) => (Bodyfile.filetime t).map Char.toNat
  | some (.posix32 t) => (Bodyfile.posix32 t).map Char.toNat
  | some (.posix64 t f) => (Bodyfile.posix64 t f).map Char.toNat
  | _ => []

/-- What a file entry is: also the contents of its default data stream if it has one, the text of the target of a symbolic link, its
data streams, and of NTFS the reference of the directory in which it was found and the $FILE_NAME attributes. -/
structure EntryFacts where
  kind : Kind
  type : FileType
  size : Nat
  access : Option Time
  modification : Option Time
  change : Option Time
  creation : Option Time
  contents : Option (List Byte)
  target : Option (List Nat)
  streams : List (Option Name × List Byte)
  parent : Option Nat
  fileNames : List FileName

/-- The MD5 if it is to be calculated, otherwise 0. -/
def md5Text (digest : Option (List Byte → List Nat)) (contents : Option (List Byte)) : List Nat :=
  match digest with
  | none => codePoints "0"
  | some digest => match contents with
    | none => List.replicate 32 0x30
    | some contents => digest contents

/-- The target of a symbolic link behind the path. -/
def linkText : Option (List Nat) → List Nat
  | none => []
  | some target => codePoints " -> " ++ target

/-- A line for a file entry. -/
def EntryFacts.row (f : EntryFacts) (md5 path : List Nat) (size : Nat) (access modification change creation : Option Time) : BodyRow :=
  { md5, path, identifier := entryIdentifier f.kind, mode := entryMode f.type f.kind, owner := entryOwner f.kind, group := entryGroup f.kind,
    size := codePoints (toString size), access := timeText access, modification := timeText modification, change := timeText change,
    creation := timeText creation }

/-- That of the file entry itself. -/
def EntryFacts.first (f : EntryFacts) (digest : Option (List Byte → List Nat)) (above : List Nat) (names : List Name) : BodyRow :=
  f.row (md5Text digest f.contents) (above ++ shownPath true names ++ linkText f.target) f.size f.access f.modification f.change f.creation

/-- That of a data stream. -/
def EntryFacts.stream (f : EntryFacts) (digest : Option (List Byte → List Nat)) (above : List Nat) (names : List Name) (name : Name)
    (contents : List Byte) : BodyRow :=
  f.row (md5Text digest (some contents)) (above ++ shownStream true names (some name) ++ linkText f.target) contents.length
    f.access f.modification f.change f.creation

/-- That of a $FILE_NAME attribute, with the times in it. -/
def EntryFacts.named (f : EntryFacts) (digest : Option (List Byte → List Nat)) (above : List Nat) (names : List Name) (x : FileName) : BodyRow :=
  f.row (md5Text digest f.contents) (above ++ shownPath true names ++ codePoints " ($FILE_NAME)") f.size
    (some x.access) (some x.modification) (some x.entryModification) (some x.creation)

/-- The $FILE_NAME attribute is of the name by which the file entry was found; short names of DOS are left out. -/
def EntryFacts.isOwn (f : EntryFacts) (names : List Name) (x : FileName) : Bool :=
  (match f.kind with | .ntfs _ _ => true | _ => false) && f.parent == some x.parent && names.getLast? == some (.ucs2 x.name) && x.nameSpace != 2

/-- The lines of a file entry. -/
def EntryFacts.rows (f : EntryFacts) (digest : Option (List Byte → List Nat)) (above : List Nat) (names : List Name) : List BodyRow :=
  f.first digest above names ::
    (f.streams.filterMap fun (name, contents) => name.map fun n => f.stream digest above names n contents) ++
    (f.fileNames.filter (f.isOwn names)).map (f.named digest above names)

variable {E S : Type}

/-- The lines of what a search gives; nothing if a file entry cannot be opened. -/
def foundRows (digest : Option (List Byte → List Nat)) (above : List Nat) (facts : E → EntryFacts) : Found E Name → Option (List BodyRow)
  | .entry e path => some ((facts e).rows digest above (namesOf path))
  | .error => none

/-- What is shown: the lines up to the first failure, and if there was one. -/
def showRows : List (Option (List BodyRow)) → List (List Nat) × R Unit
  | [] => ([], .ok ())
  | some rows :: more => (rows.map BodyRow.line ++ (showRows more).1, (showRows more).2)
  | none :: _ => ([], .err)

/-- What can be asked of a file entry is what it is. All can be read, and its times are of a supported kind. -/
structure Describes (c : ImageTool.Config E S) (v : ImageTool.Volume E S) (e : E) (f : EntryFacts) : Prop where
  kind : (v.info e).kind = f.kind
  type : (v.info e).type = f.type
  flagsType : (∀ i m o g, f.kind ≠ .ext i m o g) → f.kind ≠ .other → f.type = .file ∨ f.type = .directory ∨ f.type = .symbolicLink
  mode : ∀ inode mode owner group, f.kind = .ext inode mode owner group → mode < 2 ^ 16
  size : (v.info e).size = f.size
  times : (v.info e).access = f.access ∧ (v.info e).modification = f.modification ∧ (v.info e).change = f.change ∧ (v.info e).creation = f.creation
  supported : f.access ≠ some .other ∧ f.modification ≠ some .other ∧ f.change ≠ some .other ∧ f.creation ≠ some .other
  contents : c.md5 = true → match f.contents with
    | none => (v.info e).stream = .ok none
    | some contents => ∃ s, (v.info e).stream = .ok (some s) ∧ IsStream c.read ⟨none, .ok s⟩ ⟨none, some contents⟩
  target : match f.target with
    | none => (v.info e).target = .ok none
    | some text => ∃ path, (v.info e).target = .ok (some path) ∧ path.text = .ok text
  number : v.forks e = .ok f.streams.length
  forks : ∀ i (h : i < f.streams.length), ∃ x, v.fork e i = .ok x ∧ x.name = f.streams[i].1 ∧
    ∀ n, x.name = some n → CanShow n ∧ ∃ s, x.stream = .ok s ∧ c.streamSize s = .ok f.streams[i].2.length ∧
      (c.md5 = true → IsStream c.read x ⟨some n, some f.streams[i].2⟩)
  parent : (v.info e).parent = f.parent
  fileNames : ∃ as : List (Option FileName), (v.info e).attributes = as.map R.ok ∧ as.filterMap id = f.fileNames
  fileTimes : ∀ x ∈ f.fileNames, x.access ≠ .other ∧ x.modification ≠ .other ∧ x.entryModification ≠ .other ∧ x.creation ≠ .other

/-- The volume at a location has the tree of file entries, and they are these. -/
structure HoldsEntries (c : ImageTool.Config E S) (location : Location ScanPath) (v : ImageTool.Volume E S) (root : E) (tree : Tree E)
    (facts : E → EntryFacts) : Prop where
  opens : c.openVolume location = .ok v
  hasRoot : v.root = .ok (some root)
  below : tree.IsBelow v.toFiles root
  rootName : v.name root = none
  names : ∀ e path, Found.entry e path ∈ tree.found v.toFiles [] → ∀ n ∈ path.tail, ∃ m, n = some m ∧ CanShow m
  entries : ∀ e path, Found.entry e path ∈ tree.found v.toFiles [] → Describes c v e (facts e)

end Keramics.Spec
