import Verif.Model.HashTool
import Verif.Spec.VfsScanner
import Verif.Spec.Hashes
import Verif.Spec.Utf8

/-!
# Specification: the listing of the digests of the data streams of a file

A file holds volumes (`Content.listed`), a volume a tree of file entries (`Tree`), a file entry data streams. The listing has an item
for each data stream, in this order.
-/

namespace Keramics.Spec
open HashTool (Name Config Fork)
open Vfs (Location)
open VfsScanner (ScanPath)

/-- The characters of a name. -/
def nameChars : Name → List Nat
  | .byte s => match Utf8.decodeAll s with
    | .ok cs => cs
    | _ => []
  | .os => []
  | .text s => s
  | .ucs2 s => s

/-- The name can be shown: byte strings are UTF-8, and names do not come from the operating system. -/
def CanShow : Name → Prop
  | .byte s => ∃ cs : List Nat, (∀ c ∈ cs, Utf8.isScalar c) ∧ s = cs.flatMap Utf8.encode
  | .os => False
  | .text s => ∀ c ∈ s, c < 0x110000
  | .ucs2 s => ∀ c ∈ s, c < 2 ^ 16

/-- A character, escaped if it is special (C51); also vertical bars if `bar`. -/
def shownChar (bar : Bool) (c : Nat) : List Nat := if bar = true ∧ c = 0x7c then [0x5c, 0x7c] else Display.character c

/-- The name with its special characters escaped. What is no character is shown as its number. -/
def shownName (bar : Bool) : Name → List Nat
  | .byte s => (nameChars (.byte s)).flatMap fun c =>
    if Display.isChar c then shownChar bar c else [0x5c, 0x55, 0x7b] ++ Display.hex 8 c ++ [0x7d]
  | .os => []
  | .text s => s.flatMap (shownChar bar)
  | .ucs2 s => s.flatMap fun c => if Display.isChar c then shownChar bar c else [0x5c, 0x55] ++ Display.hex 8 c

/-- A path below the root: `/` for the root, otherwise each name after a slash. -/
def shownPath (bar : Bool) (names : List Name) : List Nat :=
  if names = [] then [0x2f] else names.flatMap fun n => 0x2f :: shownName bar n

/-- A path with the name of a data stream, if it has one, after a colon. -/
def shownStream (bar : Bool) (names : List Name) (stream : Option Name) : List Nat :=
  shownPath bar names ++ match stream with
    | none => []
    | some n => 0x3a :: shownName bar n

/-- A data stream of a file entry: its name and what can be read from it, none if it cannot be read to its end. -/
structure NamedStream where
  name : Option Name
  contents : Option (List Byte)

/-- What comes of a data stream: a line with a tab between the result and the path, or a failure that ends the listing. -/
inductive Item
  | line (result path : List Nat)
  | failure
deriving DecidableEq

/-- What is shown of items: the lines up to the first failure, and if there was one. -/
def showItems : List Item → List (List Nat) × R Unit
  | [] => ([], .ok ())
  | .line result path :: items => ((result ++ [0x09] ++ path) :: (showItems items).1, (showItems items).2)
  | .failure :: _ => ([], .err)

/-- The data streams that are not read: those with the name `$Bad` of `\$BadClus`, and of what is below it. -/
def notRead (names : List Name) (x : NamedStream) : Bool :=
  names.head? == some (.ucs2 (codePoints "$BadClus")) && x.name == some (.ucs2 (codePoints "$Bad"))

/-- The item of a data stream: the digest of its contents in hexadecimal; a data stream that cannot be read is a line that tells so, or
a failure if the listing is to stop on errors. -/
def streamItem (digest : List Byte → List Nat) (stop : Bool) (above : List Nat) (names : List Name) (x : NamedStream) : Item :=
  let path := above ++ shownStream false names x.name
  if notRead names x then .line (codePoints "N/A (skipped)") path
  else match x.contents with
    | some contents => .line (digest contents) path
    | none => if stop then .failure else .line (codePoints "N/A (error)") path

/-- The names of a path of the finder, whose first is that of the root. -/
def namesOf (path : List (Option Name)) : List Name := path.tail.filterMap id

variable {E S : Type}

/-- The items of what a search gives: those of the data streams of a file entry. A file entry that cannot be opened is a failure. -/
def foundItems (digest : List Byte → List Nat) (stop : Bool) (above : List Nat) (streams : E → List NamedStream) : Found E Name → List Item
  | .entry e path => (streams e).map (streamItem digest stop above (namesOf path))
  | .error => [.failure]

/-- The volumes with a file system: what their paths begin with, and the location of the file system. -/
def Volume.listed (above : List Nat) (location : Location ScanPath) (v : Volume) : List (List Nat × Location ScanPath) :=
  match v with
  | .nothing => []
  | .ext => [(above, .layer (.vfs (.ext [[]])) location .ext)]
  | .fat => [(above, .layer (.vfs (.fat [.ucs2 []])) location .fat)]
  | .ntfs => [(above, .layer (.vfs (.ntfs [[]])) location .ntfs)]

/-- The paths of partition `n` begin with `/pn`. -/
def Disk.listed (location : Location ScanPath) : Disk → List (List Nat × Location ScanPath)
  | .files v => v.listed [] location
  | .partitions k ps => (ps.mapIdx fun i v => v.listed (codePoints "/p" ++ codePoints (toString (i + 1))) (partLocation k (i + 1) location)).flatten

/-- The volumes of a file. -/
def Content.listed (location : Location ScanPath) : Content → List (List Nat × Location ScanPath)
  | .raw d => d.listed location
  | .image k n d => d.listed (partLocation k n location)

/-- From the state, reads of 64 KiB fail after `k` bytes. -/
inductive FailsAfter (read : S → Nat → R (List Byte × S)) : S → Nat → Prop
  | now {s} : read s 65536 = .err → FailsAfter read s 0
  | later {s out s' k} : read s 65536 = .ok (out, s') → out ≠ [] → FailsAfter read s' k → FailsAfter read s (out.length + k)

/-- A data fork is the data stream: it has its name, and reads from it, however short, give the contents and then nothing, or one of
them fails. -/
def IsStream (read : S → Nat → R (List Byte × S)) (f : Fork S) (x : NamedStream) : Prop :=
  f.name = x.name ∧
  match x.contents with
  | some contents => contents.length < 2 ^ 61 ∧ ∃ (s : S) (position : S → Nat → Prop), f.stream = .ok s ∧ position s 0 ∧
      ∀ s p n, position s p → ∃ out s', read s n = .ok (out, s') ∧ readOk false contents contents.length p n out ∧ position s' (p + out.length)
  | none => f.stream = .err ∨ ∃ s k, f.stream = .ok s ∧ FailsAfter read s k ∧ k < 2 ^ 61

/-- The volume at a location has the tree of file entries, and each of them these data streams. Names can be shown and, but for that of
the root, are not missing. -/
structure HoldsFiles (c : Config E S) (location : Location ScanPath) (v : HashTool.Volume E S) (root : E) (tree : Tree E)
    (streams : E → List NamedStream) : Prop where
  opens : c.openVolume location = .ok v
  hasRoot : v.root = .ok (some root)
  below : tree.IsBelow v.toFiles root
  rootName : v.name root = none
  names : ∀ e path, Found.entry e path ∈ tree.found v.toFiles [] → ∀ n ∈ path.tail, ∃ m, n = some m ∧ CanShow m
  number : ∀ e path, Found.entry e path ∈ tree.found v.toFiles [] → v.forks e = .ok (streams e).length
  forks : ∀ e path, Found.entry e path ∈ tree.found v.toFiles [] → ∀ i (h : i < (streams e).length),
    (∀ n, (streams e)[i].name = some n → CanShow n) ∧ ∃ f, v.fork e i = .ok f ∧ IsStream c.read f (streams e)[i]

end Keramics.Spec
