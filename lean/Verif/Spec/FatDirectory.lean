import Verif.Base.Ints

/-!
# Specification: names in FAT directories

After the Microsoft FAT specification: a long name is cut into pieces of 13 units, the last piece is
ended with a zero unit and filled with `ffff` if it is not full. The pieces are stored last piece first,
each in an entry of 32 bytes with its number, directly before the short name entry.
-/

namespace Keramics.Spec.FatDir

/-- The pieces of a name, in order. -/
def pieces (name : List Nat) : List (List Nat) :=
  if h : name.length ≤ 13 then
    [if name.length = 13 then name else name ++ [0] ++ List.replicate (12 - name.length) 0xffff]
  else name.take 13 :: pieces (name.drop 13)
termination_by name.length
decreasing_by rw [List.length_drop]; omega

/-- A long name entry: number, 5 units, attributes `0f`, type 0, checksum, 6 units, cluster 0, 2 units. -/
def longEntry (checksum : Byte) (number : Nat) (piece : List Nat) : List Byte :=
  [BitVec.ofNat 8 number] ++ (piece.take 5).flatMap (leBytes 2) ++ [0x0f#8, 0x00#8, checksum]
    ++ ((piece.drop 5).take 6).flatMap (leBytes 2) ++ [0x00#8, 0x00#8] ++ (piece.drop 11).flatMap (leBytes 2)

/-- The entries of the pieces, from the last to the first; `number` is the number of the first piece
given, the last piece of the name has `0x40` added. -/
def longEntries (checksum : Byte) : Nat → List (List Nat) → List Byte
  | _, [] => []
  | number, [piece] => longEntry checksum (0x40 + number) piece
  | number, piece :: rest => longEntries checksum (number + 1) rest ++ longEntry checksum number piece

/-- What is stored in a directory, in order. -/
inductive Item where
  /-- A file or directory with a long name and its short name entry. -/
  | long (name : List Nat) (checksum : Byte) (entry : List Byte)
  /-- A file or directory with a short name only. -/
  | short (entry : List Byte)
  /-- A deleted entry. -/
  | deleted (entry : List Byte)
  /-- The entry `.` or `..` of a directory. -/
  | dots (entry : List Byte)
  /-- A volume label. -/
  | label (entry : List Byte)

/-- The bytes of an item. -/
def Item.bytes : Item → List Byte
  | .long name checksum entry => longEntries checksum 1 (pieces name) ++ entry
  | .short entry => entry
  | .deleted entry => entry
  | .dots entry => entry
  | .label entry => entry

/-- An entry of a file or directory: 32 bytes, not deleted, not an end mark, not a long name entry, not
a volume label, not `.` or `..` (a file name does not start with a dot). -/
def IsFile (short : List Byte) : Prop :=
  short.length = 32 ∧ short.head? ≠ some 0xe5#8 ∧ short.head? ≠ some 0x00#8 ∧ short.head? ≠ some 0x2e#8 ∧
  ∃ attributes, short[11]? = some attributes ∧ attributes &&& 0x08#8 = 0#8

/-- The entry of a directory itself or of its parent. -/
def IsDots (entry : List Byte) : Prop :=
  entry.length = 32 ∧ (entry.take 11 = 0x2e#8 :: List.replicate 10 0x20#8 ∨ entry.take 11 = 0x2e#8 :: 0x2e#8 :: List.replicate 9 0x20#8) ∧
  ∃ attributes, entry[11]? = some attributes ∧ attributes &&& 0x08#8 = 0#8

/-- The entry of a volume label, which can have the archive attribute. -/
def IsLabel (entry : List Byte) : Prop :=
  entry.length = 32 ∧ entry.head? ≠ some 0xe5#8 ∧ entry.head? ≠ some 0x00#8 ∧ (entry[11]? = some 0x08#8 ∨ entry[11]? = some 0x28#8)

/-- The item is one that can be stored: names have 1 to 255 units, none of them zero. -/
def Item.Ok : Item → Prop
  | .long name _ entry => 0 < name.length ∧ name.length ≤ 255 ∧ (∀ u ∈ name, 0 < u ∧ u < 2 ^ 16) ∧ IsFile entry
  | .short entry => IsFile entry
  | .deleted entry => entry.length = 32 ∧ entry.head? = some 0xe5#8
  | .dots entry => IsDots entry
  | .label entry => IsLabel entry

/-- The long name of an item that is a file or directory, none if it has only a short name, with the
short name entry. -/
def Item.names : Item → List (Option (List Nat) × List Byte)
  | .long name _ entry => [(some name, entry)]
  | .short entry => [(none, entry)]
  | .deleted _ => []
  | .dots _ => []
  | .label _ => []

/-- A short name entry: name and extension, padded with spaces, attributes, flags, times, cluster and size. -/
structure Short where
  base : List Byte
  ext : List Byte
  attributes : Byte
  flags : Byte
  times : List Byte
  cluster : Nat
  size : Nat

/-- A field padded with spaces. -/
def pad (n : Nat) (field : List Byte) : List Byte := field ++ List.replicate (n - field.length) 0x20#8

/-- The bytes of a short name entry. -/
def Short.bytes (s : Short) : List Byte :=
  pad 8 s.base ++ pad 3 s.ext ++ [s.attributes, s.flags] ++ s.times ++ leBytes 2 s.cluster ++ leBytes 4 s.size

/-- The entry of a file or directory: neither part ends with a space, and the first bytes are none of the marks. -/
def Short.Ok (s : Short) : Prop :=
  0 < s.base.length ∧ s.base.length ≤ 8 ∧ s.ext.length ≤ 3 ∧ s.base.getLast? ≠ some 0x20#8 ∧ s.ext.getLast? ≠ some 0x20#8 ∧
  s.base.head? ≠ some 0xe5#8 ∧ s.base.head? ≠ some 0x00#8 ∧ s.base.head? ≠ some 0x2e#8 ∧ s.ext.head? ≠ some 0x00#8 ∧ s.ext.head? ≠ some 0x20#8 ∧
  s.attributes &&& 0x08#8 = 0#8 ∧ s.times.length = 13 ∧ s.cluster < 2 ^ 16 ∧ s.size < 2 ^ 32

/-- A letter in lower case. -/
def lowerCase (b : Byte) : Byte := if 0x41 ≤ b.toNat ∧ b.toNat ≤ 0x5a then b + 32#8 else b

/-- The name of the file: bit 3 of the flags has the name in lower case and bit 4 the extension, after a dot if there is one. -/
def Short.display (s : Short) : List Byte :=
  (if s.flags.getLsbD 3 then s.base.map lowerCase else s.base) ++
    if s.ext = [] then [] else 0x2e#8 :: if s.flags.getLsbD 4 then s.ext.map lowerCase else s.ext

/-- What is stored in a directory: a file with its long name, if it has one, and the checksum stored with it, a deleted entry, one of `.` and `..`, or
a volume label. -/
inductive Stored where
  | file (long : Option (List Nat × Byte)) (short : Short)
  | deleted (entry : List Byte)
  | dots (entry : List Byte)
  | label (entry : List Byte)

/-- The entries. -/
def Stored.item : Stored → Item
  | .file (some (name, checksum)) short => .long name checksum short.bytes
  | .file none short => .short short.bytes
  | .deleted entry => .deleted entry
  | .dots entry => .dots entry
  | .label entry => .label entry

/-- It can be stored; without long name the name is ASCII. -/
def Stored.Ok : Stored → Prop
  | .file (some (name, _)) short => 0 < name.length ∧ name.length ≤ 255 ∧ (∀ u ∈ name, 0 < u ∧ u < 2 ^ 16) ∧ short.Ok
  | .file none short => short.Ok ∧ ∀ b ∈ short.base ++ short.ext, b.toNat < 128
  | .deleted entry => entry.length = 32 ∧ entry.head? = some 0xe5#8
  | .dots entry => IsDots entry
  | .label entry => IsLabel entry

/-- The files, with their long name. -/
def Stored.files : Stored → List (Option (List Nat) × Short)
  | .file long short => [(long.map Prod.fst, short)]
  | .deleted _ => []
  | .dots _ => []
  | .label _ => []

/-- The name of a file: the long name or else the short name. -/
def fileName (f : Option (List Nat) × Short) : List Nat := f.1.getD (f.2.display.map BitVec.toNat)

/-- A name with its units replaced by a table. -/
def folded (fold : Nat → Option Nat) (name : List Nat) : List Nat := name.map fun u => (fold u).getD u

end Keramics.Spec.FatDir
