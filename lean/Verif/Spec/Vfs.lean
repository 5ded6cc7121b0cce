import Verif.Model.Vfs
import Verif.Spec.Utf8

/-!
# Specification: path components and file systems
-/

namespace Keramics.Spec
open Keramics.Path Keramics.Vfs

/-- UTF-16 of a character. -/
def utf16Units (c : Nat) : List Nat := if c < 0x10000 then [c] else [0xd800 + (c - 0x10000) / 1024, 0xdc00 + (c - 0x10000) % 1024]

/-- A component in another form: the same component, or the UTF-8 or UTF-16 of its text. -/
inductive SameName : Component → Component → Prop
  | same (c : Component) : SameName c c
  | utf8 (t : List Nat) : SameName (.bytes (t.flatMap Utf8.encode)) (.text t)
  | utf16 (t : List Nat) : SameName (.ucs2 (t.flatMap utf16Units)) (.text t)

/-- The file system is of the type of the location and was opened from where the location says: the parent location, in a
file system that itself is the one of the parent location, or the operating system. -/
def Backed {P : Type} (os : Location P) : Location P → FileSystem P → Prop
  | .base _ type, fs => fs = .root type os
  | .layer _ parent type, fs => ∃ p, fs = .inside type parent p ∧ Backed os parent p

/-- The location is opened with the type that belongs to where it is opened from (`T`), and so are its parents. The root of the
operating system is not itself opened as an image or volume. -/
def Consistent {P : Type} (os : Location P) (T : Location P → VfsType) : Location P → Prop
  | .base _ type => type = T os
  | .layer _ parent type => parent ≠ os ∧ type = T parent ∧ Consistent os T parent

/-- Where a location is opened from. -/
def openedFrom {P : Type} (os : Location P) : Location P → Location P
  | .base _ _ => os
  | .layer _ parent _ => parent

/-- Where a file system was opened from. -/
def source {P : Type} : FileSystem P → Location P
  | .root _ l => l
  | .inside _ l _ => l

end Keramics.Spec
