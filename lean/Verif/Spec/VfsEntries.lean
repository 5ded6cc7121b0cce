import Verif.Model.VfsEntries

/-!
# Specification: file entries of the operating system and targets of symbolic links
-/

namespace Keramics.Spec.VfsEntries
open ImageTool (Time FileType)

/-- The types of POSIX file modes. -/
def posixType (mode : Nat) : Option FileType :=
  match mode / 4096 with
  | 1 => some .namedPipe
  | 2 => some .characterDevice
  | 4 => some .directory
  | 6 => some .blockDevice
  | 8 => some .file
  | 10 => some .symbolicLink
  | 12 => some .socket
  | _ => none

/-- The seconds since 1970 and the nanoseconds of a time. -/
def value : Time → Option (Int × Nat)
  | .posix32 t => some (t, 0)
  | .posix64 t ns => some (t, ns)
  | _ => none

/-- The times that have a value: those with nanoseconds, and those in whole seconds that fit in 32 bits and are not the first second of
1970. -/
def Shown (t : Int × Int) : Prop := 0 ≤ t.2 ∧ t.2 < 1000000000 ∧ (t.2 = 0 → -2 ^ 31 ≤ t.1 ∧ t.1 < 2 ^ 31 ∧ t.1 ≠ 0)

/-- The components of a text between separators. -/
def Components {α} (sep : α) (text : List α) (components : List (List α)) : Prop :=
  [sep].intercalate components = text ∧ (∀ c ∈ components, sep ∉ c) ∧ components ≠ []

end Keramics.Spec.VfsEntries
