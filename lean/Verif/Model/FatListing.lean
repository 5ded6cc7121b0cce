import Verif.Model.FatFileSystem

/-!
# Model: the entries of FAT directories by index

keramics-formats/src/fat/{directory_entries,file_entry}.rs.
-/

namespace Keramics.FatFs
open FatDir (State Entry)

/-- The place of a pair among pairs in the order of their keys. -/
def place (p : List Nat × Entry) : List (List Nat × Entry) → List (List Nat × Entry)
  | [] => [p]
  | q :: rest => if p.1 < q.1 then p :: q :: rest else q :: place p rest

/-- `BTreeMap::iter`: in the order of the keys. Strings are compared by their elements, ucs2_string.rs:20. -/
def inOrder (entries : List (List Nat × Entry)) : List (List Nat × Entry) := entries.foldr place []

/-- `get_number_of_sub_file_entries`, file_entry.rs:145-159. -/
def subCount (fold : Nat → Option Nat) (U : List Byte) (v : Volume) (e : FileEntry) : R Nat := do
  let st ← subEntries fold U v e
  return st.entries.length

/-- `get_sub_file_entry_by_index`, file_entry.rs:162-194, with `get_entry_by_index`, directory_entries.rs:61-66. -/
def subByIndex (fold : Nat → Option Nat) (U : List Byte) (v : Volume) (e : FileEntry) (index : Nat) : R FileEntry := do
  let st ← subEntries fold U v e
  let p ← Fat.orErr (inOrder st.entries)[index]?
  return ⟨some p.2, none⟩

end Keramics.FatFs
