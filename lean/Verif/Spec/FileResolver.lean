import Mathlib.Data.List.Basic

/-!
# Specification: the place of a path in the tree of folders

How Unix resolves a path, without symbolic links. A place is the names of the folders from the root on, and the name of the file.
-/

namespace Keramics.Spec.FileResolver

/-- The names of a path: what is between the slashes. -/
def names : List Nat → List (List Nat)
  | [] => [[]]
  | c :: cs =>
    if c = 0x2f then [] :: names cs
    else match names cs with
      | n :: ns => (c :: n) :: ns
      | [] => [[c]]

/-- One name: nothing and "." stay, ".." goes to the parent. -/
def step (place : List (List Nat)) (name : List Nat) : List (List Nat) :=
  if name = [] ∨ name = [0x2e] then place
  else if name = [0x2e, 0x2e] then place.dropLast
  else place ++ [name]

/-- The place that names lead to from a place. -/
def go (start : List (List Nat)) (ns : List (List Nat)) : List (List Nat) :=
  ns.foldl step start

/-- The path is absolute. -/
def Absolute (path : List Nat) : Prop := path.head? = some 0x2f

/-- The place of a path, in a working folder. -/
def place (working : List (List Nat)) (path : List Nat) : List (List Nat) :=
  go (if path.head? = some 0x2f then [] else working) (names path)

/-- The name of a file in a folder: it has no slash and is not ".", ".." or empty. -/
def Plain (name : List Nat) : Prop :=
  0x2f ∉ name ∧ name ≠ [] ∧ name ≠ [0x2e] ∧ name ≠ [0x2e, 0x2e]

/-- The place is in the folder, at any depth. -/
def Inside (folder place : List (List Nat)) : Prop := ∃ rest, rest ≠ [] ∧ place = folder ++ rest

end Keramics.Spec.FileResolver
