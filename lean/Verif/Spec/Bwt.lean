import Verif.Base.R

/-!
# Specification: the Burrows-Wheeler transform and the run lengths of bzip2

The transform of a block is the last column of its sorted rotations, with the index of the row that is the block. Before the transform,
bzip2 stores a run of 4 or more equal bytes as 4 of them, and a byte with the number of those that follow.
-/

namespace Keramics.Spec.Bwt

/-- Lexicographic order of lists of bytes. -/
def lexLe : List Byte → List Byte → Prop
  | [], _ => True
  | _ :: _, [] => False
  | a :: s, b :: t => a.toNat < b.toNat ∨ (a = b ∧ lexLe s t)

def rotations (block : List Byte) : List (List Byte) := (List.range block.length).map fun i => block.drop i ++ block.take i

/-- `last` is the last column of the sorted rotations of the block, and row `origin` of those is the block. -/
def IsTransform (block last : List Byte) (origin : Nat) : Prop :=
  ∃ rows : List (List Byte), rows.Perm (rotations block) ∧ rows.Pairwise lexLe ∧ last = rows.map (fun row => row.getLastD 0#8) ∧ rows[origin]? = some block

/-- Runs of equal bytes: from 1 to 255 + 4 times a byte, and a run of less than 4 is followed by another byte. -/
def ValidRuns : List (Byte × Nat) → Prop
  | [] => True
  | (b, n) :: rest => 1 ≤ n ∧ n ≤ 259 ∧ (n < 4 → ∀ r ∈ rest.head?, r.1 ≠ b) ∧ ValidRuns rest

/-- The bytes that are stored for a run. -/
def storedRun (r : Byte × Nat) : List Byte := if r.2 < 4 then List.replicate r.2 r.1 else List.replicate 4 r.1 ++ [BitVec.ofNat 8 (r.2 - 4)]

def stored (runs : List (Byte × Nat)) : List Byte := runs.flatMap storedRun

/-- The bytes of runs. -/
def expanded (runs : List (Byte × Nat)) : List Byte := runs.flatMap fun r => List.replicate r.2 r.1

end Keramics.Spec.Bwt
