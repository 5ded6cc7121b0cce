import Verif.Spec.FatFileSystem

/-!
# Specification: the files of a FAT directory
-/

namespace Keramics.Spec.FatFs
open FatDir

/-- The files of a directory, in the order of their names without regard to case: those that are found by their own name. -/
def Listing (fold : Nat → Option Nat) (stored : List Stored) (l : List File) : Prop :=
  l.Pairwise (fun a b => folded fold (fileName a) < folded fold (fileName b)) ∧ ∀ f, f ∈ l ↔ lookup fold stored (fileName f) = some f

end Keramics.Spec.FatFs
