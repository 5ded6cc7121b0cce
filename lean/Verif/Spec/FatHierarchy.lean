import Verif.Spec.InfoHierarchy
import Verif.Spec.FatListing

/-!
# Specification: the hierarchy of a FAT file system
-/

namespace Keramics.Spec.FatFs
open FatDir

/-- The paths below a directory, if there are at most `depth` levels of directories: for each file, in the order of the names without regard to case, its
own path and those below it. -/
def BelowFiles (fold : Nat → Option Nat) (volume : List Byte) (l : Layout) (m : Limits) : Nat → List Stored → List (List (List Nat)) → Prop
  | 0, _, _ => False
  | depth + 1, stored, paths => ∃ files : List (File × List (List (List Nat))), Listing fold stored (files.map Prod.fst) ∧
      (∀ x ∈ files, (¬ IsDirectory x.1 ∧ x.2 = []) ∨
        (IsDirectory x.1 ∧ firstCluster l x.1 < m.starts ∧ ∃ stored', Directory volume l m (firstCluster l x.1) stored' ∧ BelowFiles fold volume l m depth stored' x.2)) ∧
      paths = files.flatMap fun x => [fileName x.1] :: x.2.map fun names => fileName x.1 :: names

end Keramics.Spec.FatFs
