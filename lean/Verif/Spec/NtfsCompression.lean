import Verif.Spec.NtfsFileSystem
import Verif.Spec.Lznt1

/-!
# Specification: compressed attributes of NTFS

The clusters of a compressed attribute come in units of 2^k clusters. A unit is stored as it is if it has all its clusters, is zero if it has none, and otherwise
its first clusters have LZNT1 blocks, with zeros after them if there is room.
-/

namespace Keramics.Spec.NtfsFs
open Keramics.Spec.Ntfs

/-- The clusters of some runs, one by one: the place of each, none if it is not stored. -/
def places : List Run → List (Option Nat)
  | [] => []
  | .data count lcn :: runs => (List.range' lcn count).map some ++ places runs
  | .sparse count :: runs => List.replicate count none ++ places runs

/-- The bytes of clusters at some places. -/
def stored (U : List Byte) (bs : Nat) (lcns : List Nat) : List Byte := lcns.flatMap fun lcn => bytesAt U (lcn * bs) bs

/-- The bytes of a unit with these clusters of `bs` bytes. -/
inductive UnitIs (U : List Byte) (bs : Nat) : List (Option Nat) → List Byte → Prop
  | stored (lcns : List Nat) : lcns ≠ [] → UnitIs U bs (lcns.map some) (stored U bs lcns)
  | sparse (n : Nat) : UnitIs U bs (List.replicate n none) (List.replicate (n * bs) 0#8)
  | compressed (lcns : List Nat) (n : Nat) (blocks : List Lznt1.Block) (tail : List Byte) : lcns ≠ [] → 0 < n → (∀ b ∈ blocks, b.wf) →
      stored U bs lcns = Lznt1.encode blocks ++ tail → (tail = [] ∨ ∃ t, tail = 0#8 :: 0#8 :: t) →
      (Lznt1.denote blocks).length ≤ (lcns.length + n) * bs →
      UnitIs U bs (lcns.map some ++ List.replicate n none)
        (Lznt1.denote blocks ++ List.replicate ((lcns.length + n) * bs - (Lznt1.denote blocks).length) 0#8)

/-- The units of a compressed attribute, each with its clusters and its bytes. -/
structure Units (U : List Byte) (p : Piece) (ps : List Piece) (units : List (List (Option Nat) × List Byte)) : Prop where
  exponent : 0 < p.unit
  fits : 2 ^ p.unit * clusterSize U < 2 ^ 63
  whole : ∀ x ∈ units, x.1.length = 2 ^ p.unit
  bytes : ∀ x ∈ units, UnitIs U (clusterSize U) x.1 x.2
  all : places ((p :: ps).flatMap Piece.runs) = units.flatMap Prod.fst

end Keramics.Spec.NtfsFs
