import Verif.Base.Ints

/-!
# Specification: NTFS run lists, update sequences and attribute contents

After the NTFS on-disk format.
-/

namespace Keramics.Spec.Ntfs

/-- A run of clusters: at a place on the volume, or not stored. -/
inductive Run where
  | data (count lcn : Nat)
  | sparse (count : Nat)
deriving DecidableEq, Repr

/-- `bytes` is an encoding of the runs; `last` is the place of the run before. A run is a byte with the
sizes of its fields, the number of clusters, and the place relative to the one before as a two's
complement number; a sparse run has no place. A field may be longer than needed. -/
inductive Encodes : Nat → List Run → List Byte → Prop
  | nil {last : Nat} : Encodes last [] []
  | data {last count lcn : Nat} {runs : List Run} {bytes : List Byte} (n m : Nat) : 1 ≤ n → n ≤ 8 → count < 256 ^ n → 1 ≤ m → m ≤ 8 →
      -(2 : Int) ^ (8 * m - 1) ≤ (lcn : Int) - last → (lcn : Int) - last < 2 ^ (8 * m - 1) →
      Encodes lcn runs bytes →
      Encodes last (.data count lcn :: runs) ([BitVec.ofNat 8 (16 * m + n)] ++ leBytes n count ++
        leBytes m (((lcn : Int) - last) % 256 ^ m).toNat ++ bytes)
  | sparse {last count : Nat} {runs : List Run} {bytes : List Byte} (n : Nat) : 1 ≤ n → n ≤ 8 → count < 256 ^ n → Encodes last runs bytes →
      Encodes last (.sparse count :: runs) ([BitVec.ofNat 8 n] ++ leBytes n count ++ bytes)

/-- The ends of the first `k` sectors of a record: two bytes each. -/
def sectorEnds : Nat → List Byte → List Byte
  | 0, _ => []
  | k + 1, record => (record.drop 510).take 2 ++ sectorEnds k (record.drop 512)

/-- The record as it is written: the end of each of the first `k` sectors is replaced with the update
sequence number. -/
def protect (number : List Byte) : Nat → List Byte → List Byte
  | 0, record => record
  | k + 1, record => record.take 510 ++ number ++ protect number k (record.drop 512)

/-- The bytes of a run of clusters of `bs` bytes. -/
def Run.bytes (volume : List Byte) (bs : Nat) : Run → List Byte
  | .data count lcn => (volume.drop (lcn * bs)).take (count * bs)
  | .sparse count => List.replicate (count * bs) 0#8

/-- The number of clusters of a run. -/
def Run.count : Run → Nat
  | .data count _ => count
  | .sparse count => count

/-- The contents of an attribute: the bytes of its runs up to the valid data size, from there on zeros. -/
def contents (volume : List Byte) (bs : Nat) (runs : List Run) (validSize size : Nat) : List Byte :=
  (runs.flatMap (Run.bytes volume bs)).take validSize ++ List.replicate (size - validSize) 0#8

/-- The groups of an attribute, each with its first and last virtual cluster number, follow each other: each
begins with the number after the end of the one before. All ones as last number means unknown. -/
def Follow : Nat → List (Nat × Nat × List Run) → Prop
  | _, [] => True
  | vcn, (first, last, runs) :: groups => first = vcn ∧ (last = 0xffffffffffffffff ∨ (last + 1 = vcn + (runs.map Run.count).sum)) ∧
    Follow (vcn + (runs.map Run.count).sum) groups

end Keramics.Spec.Ntfs
