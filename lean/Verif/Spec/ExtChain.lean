import Verif.Spec.ExtFileSystem

/-!
# Specification: how entries of a directory follow each other
-/

namespace Keramics.Spec.ExtFs

/-- The entries in `data` follow each other: every entry has at least 8 bytes and is within the data, and so is its
name; an entry of size 0 is the last one. -/
inductive Chain : List Byte → Prop
  | nil : Chain []
  | stop {data : List Byte} : 8 ≤ data.length → field data 4 2 = 0 → Chain data
  | next {data : List Byte} : 8 ≤ field data 4 2 → field data 4 2 ≤ data.length → 8 + field data 6 1 ≤ data.length →
      Chain (data.drop (field data 4 2)) → Chain data

end Keramics.Spec.ExtFs
