import Verif.Model.Sigscan

/-!
# Specification: where signatures occur
-/

namespace Keramics.Spec
open Keramics.Sigscan

/-- The signature occurs in the data at offset `k`, which is its defined place: its offset from the start of the data, or its offset
from the end. -/
def OccursAt (data : List Byte) (s : Signature) (k : Nat) : Prop :=
  k + s.pattern.length ≤ data.length ∧ (∀ i, i < s.pattern.length → data[k + i]? = s.pattern[i]?) ∧
    match s.type with
    | .boundToStart => k = s.offset
    | .boundToEnd => k + s.offset = data.length
    | .unbound => True

/-- The buffer holds the data at an offset: all of it is data, or the offset is 0 and bytes after the data are padding. -/
def Holds (data : List Byte) (offset : Nat) (buffer : List Byte) : Prop :=
  (offset + buffer.length ≤ data.length ∨ offset = 0) ∧ ∀ i, i < buffer.length → offset + i < data.length → buffer[i]? = data[offset + i]?

end Keramics.Spec
