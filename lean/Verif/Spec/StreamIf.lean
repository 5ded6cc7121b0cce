import Verif.Spec.Stream

/-! # Specification: calls on a stream some reads of which may fail -/

namespace Keramics.Spec

/-- Every read of some calls on a stream of size `S` at position `p`, as far as it is inside the stream, is as `P` says: its position and its size. -/
def ReadsOnly (P : Nat → Nat → Prop) (S : Nat) : Int → List StreamOp → Prop
  | _, [] => True
  | p, .read n :: ops => if 0 ≤ p ∧ p < S then P p.toNat (min n (S - p.toNat)) ∧ ReadsOnly P S (p + min n (S - p.toNat)) ops else ReadsOnly P S p ops
  | p, .seek pos :: ops => ReadsOnly P S (target S p pos) ops

end Keramics.Spec
