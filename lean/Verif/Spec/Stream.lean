import Verif.Base.R

/-!
# Specification: a seekable byte stream

What a caller of `read` and `seek` may observe of a stream with contents `C` and declared size `S`,
stated as a predicate on the sequence of calls and results. Positions are integers: seeking before
the start is allowed and reads there return nothing.
-/

namespace Keramics

/-- Argument of `seek`. -/
inductive SeekFrom where
  | start (offset : Nat)
  | current (relative : Int)
  | fromEnd (relative : Int)
deriving DecidableEq, Repr

/-- A call on a stream: `read` with a buffer of `n` bytes, or `seek`. -/
inductive StreamOp where
  | read (n : Nat)
  | seek (pos : SeekFrom)
deriving DecidableEq, Repr

/-- The result of a call: the bytes placed in the buffer, or the new position. -/
inductive StreamOut where
  | bytes (data : List Byte)
  | position (p : Nat)
deriving DecidableEq, Repr

namespace Spec

/-- The position a seek moves to. -/
def target (S : Nat) (p : Int) : SeekFrom → Int
  | .start o => o
  | .current d => p + d
  | .fromEnd d => S + d

/-- The argument fits its Rust type; `Start` offsets are limited to the positive `i64` range. -/
def typed : StreamOp → Prop
  | .read _ => True
  | .seek (.start o) => o < 2 ^ 63
  | .seek (.current d) => -2 ^ 63 ≤ d ∧ d < 2 ^ 63
  | .seek (.fromEnd d) => -2 ^ 63 ≤ d ∧ d < 2 ^ 63

/-- What a read of `n` bytes at position `p` may return: nothing outside `[0, S)`, otherwise a
prefix of the contents from `p`, of at most `n` bytes, and at least one byte if there is one. If
`full` the read is never short. -/
def readOk (full : Bool) (C : List Byte) (S : Nat) (p : Int) (n : Nat) (out : List Byte) : Prop :=
  if 0 ≤ p ∧ p < S then
    out <+: (C.drop p.toNat).take n
      ∧ (0 < n → p.toNat < C.length → out ≠ [])
      ∧ (full = true → out = (C.drop p.toNat).take n)
  else out = []

/-- The calls and results are those of a stream with contents `C`, declared size `S`, that is at
position `p` before the first call. -/
inductive Trace (full : Bool) (C : List Byte) (S : Nat) : Int → List (StreamOp × StreamOut) → Prop
  | nil {p} : Trace full C S p []
  | read {p n out rest} : readOk full C S p n out → Trace full C S (p + out.length) rest →
      Trace full C S p ((.read n, .bytes out) :: rest)
  | seek {p : Int} {pos : SeekFrom} {q : Nat} {rest} : (0 ≤ target S p pos → (q : Int) = target S p pos) →
      Trace full C S (target S p pos) rest →
      Trace full C S p ((.seek pos, .position q) :: rest)

/-- Sum of the absolute values of all seek arguments. -/
def seekBudget : List StreamOp → Nat
  | [] => 0
  | .read _ :: ops => seekBudget ops
  | .seek (.start o) :: ops => o + seekBudget ops
  | .seek (.current d) :: ops => d.natAbs + seekBudget ops
  | .seek (.fromEnd d) :: ops => d.natAbs + seekBudget ops

end Spec
end Keramics
