import Verif.Base.Ints
import Verif.Spec.Stream

/-!
# Model: the common shape of every `DataStream` implementation

All stream implementations of the code base (partitions, block streams, images) share the same
`seek` and the same clipping in `read`; they differ only in how data at an offset is read. The
shared part is modelled once here; each format supplies `readData`.
-/

namespace Keramics

/-- `n as i64` for a `u64`. -/
def asI64 (n : Nat) : Int := if n < 2 ^ 63 then n else (n : Int) - 2 ^ 64

/-- `i as u64` for an `i64`. -/
def asU64 (i : Int) : Nat := (i % 2 ^ 64).toNat

/-- `a + b` on `i64` with overflow check. -/
def R.addI64 (a b : Int) : R Int := if -2 ^ 63 ≤ a + b ∧ a + b < 2 ^ 63 then .ok (a + b) else .panic

/-- A stream implementation: the state behind the current offset, the declared size and the
function that reads `n` bytes at an offset. -/
structure Reader (σ : Type) where
  size : Nat
  readData : σ → Nat → Nat → R (List Byte × σ)

/-- A stream: its inner state and `current_offset`. -/
structure Stream (σ : Type) where
  inner : σ
  current : Nat
deriving DecidableEq

/-- The new `current_offset` of a seek: the `match pos` of `DataStream::seek`, for instance
gpt/partition.rs:106-118. -/
def seekOffset (size current : Nat) : SeekFrom → R Nat
  | .current d => do return asU64 (← R.addI64 (asI64 current) d)
  | .fromEnd d => do return asU64 (← R.addI64 (asI64 size) d)
  | .start o => .ok o

/-- `DataStream::seek`: gpt/partition.rs:105-120, mbr/partition.rs:104-119, apm/partition.rs:105-120,
tools/range_stream.rs:128-143, fake_data_stream.rs:98-113, fat/block_stream.rs:201,
ntfs/block_stream.rs:256, ext/block_stream.rs, qcow/file.rs:566, vhd/file.rs:502, udif/file.rs:582
(all identical up to the name of the size field). -/
def Stream.seek {σ} (r : Reader σ) (s : Stream σ) (pos : SeekFrom) : R (Nat × Stream σ) := do
  let current ← seekOffset r.size s.current pos
  return (current, { s with current := current })

/-- `DataStream::read`: gpt/partition.rs:78-102, mbr/partition.rs:77-101, apm/partition.rs:78-102,
tools/range_stream.rs:86-125, fake_data_stream.rs:55-95, fat/block_stream.rs:178,
ntfs/block_stream.rs:233, qcow/file.rs, vhd/file.rs:464, udif/file.rs:543 (clipping and position
update are identical, `min` is the code's `if`; `readData` is the format specific part). The result is the part of the buffer
that was filled; the rest of the buffer is untouched. -/
def Stream.read {σ} (r : Reader σ) (s : Stream σ) (n : Nat) : R (List Byte × Stream σ) := do
  if s.current ≥ r.size then return ([], s)
  let remaining := r.size - s.current
  let readSize := min n remaining
  let (out, inner) ← r.readData s.inner s.current readSize
  let current ← R.addU 64 s.current out.length
  return (out, ⟨inner, current⟩)

/-- One call on a stream. -/
def Stream.step {σ} (r : Reader σ) (s : Stream σ) : StreamOp → R (StreamOut × Stream σ)
  | .read n => do let (out, s') ← s.read r n; return (.bytes out, s')
  | .seek pos => do let (p, s') ← s.seek r pos; return (.position p, s')

/-- A sequence of calls on a stream, with their results. -/
def Stream.run {σ} (r : Reader σ) : Stream σ → List StreamOp → R (List (StreamOp × StreamOut))
  | _, [] => .ok []
  | s, op :: ops => do
    let (out, s') ← s.step r op
    let rest ← s'.run r ops
    return (op, out) :: rest

/-- `DataStream::read_exact_at_position`, data_stream.rs:50-59, on an underlying stream with the
given contents that never returns fewer bytes than are available: seek, one read, an error if the
buffer was not filled. -/
def readExactAt (U : List Byte) (pos n : Nat) : R (List Byte) :=
  let out := (U.drop pos).take n
  if out.length = n then .ok out else .err

theorem readExactAt_ok {U : List Byte} {pos n : Nat} (h : pos + n ≤ U.length) :
    readExactAt U pos n = .ok ((U.drop pos).take n) := by
  simp [readExactAt]; omega

theorem readExactAt_eq_ok {U : List Byte} {pos n : Nat} {out : List Byte} :
    readExactAt U pos n = .ok out ↔ out = (U.drop pos).take n ∧ out.length = n := by
  unfold readExactAt
  simp only
  split
  · rename_i h; constructor
    · intro e; cases e; exact ⟨rfl, h⟩
    · rintro ⟨e, _⟩; rw [e]
  · rename_i h; constructor
    · intro e; cases e
    · rintro ⟨e, h'⟩; rw [e] at h'; exact absurd h' h

theorem readExactAt_ne_panic {U : List Byte} {pos n : Nat} : readExactAt U pos n ≠ .panic := by
  unfold readExactAt; simp only; split <;> simp

end Keramics
