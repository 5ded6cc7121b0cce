import Verif.Model.Stream
import Verif.Model.Hashes

/-!
# Model: in-memory stream, windows onto a stream, and the hashing loop
-/

namespace Keramics

namespace FakeDataStream

/-- The copy loop, keramics-core/src/fake_data_stream.rs:67-91. `remaining` is
`read_size - buf_offset`. `current` does not change during the loop, as in the code. -/
def fill (data : List Byte) (current : Nat) (remaining : Nat) : List Byte :=
  if _h : remaining = 0 then []
  else if _h' : current < data.length then
    let count := min remaining (data.length - current)
    (data.drop current).take count ++ fill data current (remaining - count)
  else List.replicate remaining 0
termination_by remaining
decreasing_by omega

/-- `FakeDataStream::new` and the data part of `read`, fake_data_stream.rs:38-45, 65-94. -/
def reader (data : List Byte) (size : Nat) : Reader Unit where
  size := size
  readData _ current n := .ok (fill data current n, ())

end FakeDataStream

namespace Window

/-- A window onto an underlying stream: `GptPartition` (gpt/partition.rs:20-61), `MbrPartition`
(mbr/partition.rs:20-60), `ApmPartition` (apm/partition.rs:20-61), `FileRangeDataStream`
(tools/range_stream.rs:20-32). -/
structure Win where
  offset : Nat
  size : Nat
deriving DecidableEq

/-- The data part of `read`: gpt/partition.rs:94-98, mbr/partition.rs:93-97,
apm/partition.rs:94-98, tools/range_stream.rs:104-121. `under k pos n` is what the `k`-th call of
the underlying `read_at_position` returns for `n` bytes at `pos`; the state counts the calls. -/
def reader (under : Nat → Nat → Nat → List Byte) (w : Win) : Reader Nat where
  size := w.size
  readData k current n := do
    let pos ← R.addU 64 w.offset current
    return (under k pos n, k + 1)

/-- `FileRangeDataStream::open`, tools/range_stream.rs:46-76, on a file of the given size. -/
def openFileRange (fileSize rangeOffset : Nat) : R Win :=
  if rangeOffset ≥ fileSize then .err else .ok ⟨rangeOffset, fileSize - rangeOffset⟩

end Window

namespace Hasher
open Digest

/-- `DigestHashType`, keramics-tools/src/enums.rs. -/
inductive HashType where
  | md5 | sha1 | sha224 | sha256 | sha512
deriving DecidableEq, Repr

/-- One lower case hexadecimal digit of `{:02x}`. -/
def hexDigit (n : Nat) : Char := ("0123456789abcdef".toList)[n]?.getD '?'

/-- `format_as_string`, keramics-core/src/formatters.rs:140-145. -/
def formatAsString (data : List Byte) : List Char :=
  data.flatMap fun b => [hexDigit (b.toNat / 16), hexDigit (b.toNat % 16)]

/-- The read loop of `DigestHasher::calculate_hash_from_reader` and of `Bodyfile::calculate_md5`,
keramics-tools/src/hasher.rs:51-66, keramics-tools/src/bodyfile.rs:31-50. The loop of the code is
unbounded; `fuel` bounds the number of iterations and running out of it is reported as `panic`. -/
def loop {H σ : Type} (A : Alg H) (read : σ → Nat → R (List Byte × σ)) :
    Nat → Ctx H → σ → R (List Byte)
  | 0, _, _ => .panic
  | fuel + 1, c, s => do
    let (data, s') ← read s 65536
    if data.length = 0 then
      let (hash, _) ← c.finalize A
      return hash
    else
      let c' ← c.update A data
      loop A read fuel c' s'

/-- `DigestHasher::calculate_hash_from_reader`, keramics-tools/src/hasher.rs:41-69. -/
def calculateHash {σ : Type} (t : HashType) (read : σ → Nat → R (List Byte × σ)) (fuel : Nat)
    (s : σ) : R (List Char) := do
  let hash ← match t with
    | .md5 => loop Digest.md5 read fuel (Ctx.new Digest.md5) s
    | .sha1 => loop Digest.sha1 read fuel (Ctx.new Digest.sha1) s
    | .sha224 => loop Digest.sha224 read fuel (Ctx.new Digest.sha224) s
    | .sha256 => loop Digest.sha256 read fuel (Ctx.new Digest.sha256) s
    | .sha512 => loop Digest.sha512 read fuel (Ctx.new Digest.sha512) s
  return formatAsString hash

end Hasher
end Keramics
