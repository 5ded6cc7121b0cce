import Verif.Model.Stream

/-!
# Model: the read loop of every block based stream

`read_data_from_blocks` of the file system and image formats is the same loop: as long as the buffer
is not full and the position is inside the stream, look up the range at the position, read as much of
it as fits and go on behind it. What is done for one position is format specific.
-/

namespace Keramics.Blocks

/-- The loop of `read_data_from_blocks`, for instance fat/block_stream.rs:127-166,
ntfs/block_stream.rs:146-223, qcow/file.rs:434-523, udif/file.rs:347-437. `piece s current want` is one
iteration: the bytes placed in the buffer for a remaining buffer of `want` bytes. `fuel` bounds the
number of iterations; running out of it is reported as `panic`. -/
def loop {σ : Type} (piece : σ → Nat → Nat → R (List Byte × σ)) (size : Nat) :
    Nat → σ → Nat → Nat → R (List Byte × σ)
  | fuel, s, current, want =>
    if 0 < want ∧ current < size then
      match fuel with
      | 0 => .panic
      | fuel + 1 => do
        let (out, s') ← piece s current want
        if out.length = 0 then return ([], s')
        let next ← R.addU 64 current out.length
        let (rest, s'') ← loop piece size fuel s' next (want - out.length)
        return (out ++ rest, s'')
    else .ok ([], s)

/-- The stream made of such a loop. Every iteration that continues has read at least one byte, so
as many iterations as there are bytes in the buffer are enough. -/
def reader {σ : Type} (piece : σ → Nat → Nat → R (List Byte × σ)) (size : Nat) : Reader σ where
  size := size
  readData s current n := loop piece size n s current n

/-- The stream made of such a loop whose iterations hand something on, for instance the offset in the range
(sparseimage/file.rs:202-247) or the number of the block (vhd/file.rs:339-420). `start` is what is set up before the loop
from the state of the stream and the position, `finish` what is left of it. -/
def readerWith {ι σ : Type} (piece : σ → Nat → Nat → R (List Byte × σ)) (size : Nat) (start : ι → Nat → σ)
    (finish : σ → ι) : Reader ι where
  size := size
  readData s current n := do
    let (out, s') ← loop piece size n (start s current) current n
    return (out, finish s')

/-- `DataStream::read_at_position`, data_stream.rs:33-36, on an underlying stream with the given
contents that never returns fewer bytes than are available. -/
def readAt (U : List Byte) (pos n : Nat) : List Byte := (U.drop pos).take n

end Keramics.Blocks
