import Verif.Base.R

/-!
# Model: the reverse Burrows-Wheeler transform of bzip2

`usize` is 64 bits, and sums of counts are at most the size of a block: they do not overflow.
-/

namespace Keramics.Bzip2

/-- `BZIP2_BLOCK_SIZE`, bzip2.rs:24. -/
def blockSize : Nat := 100000

/-- How often every byte value occurs, bzip2.rs:702-705. -/
def counts (block : List Byte) : List Nat := block.foldl (fun d b => d.set b.toNat (d.getD b.toNat 0 + 1)) (List.replicate 256 0)

/-- Sums of the counts before every byte value, bzip2.rs:706-710. -/
def sums (counts : List Nat) : List Nat × Nat :=
  (List.range 256).foldl (fun (d, v) b => (d.set b v, v + d.getD b 0)) (counts, 0)

/-- The permutations, bzip2.rs:711-716, from an offset on. -/
def permute : List Byte → Nat → List Nat → List Nat → R (List Nat)
  | [], _, _, permutations => .ok permutations
  | b :: rest, offset, distributions, permutations => do
    let value := distributions.getD b.toNat 0
    let permutations ← R.set permutations value offset
    permute rest (offset + 1) (distributions.set b.toNat (value + 1)) permutations

/-- `uncompressed_data`, `data_offset`, `last_byte_value` and `number_of_last_byte_values`. -/
structure Output where
  data : List Byte
  offset : Nat
  last : Byte
  count : Nat
deriving DecidableEq, Repr

/-- The loop that repeats a byte, bzip2.rs:728-733. -/
def repeatByte : Nat → Byte → List Byte → Nat → R (List Byte × Nat)
  | 0, _, data, offset => .ok (data, offset)
  | n + 1, last, data, offset => do
    let data ← R.set data offset last
    repeatByte n last data (offset + 1)

/-- What is done with a byte, bzip2.rs:722-751. -/
def emit (size : Nat) (o : Output) (b : Byte) : R Output :=
  if o.count = 4 then do
    let left ← R.subU size o.offset
    R.require (b.toNat ≤ left)
    let (data, offset) ← repeatByte b.toNat o.last o.data o.offset
    return ⟨data, offset, 0#8, 0⟩
  else do
    R.require (o.offset < size)
    let data ← R.set o.data o.offset b
    return ⟨data, o.offset + 1, b, (if b ≠ o.last then 0 else o.count) + 1⟩

/-- The last loop, bzip2.rs:719-753. -/
def walk (size : Nat) (block : List Byte) (permutations : List Nat) : Nat → Nat → Output → R Output
  | 0, _, o => .ok o
  | n + 1, value, o => do
    let b ← R.get block value
    let o ← emit size o b
    let value ← R.get permutations value
    walk size block permutations n value o

/-- `reverse_burrows_wheeler_transform`, bzip2.rs:686-757: the data and the offset in it. The block of `size` bytes is sliced first, where the code
panics later. -/
def reverse (data : List Byte) (size origin : Nat) (out : List Byte) (offset : Nat) : R (List Byte × Nat) := do
  let block ← R.slice data 0 size
  let permutations ← permute block 0 (sums (counts block)).1 (List.replicate blockSize 0)
  let value ← R.get permutations origin
  let o ← walk out.length block permutations size value ⟨out, offset, 0#8, 0⟩
  return (o.data, o.offset)

end Keramics.Bzip2
