import Verif.Base.Ints

/-!
Model of the digest contexts of `keramics-hashes`. `update` and `finalize` are the same text in
md5.rs, sha1.rs, sha224.rs, sha256.rs and sha512.rs up to constants; they are modelled once with the
constants as parameters (`Alg`).
-/

namespace Keramics.Digest

/-- The parts in which the five contexts differ. `transform h data off` is `transform_block`. -/
structure Alg (H : Type) where
  /-- `MD5_BLOCK_SIZE` etc.: md5.rs:23, sha1.rs:23, sha224.rs:23, sha256.rs:23, sha512.rs:23. -/
  blockSize : Nat
  /-- The constant in `self.block_offset >= ..`: md5.rs:139, sha1.rs:123, sha512.rs:165. -/
  padLimit : Nat
  /-- The initial hash values. -/
  init : H
  transform : H → List Byte → Nat → R H
  /-- `bit_size.to_le_bytes()` or `to_be_bytes()`. -/
  sizeBytes : Nat → List Byte
  /-- Serialisation of the final hash values. -/
  output : H → List Byte
  blockSize_pos : 0 < blockSize

/-- `Md5Context` md5.rs:59-71 and the corresponding structures. -/
structure Ctx (H : Type) where
  hashValues : H
  numberOfBytesHashed : Nat
  blockOffset : Nat
  block : List Byte
deriving DecidableEq, Repr

variable {H : Type} (A : Alg H)

/-- `new`, md5.rs:75-82. -/
def Ctx.new : Ctx H := ⟨A.init, 0, 0, List.replicate (A.blockSize * 2) 0⟩

/-- The loop that fills a partially filled block, md5.rs:175-183: returns the block, the block
offset and the data that was not consumed. -/
def fillBlock (B : Nat) : List Byte → List Byte → Nat → R (List Byte × Nat × List Byte)
  | [], block, off => .ok (block, off, [])
  | d :: ds, block, off =>
    if off < B then do
      let block ← R.set block off d
      fillBlock B ds block (off + 1)
    else .ok (block, off, d :: ds)

/-- The loop over whole blocks, md5.rs:193-200; `data` is what is left from `data_offset`. -/
def wholeBlocks (h : H) (n : Nat) (data : List Byte) : R (H × Nat × List Byte) :=
  if A.blockSize < data.length then do
    let h ← A.transform h data 0
    let n ← R.addU 64 n A.blockSize
    wholeBlocks h n (data.drop A.blockSize)
  else .ok (h, n, data)
termination_by data.length
decreasing_by have := A.blockSize_pos; simp; omega

/-- The loop that buffers the rest, md5.rs:201-206. -/
def bufferRest : List Byte → List Byte → Nat → R (List Byte × Nat)
  | [], block, off => .ok (block, off)
  | d :: ds, block, off => do
    let block ← R.set block off d
    bufferRest ds block (off + 1)

/-- `update`, md5.rs:170-207, sha1.rs:154-191, sha224.rs:181-218, sha256.rs:181-218,
sha512.rs:196-233. -/
def Ctx.update (c : Ctx H) (data : List Byte) : R (Ctx H) := do
  let (c, data) ←
    if c.blockOffset > 0 then do
      let (block, off, data) ← fillBlock A.blockSize data c.block c.blockOffset
      if off = A.blockSize then do
        let h ← A.transform c.hashValues block 0
        let n ← R.addU 64 c.numberOfBytesHashed A.blockSize
        pure (⟨h, n, 0, block⟩, data)
      else pure (⟨c.hashValues, c.numberOfBytesHashed, off, block⟩, data)
    else pure (c, data)
  let (h, n, data) ← wholeBlocks A c.hashValues c.numberOfBytesHashed data
  let (block, off) ← bufferRest data c.block c.blockOffset
  pure ⟨h, n, off, block⟩

/-- `finalize`, md5.rs:135-167, sha1.rs:119-151, sha224.rs:146-178, sha256.rs:146-178,
sha512.rs:161-193. The loop `(0..padding_size).step_by(B)` runs once or twice. -/
def Ctx.finalize (c : Ctx H) : R (List Byte × Ctx H) := do
  let size ← R.addU 64 c.numberOfBytesHashed c.blockOffset
  let bitSize ← R.mulU 64 size 8
  let factor := if c.blockOffset ≥ A.padLimit then 2 else 1
  let paddingSize := A.blockSize * factor
  let sizeOffset ← R.subU paddingSize 8
  let block ← R.set c.block c.blockOffset 0x80
  let block ← R.splice block (c.blockOffset + 1) sizeOffset
    (List.replicate (sizeOffset - (c.blockOffset + 1)) 0)
  let block ← R.splice block sizeOffset paddingSize (A.sizeBytes bitSize)
  let h ← (List.range factor).foldlM (fun h i => A.transform h block (i * A.blockSize))
    c.hashValues
  pure (A.output h, ⟨A.init, 0, 0, List.replicate block.length 0⟩)

end Keramics.Digest
