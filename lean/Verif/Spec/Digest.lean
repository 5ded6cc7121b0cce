/-!
Merkle–Damgård hashing as described in RFC 1321 section 3 and FIPS 180-4 sections 5 and 6:
pad the whole message, split it in blocks, fold the compression function over the blocks.
-/

namespace Keramics.Spec

/-- The message followed by a 1 bit, as few zero bits as possible, and the length field, such that
the total is a multiple of the block size. Sizes in bytes. -/
def mdPad (blockSize : Nat) (lengthField : List (BitVec 8)) (message : List (BitVec 8)) :
    List (BitVec 8) :=
  let zeros := (blockSize - (message.length + 1 + lengthField.length) % blockSize) % blockSize
  message ++ [0x80#8] ++ List.replicate zeros 0#8 ++ lengthField

/-- Fold a compression function over the `i`-th blocks of `data`. -/
def foldBlocks {H : Type} (compress : H → List (BitVec 8) → H) (blockSize : Nat) (start : H)
    (data : List (BitVec 8)) : H :=
  (List.range (data.length / blockSize)).foldl
    (fun h i => compress h ((data.drop (i * blockSize)).take blockSize)) start

/-- Digest of a message. -/
def mdHash {H : Type} (compress : H → List (BitVec 8) → H) (blockSize : Nat) (start : H)
    (output : H → List (BitVec 8)) (lengthField : Nat → List (BitVec 8))
    (message : List (BitVec 8)) : List (BitVec 8) :=
  output (foldBlocks compress blockSize start
    (mdPad blockSize (lengthField (8 * message.length)) message))

end Keramics.Spec
