import Verif.Spec.Lz

/-!
The LZNT1 format ([MS-XCA] 2.5): a sequence of blocks, each a 16-bit header and a body. The header has
the body size minus one in bits 0 to 11, the value 3 in bits 12 to 14 and the compressed flag in bit 15.
A compressed body is a sequence of groups, each a flag byte and up to 8 elements; an element is a literal byte
(flag 0) or a 16-bit tuple (flag 1). A tuple has the distance minus one in its upper bits and the
length minus three in its lower bits; after `u` bytes of the block's output the distance takes the least number of
bits, at least 4, that can express `u`. A block's output has at most 4096 bytes.
-/

namespace Keramics.Spec.Lznt1

inductive Token where
  | literal (b : Byte)
  | copy (distance length : Nat)

def Token.isCopy : Token → Bool
  | .literal _ => false
  | .copy _ _ => true

def Token.length : Token → Nat
  | .literal _ => 1
  | .copy _ n => n

def Token.op : Token → Lz.Op
  | .literal b => .literal [b]
  | .copy d n => .copy d n

/-- Number of distance bits after `u` bytes of output, for `u ≤ 4096`. -/
def distanceBits (u : Nat) : Nat :=
  if u ≤ 16 then 4 else if u ≤ 32 then 5 else if u ≤ 64 then 6 else if u ≤ 128 then 7
  else if u ≤ 256 then 8 else if u ≤ 512 then 9 else if u ≤ 1024 then 10 else if u ≤ 2048 then 11
  else 12

def lengthBits (u : Nat) : Nat := 16 - distanceBits u

/-- A match refers to bytes of this block and its length fits the length bits. -/
def Token.wf (u : Nat) : Token → Prop
  | .literal _ => True
  | .copy d n => 1 ≤ d ∧ d ≤ u ∧ 3 ≤ n ∧ n - 3 < 2 ^ lengthBits u

def le16 (v : Nat) : List Byte := [BitVec.ofNat 8 (v % 256), BitVec.ofNat 8 (v / 256)]

def Token.encode (u : Nat) : Token → List Byte
  | .literal b => [b]
  | .copy d n => le16 ((d - 1) * 2 ^ lengthBits u + (n - 3))

def TokensWf (u : Nat) : List Token → Prop
  | [] => True
  | t :: ts => t.wf u ∧ TokensWf (u + t.length) ts

def total (ts : List Token) : Nat := (ts.map Token.length).sum

/-- The flag of the first element is the least significant bit. -/
def flags : List Token → Nat
  | [] => 0
  | t :: ts => (if t.isCopy then 1 else 0) + 2 * flags ts

def elements (u : Nat) : List Token → List Byte
  | [] => []
  | t :: ts => t.encode u ++ elements (u + t.length) ts

def encodeGroups (u : Nat) : List (List Token) → List Byte
  | [] => []
  | g :: gs => BitVec.ofNat 8 (flags g) :: (elements u g ++ encodeGroups (u + total g) gs)

/-- Every group but the last has 8 elements, the last has 1 to 8. -/
def GroupsWf : List (List Token) → Prop
  | [] => True
  | [g] => 1 ≤ g.length ∧ g.length ≤ 8
  | g :: gs => g.length = 8 ∧ GroupsWf gs

inductive Block where
  | raw (bytes : List Byte)
  | compressed (groups : List (List Token))

def Block.body : Block → List Byte
  | .raw bytes => bytes
  | .compressed gs => encodeGroups 0 gs

def Block.header : Block → Nat
  | .raw bytes => 0x3000 + (bytes.length - 1)
  | .compressed gs => 0xb000 + ((encodeGroups 0 gs).length - 1)

def Block.encode (b : Block) : List Byte := le16 b.header ++ b.body

def Block.denote : Block → List Byte
  | .raw bytes => bytes
  | .compressed gs => Lz.run [] (gs.flatten.map Token.op)

def Block.wf : Block → Prop
  | .raw bytes => 1 ≤ bytes.length ∧ bytes.length ≤ 4096
  | .compressed gs => GroupsWf gs ∧ TokensWf 0 gs.flatten ∧ total gs.flatten ≤ 4096 ∧
      1 ≤ (encodeGroups 0 gs).length ∧ (encodeGroups 0 gs).length ≤ 4096

def encode (bs : List Block) : List Byte := bs.flatMap Block.encode
def denote (bs : List Block) : List Byte := bs.flatMap Block.denote

end Keramics.Spec.Lznt1
