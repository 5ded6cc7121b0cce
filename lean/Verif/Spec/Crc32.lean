/-!
CRC-32 as bit-serial polynomial division, independent of lookup tables.
-/

namespace Keramics.Spec

/-- Shift one message bit into a 32-bit MSB-first CRC register: the bit that falls out at the top,
added to the message bit, decides whether the polynomial is subtracted. -/
def crcBit (polynomial register : BitVec 32) (bit : Bool) : BitVec 32 :=
  (register <<< 1) ^^^ (if register.msb ^^ bit then polynomial else 0#32)

/-- Register after all message bits. -/
def crcBits (polynomial register : BitVec 32) (bits : List Bool) : BitVec 32 :=
  bits.foldl (crcBit polynomial) register

/-- Bits of a byte, most significant first. -/
def bitsMsbFirst (b : BitVec 8) : List Bool :=
  [b.getLsbD 7, b.getLsbD 6, b.getLsbD 5, b.getLsbD 4,
   b.getLsbD 3, b.getLsbD 2, b.getLsbD 1, b.getLsbD 0]

/-- Bits of a byte, least significant first. -/
def bitsLsbFirst (b : BitVec 8) : List Bool :=
  [b.getLsbD 0, b.getLsbD 1, b.getLsbD 2, b.getLsbD 3,
   b.getLsbD 4, b.getLsbD 5, b.getLsbD 6, b.getLsbD 7]

/-- MSB-first CRC-32: register starts at the complement of `start`, result is complemented. -/
def crc32 (polynomial start : BitVec 32) (bytes : List (BitVec 8)) : BitVec 32 :=
  ~~~ (crcBits polynomial (~~~ start) (bytes.flatMap bitsMsbFirst))

/-- Reflected CRC-32: the same division on bit-reversed polynomial, register and bytes. -/
def crc32Reflected (reversedPolynomial start : BitVec 32) (bytes : List (BitVec 8)) : BitVec 32 :=
  ~~~ (crcBits reversedPolynomial.reverse (~~~ start).reverse (bytes.flatMap bitsLsbFirst)).reverse

end Keramics.Spec
