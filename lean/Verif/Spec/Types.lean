import Verif.Base.R

/-!
# Specifications for keramics-types
-/

namespace Keramics.Spec

/-- Little-endian value of a byte string: byte `i` has weight `256 ^ i`. -/
def leValue (bs : List Byte) : Nat :=
  ((List.range bs.length).map fun i => (bs.getD i 0).toNat * 256 ^ i).sum

/-- Big-endian value of a byte string: byte `i` of `n` has weight `256 ^ (n - 1 - i)`. -/
def beValue (bs : List Byte) : Nat :=
  ((List.range bs.length).map fun i => (bs.getD i 0).toNat * 256 ^ (bs.length - 1 - i)).sum

/-- `v` is the two's complement reading of the `n` bit value `u`. -/
def IsTwosComplement (n : Nat) (u : Nat) (v : Int) : Prop :=
  -2 ^ (n - 1) ≤ v ∧ v < 2 ^ (n - 1) ∧ v % 2 ^ n = u

/-- 16-bit units of a buffer, low byte first. -/
def unitsLe : List Byte → List Nat
  | lo :: hi :: rest => (lo.toNat + 256 * hi.toNat) :: unitsLe rest
  | _ => []

/-- 16-bit units of a buffer, high byte first. -/
def unitsBe : List Byte → List Nat
  | hi :: lo :: rest => (lo.toNat + 256 * hi.toNat) :: unitsBe rest
  | _ => []

/-- Hexadecimal text of one byte, lower case. -/
def hexByte (b : Byte) : List Byte :=
  [b.toNat / 16, b.toNat % 16].map fun d => ("0123456789abcdef".toList.map fun c =>
    BitVec.ofNat 8 c.toNat).getD d 0

/-- RFC 4122 text of 16 octets in order: 8-4-4-4-12 hexadecimal digits. -/
def uuidText (b : List Byte) : List Byte :=
  ((b.take 4).flatMap hexByte) ++ [0x2d#8] ++ (((b.drop 4).take 2).flatMap hexByte) ++ [0x2d#8]
    ++ (((b.drop 6).take 2).flatMap hexByte) ++ [0x2d#8] ++ (((b.drop 8).take 2).flatMap hexByte)
    ++ [0x2d#8] ++ ((b.drop 10).flatMap hexByte)

/-- The mixed-endian (Microsoft GUID) storage of the 16 octets: the first three fields are stored
with their bytes reversed. -/
def guidBytes (b : List Byte) : List Byte :=
  (b.take 4).reverse ++ ((b.drop 4).take 2).reverse ++ ((b.drop 6).take 2).reverse ++ b.drop 8

/-- An ASCII hexadecimal digit. -/
def isHexDigit (b : Byte) : Bool :=
  "0123456789abcdefABCDEF".toList.any fun c => c.toNat == b.toNat

/-- Lower case of an ASCII byte. -/
def lower (b : Byte) : Byte := if 0x41 ≤ b.toNat ∧ b.toNat ≤ 0x5a then b + 0x20 else b

/-- The hyphenated form: 36 bytes, hyphens at 8, 13, 18 and 23, hexadecimal digits elsewhere. -/
def isUuidText (s : List Byte) : Prop :=
  s.length = 36 ∧ ∀ i < 36,
    if i = 8 ∨ i = 13 ∨ i = 18 ∨ i = 23 then s.getD i 0 = 0x2d#8 else isHexDigit (s.getD i 0) = true

end Keramics.Spec
