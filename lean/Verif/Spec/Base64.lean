import Verif.Base.R

/-! RFC 4648 base64 encoding (section 4). -/

namespace Keramics.Spec.Base64

/-- The base64 alphabet. -/
def alphabet : List Char :=
  "ABCDEFGHIJKLMNOPQRSTUVWXYZabcdefghijklmnopqrstuvwxyz0123456789+/".toList

/-- The character of a 6-bit value. -/
def char (v : Nat) : Byte := BitVec.ofNat 8 (alphabet.getD v 'A').toNat

/-- The padding character. -/
def pad : Byte := 0x3d#8

/-- 24-bit groups as four characters, the last group padded. -/
def encode : List Byte → List Byte
  | [] => []
  | [a] =>
    let n := a.toNat * 16
    [char (n / 64), char (n % 64), pad, pad]
  | [a, b] =>
    let n := (a.toNat * 256 + b.toNat) * 4
    [char (n / 4096), char (n / 64 % 64), char (n % 64), pad]
  | a :: b :: c :: rest =>
    let n := (a.toNat * 256 + b.toNat) * 256 + c.toNat
    char (n / 262144) :: char (n / 4096 % 64) :: char (n / 64 % 64) :: char (n % 64) :: encode rest

/-- White space that a lenient reader skips: tab, line feed, vertical tab, carriage return, space. -/
def isSpace (b : Byte) : Bool := b ∈ [0x09#8, 0x0a#8, 0x0b#8, 0x0d#8, 0x20#8]

/-- A character of the alphabet. -/
def isChar (b : Byte) : Bool := alphabet.any fun c => c.toNat == b.toNat

/-- The 6-bit value of a character of the alphabet. -/
def value (b : Byte) : Nat := (alphabet.map Char.toNat).idxOf b.toNat

/-- Characters as one number in base 64. -/
def number (cs : List Byte) : Nat := cs.foldl (fun n c => n * 64 + value c) 0

/-- The whole bytes in the bits of characters: the first byte has the highest 8 bits. -/
def bytesOf (cs : List Byte) : List Byte :=
  (List.range (6 * cs.length / 8)).map fun i => BitVec.ofNat 8 (number cs / 2 ^ (6 * cs.length - 8 * (i + 1)))

/-- The number of padding characters after so many characters. -/
def padding (n : Nat) : Nat := (4 - n % 4) % 4

end Keramics.Spec.Base64
