import Verif.Base.Ints

/-!
# Model: keramics-types (UUID, UCS-2 and UTF-16 strings, byte strings)

Text is modelled by its UTF-8 bytes, as in Rust's `&str`.
-/

namespace Keramics

/-- `string[i]` starts a character: the condition under which Rust lets a `&str` be sliced there. -/
def isCharBoundary (s : List Byte) (i : Nat) : Bool :=
  match s[i]? with
  | some b => !(0x80 ≤ b.toNat && b.toNat < 0xc0)
  | none => i == s.length

/-- `&string[a..b]`: panics unless the range is valid and on character boundaries. -/
def sliceStr (s : List Byte) (a b : Nat) : R (List Byte) :=
  if a ≤ b ∧ b ≤ s.length ∧ isCharBoundary s a ∧ isCharBoundary s b then
    .ok ((s.drop a).take (b - a)) else .panic

/-- Value of an ASCII hexadecimal digit of either case (standard library `char::to_digit(16)`). -/
def hexValue (b : Byte) : Option Nat :=
  let n := b.toNat
  if 0x30 ≤ n ∧ n ≤ 0x39 then some (n - 0x30)
  else if 0x41 ≤ n ∧ n ≤ 0x46 then some (n - 0x41 + 10)
  else if 0x61 ≤ n ∧ n ≤ 0x66 then some (n - 0x61 + 10)
  else none

/-- The digit loop of `from_str_radix(_, 16)`, most significant digit first; overflow of the target
type (`bits` wide) is an error. -/
def parseHexDigits (bits : Nat) : Nat → List Byte → Option Nat
  | acc, [] => some acc
  | acc, b :: bs => match hexValue b with
    | none => none
    | some d => if acc * 16 + d < 2 ^ bits then parseHexDigits bits (acc * 16 + d) bs else none

/-- Standard library `uN::from_str_radix(s, 16)` for unsigned `N`: empty text and a lone sign are
errors, a leading `+` is skipped. -/
def fromStrRadix16 (bits : Nat) (s : List Byte) : Option Nat :=
  match s with
  | [] => none
  | [b] => if b = 0x2b#8 ∨ b = 0x2d#8 then none else parseHexDigits bits 0 [b]
  | b :: rest => if b = 0x2b#8 then parseHexDigits bits 0 rest else parseHexDigits bits 0 s

/-- Lower case hexadecimal digit. -/
def lowerHex (n : Nat) : Byte := if n < 10 then BitVec.ofNat 8 (0x30 + n) else BitVec.ofNat 8 (0x57 + n)

/-- The `n` least significant hexadecimal digits of `v`. -/
def hexDigits : Nat → Nat → List Byte
  | 0, _ => []
  | n + 1, v => hexDigits n (v / 16) ++ [lowerHex (v % 16)]

/-- `{:0Wx}`: at least `w` digits, more if the value needs them. -/
def formatHex (w v : Nat) : List Byte := hexDigits (max w (Nat.toDigits 16 v).length) v

namespace Uuid

/-- `Uuid`, uuid.rs:21-27. -/
structure Uuid where
  part1 : Nat
  part2 : Nat
  part3 : Nat
  part4 : Nat
  part5 : Nat
deriving DecidableEq, Repr

/-- `Uuid::from_be_bytes`, uuid.rs:36-46. -/
def fromBeBytes (data : List Byte) : R Uuid := do
  let upper ← u16be data 10
  let lower ← u32be data 12
  return ⟨← u32be data 0, ← u16be data 4, ← u16be data 6, ← u16be data 8,
    (upper <<< 32) ||| lower⟩

/-- `Uuid::from_le_bytes`, uuid.rs:49-59. -/
def fromLeBytes (data : List Byte) : R Uuid := do
  let upper ← u16be data 10
  let lower ← u32be data 12
  return ⟨← u32le data 0, ← u16le data 4, ← u16le data 6, ← u16be data 8,
    (upper <<< 32) ||| lower⟩

/-- `Uuid::is_max`, uuid.rs:62-68. -/
def isMax (u : Uuid) : Bool :=
  u.part1 == 0xffffffff && u.part2 == 0xffff && u.part3 == 0xffff && u.part4 == 0xffff
    && u.part5 == 0xffffffffffff

/-- `Uuid::is_nil`, uuid.rs:71-73. -/
def isNil (u : Uuid) : Bool :=
  u.part1 == 0 && u.part2 == 0 && u.part3 == 0 && u.part4 == 0 && u.part5 == 0

/-- One `match uN::from_str_radix(&string[a..b], 16)` of `from_string`. -/
def part (bits : Nat) (s : List Byte) (a b : Nat) : R Nat := do
  match fromStrRadix16 bits (← sliceStr s a b) with
  | some v => return v
  | none => .err

/-- `Uuid::from_string`, uuid.rs:76-139. Parts assigned before a later part fails are not modelled:
the result of an error is no UUID. -/
def fromString (string : List Byte) : R Uuid := do
  let string ←
    if string.head? = some 0x7b#8 ∧ string.getLast? = some 0x7d#8 then
      sliceStr string 1 (string.length - 1)
    else pure string
  if string.length ≠ 36 then .err else do
  if (← sliceStr string 8 9) ≠ [0x2d#8] then .err else do
  if (← sliceStr string 13 14) ≠ [0x2d#8] then .err else do
  if (← sliceStr string 18 19) ≠ [0x2d#8] then .err else do
  if (← sliceStr string 23 24) ≠ [0x2d#8] then .err else do
  let p1 ← part 32 string 0 8
  let p2 ← part 16 string 9 13
  let p3 ← part 16 string 14 18
  let p4 ← part 16 string 19 23
  let p5 ← part 64 string 24 36
  return ⟨p1, p2, p3, p4, p5⟩

/-- `Uuid::to_string`, uuid.rs:142-147. -/
def toString (u : Uuid) : List Byte :=
  formatHex 8 u.part1 ++ [0x2d#8] ++ formatHex 4 u.part2 ++ [0x2d#8] ++ formatHex 4 u.part3 ++ [0x2d#8]
    ++ formatHex 4 u.part4 ++ [0x2d#8] ++ formatHex 12 u.part5

end Uuid

namespace Ucs2

/-- The element loop shared by `Ucs2String::from_be_bytes`, `from_le_bytes`, `read_data_le`
(ucs2_string.rs:53-59, 68-74, 94-100) and `Utf16String::from_be_bytes`, `from_le_bytes`
(utf16_string.rs:36-42, 51-57), over the data offsets still to visit. -/
def elements (load : List Byte → Nat → R Nat) (data : List Byte) : List Nat → R (List Nat)
  | [] => .ok []
  | offset :: offsets => do
    let value ← load data offset
    if value = 0 then return []
    else return value :: (← elements load data offsets)

/-- `(0..data_size).step_by(2)`. -/
def offsets (dataSize : Nat) : List Nat := (List.range ((dataSize + 1) / 2)).map (2 * ·)

/-- `Ucs2String::from_be_bytes`, ucs2_string.rs:49-61; `Utf16String::from_be_bytes`,
utf16_string.rs:32-44. -/
def fromBeBytes (data : List Byte) : R (List Nat) := elements u16be data (offsets data.length)

/-- `Ucs2String::from_le_bytes`, ucs2_string.rs:64-76; `Utf16String::from_le_bytes`,
utf16_string.rs:47-59. -/
def fromLeBytes (data : List Byte) : R (List Nat) := elements u16le data (offsets data.length)

/-- `Ucs2String::read_data_le`, ucs2_string.rs:91-101. -/
def readDataLe (self : List Nat) (data : List Byte) : R (List Nat) := do
  return self ++ (← fromLeBytes data)

/-- `Ucs2String::new_with_case_folding`, ucs2_string.rs:35-46. The `HashMap` is a partial
function. -/
def caseFold (mappings : Nat → Option Nat) (s : List Nat) : List Nat :=
  s.map fun e => (mappings e).getD e

/-- The loop and the final tests of `Ucs2String::compare`, ucs2_string.rs:104-128, on the elements
from `element_index` on. -/
def compare : List Nat → List Nat → Ordering
  | a :: as, b :: bs => if a < b then .lt else if a > b then .gt else compare as bs
  | [], _ :: _ => .lt
  | _ :: _, [] => .gt
  | [], [] => .eq

end Ucs2

namespace ByteString

/-- `ByteString::from(&[u8])` and `ByteString::read_data`, byte_string.rs:113-119, 151-160: the
elements before the first zero byte. -/
def elements (data : List Byte) : List Byte :=
  match data.findIdx? (· == 0) with
  | some i => data.take i
  | none => data

end ByteString
end Keramics
