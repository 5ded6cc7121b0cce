import Verif.Model.Types
import Verif.Model.DateTime
import Verif.Model.Utf8

/-!
# Model: keramics-tools (display strings, bodyfile timestamps) and EWF segment file extensions

Text is a list of code points here.
-/

namespace Keramics.Display

/-- `format!("…{:0Wx}…")`: the hexadecimal digits as code points. -/
def hex (w v : Nat) : List Nat := (formatHex w v).map BitVec.toNat

/-- display_path.rs:128-135 -/
def undefinedCharacters : List Nat :=
  [0xfdd0, 0xfdd1, 0xfdd2, 0xfdd3, 0xfdd4, 0xfdd5, 0xfdd6, 0xfdd7, 0xfdd8, 0xfdd9, 0xfdda,
   0xfddb, 0xfddc, 0xfddd, 0xfdde, 0xfddf, 0xfffe, 0xffff, 0x1fffe, 0x1ffff, 0x2fffe,
   0x2ffff, 0x3fffe, 0x3ffff, 0x4fffe, 0x4ffff, 0x5fffe, 0x5ffff, 0x6fffe, 0x6ffff,
   0x7fffe, 0x7ffff, 0x8fffe, 0x8ffff, 0x9fffe, 0x9ffff, 0xafffe, 0xaffff, 0xbfffe,
   0xbffff, 0xcfffe, 0xcffff, 0xdfffe, 0xdffff, 0xefffe, 0xeffff, 0xffffe, 0xfffff,
   0x10fffe, 0x10ffff]

/-- display_path.rs:141-143 -/
def nonPrintableCharacters : List Nat := [0x2028, 0x2029, 0xe000, 0xf8ff, 0xf0000, 0xffffd, 0x100000, 0x10fffd]

/-- `get_character_translation_table`, display_path.rs:105-149, as a partial function; what is inserted last is looked at
first. -/
def translate (c : Nat) : Option (List Nat) :=
  if c ∈ nonPrintableCharacters then some ([0x5c, 0x55] ++ hex 8 c)
  else if c ∈ undefinedCharacters then some ([0x5c, 0x55] ++ hex 8 c)
  else if 0x7f ≤ c ∧ c < 0xa0 then some ([0x5c, 0x78] ++ hex 2 c)
  else if c = 0x5c then some [0x5c, 0x5c]
  else if c = 0x3a then some [0x5c, 0x3a]
  else if c = 0x2f then some [0x5c, 0x2f]
  else if c < 0x20 then some ([0x5c, 0x78] ++ hex 2 c)
  else none

/-- A character, display_path.rs:47-51, 70-73, 92-95. -/
def character (c : Nat) : List Nat := (translate c).getD [c]

/-- `char::from_u32(value)` succeeds. -/
def isChar (c : Nat) : Bool := c < 0xd800 || (0xe000 ≤ c && c < 0x110000)

/-- `internal_escape_string`, display_path.rs:43-55, also `escape_string` of `VfsString::String`. -/
def escapeText (s : List Nat) : List Nat := s.flatMap character

/-- `escape_string` of the code points of a `VfsString::Byte`, display_path.rs:63-82. -/
def escapeCodePoints (s : List Nat) : List Nat :=
  s.flatMap fun c => if isChar c then character c else [0x5c, 0x55, 0x7b] ++ hex 8 c ++ [0x7d]

/-- `escape_string` of a `VfsString::Byte` in UTF-8, display_path.rs:60-83; a decode error is `todo!()`. -/
def escapeUtf8 (s : List Byte) : R (List Nat) :=
  match Utf8.decodeAll s with
  | .ok cs => .ok (escapeCodePoints cs)
  | _ => .panic

/-- `escape_string` of a `VfsString::Ucs2`, display_path.rs:87-100. -/
def escapeUcs2 (s : List Nat) : List Nat :=
  s.flatMap fun c => if isChar c then character c else [0x5c, 0x55] ++ hex 8 c

end Keramics.Display

namespace Keramics.Bodyfile
open Keramics.DateTime

/-- bodyfile.rs:64-73, `format_as_timestamp` of a FILETIME. -/
def filetime (timestamp : Nat) : List Char :=
  let seconds := timestamp / 10000000
  let fraction := timestamp % 10000000
  let (seconds, fraction) := if seconds < 11644473600 ∧ fraction > 0 then (seconds + 1, 10000000 - fraction) else (seconds, fraction)
  formatInt 0 ((seconds : Int) - 11644473600) ++ ['.'] ++ formatDec 7 fraction

/-- bodyfile.rs:76 -/
def posix32 (timestamp : Int) : List Char := formatInt 0 timestamp

/-- bodyfile.rs:77-80 -/
def posix64 (timestamp : Int) (fraction : Nat) : List Char := formatInt 0 timestamp ++ ['.'] ++ formatDec 9 fraction

end Keramics.Bodyfile

namespace Keramics.Ewf

/-- `EwfNamingSchema`, ewf/enums.rs. -/
inductive Schema
  | e01Upper | s01Upper | e01Lower | s01Lower
deriving DecidableEq, Repr

/-- ewf/image.rs:143-148 -/
def Schema.first : Schema → Nat
  | .e01Upper => 0x45
  | .s01Upper => 0x53
  | .e01Lower => 0x65
  | .s01Lower => 0x73

/-- image.rs:154-157 -/
def Schema.base : Schema → Nat
  | .e01Upper | .s01Upper => 0x41
  | .e01Lower | .s01Lower => 0x61

/-- image.rs:168-171 -/
def Schema.last : Schema → Nat
  | .e01Upper | .s01Upper => 0x5a
  | .e01Lower | .s01Lower => 0x7a

/-- image.rs:149-167 -/
def extensionCharacters (n : Nat) (schema : Schema) : List Nat :=
  if n < 100 then [schema.first, 0x30 + n / 10, 0x30 + n % 10]
  else
    let k := n - 100
    [schema.first + k / 26 / 26, schema.base + k / 26 % 26, schema.base + k % 26]

/-- `get_segment_file_extension`, image.rs:131-183. The arithmetic is on `u32` and the number is 16-bit, so that nothing
overflows. -/
def segmentExtension (n : Nat) (schema : Schema) : R (List Nat) := do
  R.require (¬ n = 0)
  let extension := extensionCharacters n schema
  R.require (¬ extension.headD 0 > schema.last)
  return extension

end Keramics.Ewf
