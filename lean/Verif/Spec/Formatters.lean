import Verif.Spec.InfoTool

/-!
# Specification: debug output

Text is a list of code points.
-/

namespace Keramics.Spec.DebugText

/-- The character of a byte; those that cannot be printed in ASCII are dots. -/
def shownByte (b : Byte) : Nat := if 0x20 ≤ b.toNat ∧ b.toNat ≤ 0x7e then b.toNat else 0x2e

/-- A line of a hexdump, of at most 16 bytes: the offset, 16 columns with the bytes in hexadecimal, with a space in the middle, and the characters. -/
def row (offset : Nat) (bytes : List Byte) : List Nat :=
  let columns := (bytes.map fun b => hexNumber 2 b.toNat ++ codePoints " ") ++ List.replicate (16 - bytes.length) (codePoints "   ")
  hexNumber 8 offset ++ codePoints "  " ++ (columns.take 8).flatten ++ codePoints " " ++ (columns.drop 8).flatten ++ codePoints " " ++
    bytes.map shownByte ++ codePoints "\n"

/-- The bytes of a line. -/
def lineOf (data : List Byte) (i : Nat) : List Byte := (data.drop (16 * i)).take 16

/-- A line that is left out: one of 16 bytes that is the same as the line before it, and not the last of 16 bytes; only if lines are grouped. -/
def LeftOut (data : List Byte) (group : Bool) (i : Nat) : Prop :=
  group = true ∧ 0 < i ∧ i + 1 < data.length / 16 ∧ lineOf data i = lineOf data (i - 1)

instance (data : List Byte) (group : Bool) (i : Nat) : Decidable (LeftOut data group i) := inferInstanceAs (Decidable (_ ∧ _))

/-- The text of a line of 16 bytes; dots are in the place of lines that are left out. -/
def wholeLine (data : List Byte) (group : Bool) (i : Nat) : List Nat :=
  if LeftOut data group i then (if LeftOut data group (i - 1) then [] else codePoints "...\n") else row (16 * i) (lineOf data i)

/-- The lines of 16 bytes. -/
def wholeLines (data : List Byte) (group : Bool) : List Nat := (List.range (data.length / 16)).flatMap (wholeLine data group)

/-- A hexdump. -/
def dump (data : List Byte) (group : Bool) : List Nat :=
  wholeLines data group ++ (if data.length % 16 = 0 then [] else row (data.length / 16 * 16) (data.drop (data.length / 16 * 16))) ++ codePoints "\n"

/-- The values of a list on lines of their own. -/
def onLines (rows : List (List (List Nat))) : List Nat :=
  codePoints "[\n        " ++ (codePoints ",\n        ").intercalate (rows.map (codePoints ", ").intercalate) ++ codePoints "\n    ]"

/-- The text of a list of values: values that are all the same are given once, up to 16 are on one line, and more are on lines of 16. -/
def listText (values : List (List Nat)) : List Nat :=
  match values with
  | [] => codePoints "[]"
  | v :: _ =>
    if values = List.replicate values.length v then codePoints "[" ++ v ++ codePoints "; " ++ decimalText values.length ++ codePoints "]"
    else if values.length ≤ 16 then codePoints "[" ++ (codePoints ", ").intercalate values ++ codePoints "]"
    else onLines ((List.range ((values.length + 15) / 16)).map fun i => (values.drop (16 * i)).take 16)

end Keramics.Spec.DebugText
