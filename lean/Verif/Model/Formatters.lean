import Verif.Model.Tools
import Verif.Model.VfsParts
import Verif.Spec.VfsParts

/-!
# Model: the formatters of debug output

keramics-core/src/formatters.rs. Strings are lists of code points, and the parts of a string are put together as they are made. Offsets do not
overflow, as slices have less than `2 ^ 63` bytes.
-/

namespace Keramics.Formatters
open Spec (codePoints)

/-- The variables of `format_as_hexdump`, formatters.rs:45-51. -/
structure Dump where
  chars : List Nat
  index : Nat
  offset : Nat
  shown : Nat
  out : List Nat

/-- formatters.rs:45-51 -/
def start : Dump := ⟨List.replicate 16 0x2e, 0, 0, 0, []⟩

/-- The character of a byte, formatters.rs:74-78 and 106-110. -/
def character (b : Byte) : Nat := if b.toNat < 32 ∨ 127 ≤ b.toNat then 0x2e else b.toNat

/-- The condition of formatters.rs:55-59. -/
def repeats (data : List Byte) (group : Bool) (whole : Nat) (s : Dump) : R Bool :=
  if group = true ∧ s.shown ≠ s.offset then do
    let a ← R.slice data s.shown (s.shown + 16)
    let b ← R.slice data s.offset (s.offset + 16)
    return decide (a = b) && decide (s.offset + 16 < whole)
  else .ok false

/-- formatters.rs:72-97: one byte of a whole line. -/
def wholeByte (data : List Byte) (s : Dump) : R Dump := do
  let b ← R.get data s.offset
  let chars ← R.set s.chars s.index (character b)
  let out := s.out ++ Display.hex 2 b.toNat ++ codePoints " " ++ (if s.index = 7 then codePoints " " else [])
  if s.index = 15 then
    return ⟨chars, 0, s.offset + 1, s.shown, out ++ codePoints " " ++ chars.take (s.index + 1) ++ codePoints "\n"⟩
  else return ⟨chars, s.index + 1, s.offset + 1, s.shown, out⟩

/-- The body of the first loop, formatters.rs:54-97. -/
def wholeStep (data : List Byte) (group : Bool) (whole : Nat) (s : Dump) : R Dump :=
  if s.index = 0 then do
    let skip ← repeats data group whole s
    if skip then
      return { s with offset := s.offset + 16, out := s.out ++ (if s.shown + 16 = s.offset then codePoints "...\n" else []) }
    else wholeByte data { s with shown := s.offset, out := s.out ++ Display.hex 8 s.offset ++ codePoints "  " }
  else wholeByte data s

/-- The first loop, formatters.rs:53-98. -/
def wholeLoop (data : List Byte) (group : Bool) (whole : Nat) : Nat → Dump → R Dump
  | 0, _ => .panic
  | fuel + 1, s => if s.offset < whole then do
      let t ← wholeStep data group whole s
      wholeLoop data group whole fuel t
    else .ok s

/-- The body of the second loop, formatters.rs:100-117. -/
def restStep (data : List Byte) (s : Dump) : R Dump := do
  let b ← R.get data s.offset
  let chars ← R.set s.chars (s.offset % 16) (character b)
  return ⟨chars, s.offset % 16, s.offset + 1, s.shown, s.out ++ (if s.offset % 16 = 0 then Display.hex 8 s.offset ++ codePoints "  " else []) ++
    Display.hex 2 b.toNat ++ codePoints " " ++ if s.offset % 16 = 7 then codePoints " " else []⟩

/-- The second loop, formatters.rs:99-118. -/
def restLoop (data : List Byte) : Nat → Dump → R Dump
  | 0, _ => .panic
  | fuel + 1, s => if s.offset < data.length then do
      let t ← restStep data s
      restLoop data fuel t
    else .ok s

/-- The columns without bytes, formatters.rs:122-127. -/
def padding (index : Nat) : List Nat :=
  ((List.range 16).drop index).flatMap fun i => (if i = 7 then codePoints " " else []) ++ codePoints "   "

/-- formatters.rs:119-137 -/
def finish (data : List Byte) (s : Dump) : List Nat :=
  (if 0 < data.length ∧ 0 < s.index then
    s.out ++ padding (s.index + 1) ++ codePoints " " ++ s.chars.take (s.index + 1) ++ codePoints "\n"
  else s.out) ++ codePoints "\n"

/-- `format_as_hexdump`, formatters.rs:44-137. -/
def hexdump (data : List Byte) (group : Bool) : R (List Nat) := do
  let s ← wholeLoop data group (data.length / 16 * 16) (data.length + 1) start
  let t ← restLoop data (data.length + 1) s
  return finish data t

/-- `debug_format_array`, formatters.rs:15-41. -/
def debugArray (values : List (List Nat)) : R (List Nat) := do
  let first ← R.get values 0
  if values.all fun v => first = v then
    return codePoints "[" ++ first ++ codePoints "; " ++ VfsParts.decimal values.length ++ codePoints "]"
  else if values.length > 16 then do
    let last := values.length - 16
    let parts ← (List.range ((last + 15) / 16)).mapM fun i => R.slice values (16 * i) (16 * i + 16)
    return codePoints "[\n        " ++ (codePoints ",\n        ").intercalate ((parts ++ [values.drop last]).map (codePoints ", ").intercalate) ++ codePoints "\n    ]"
  else return codePoints "[" ++ (codePoints ", ").intercalate values ++ codePoints "]"

end Keramics.Formatters
