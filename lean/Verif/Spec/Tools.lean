import Verif.Spec.DateTime

/-!
# Specification: bodyfile timestamps and EWF segment file extensions
-/

namespace Keramics.Spec

/-- Unicode control characters: C0, delete and C1. -/
def isControl (c : Nat) : Prop := c < 0x20 ∨ (0x7f ≤ c ∧ c ≤ 0x9f)

/-- Unicode noncharacters: U+FDD0 to U+FDEF and the last two of every plane. -/
def isNoncharacter (c : Nat) : Prop := (0xfdd0 ≤ c ∧ c ≤ 0xfdef) ∨ 0xfffe ≤ c % 0x10000

/-- The characters of a text that are not taken by an escape: those that are no backslash and do not come right after one
that starts an escape. -/
def bare : List Nat → List Nat
  | 0x5c :: _ :: rest => bare rest
  | c :: rest => c :: bare rest
  | [] => []

/-- A text that can be shown on one line and split at its separators: no control characters, and slashes and colons are
escaped. -/
def Safe (text : List Nat) : Prop := (∀ c ∈ text, ¬ isControl c) ∧ 0x2f ∉ bare text ∧ 0x3a ∉ bare text

/-- The value of decimal digits; nothing if there is another character or none. -/
def decimal (text : List Char) : Option Nat :=
  if text ≠ [] ∧ text.all Char.isDigit then some (text.foldl (fun v c => 10 * v + (c.toNat - 48)) 0) else none

/-- The value of "[-]seconds.fraction", in units of the last digit of a fraction of `w` digits. -/
def decimalFraction (w : Nat) (text : List Char) : Option Int :=
  let negative := text.head? = some '-'
  let magnitude := if negative then text.tail else text
  let whole := magnitude.takeWhile (· ≠ '.')
  let fraction := magnitude.drop (whole.length + 1)
  match decimal whole, decimal fraction with
  | some a, some b =>
    if fraction.length = w then some (if negative then -((a * 10 ^ w + b : Nat) : Int) else ((a * 10 ^ w + b : Nat) : Int)) else none
  | _, _ => none

/-- The letters from one to another. -/
def letters (a z : Char) : List Char := (List.range (z.toNat - a.toNat + 1)).map fun i => Char.ofNat (a.toNat + i)

/-- The segment file extensions in order: E01 to E99, then EAA to EZZ, FAA to FZZ and so on up to ZZZ. -/
def segmentExtensions (first a z : Char) : List (List Char) :=
  ((List.range 99).map fun i => [first, Char.ofNat (48 + (i + 1) / 10), Char.ofNat (48 + (i + 1) % 10)]) ++
  (letters first z).flatMap fun x => (letters a z).flatMap fun y => (letters a z).map fun w => [x, y, w]

end Keramics.Spec
