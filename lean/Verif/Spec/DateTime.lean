/-!
The proleptic Gregorian calendar, for years from 0 on, and ISO 8601 text.
-/

namespace Keramics.Spec.Calendar

/-- Leap years. -/
def isLeap (y : Nat) : Bool := y % 4 = 0 ∧ (y % 100 ≠ 0 ∨ y % 400 = 0)

def yearLength (y : Nat) : Nat := if isLeap y then 366 else 365

/-- Length of month `m` (1 to 12) of year `y`. -/
def monthLength (y m : Nat) : Nat :=
  match m with
  | 1 => 31
  | 2 => if isLeap y then 29 else 28
  | 3 => 31
  | 4 => 30
  | 5 => 31
  | 6 => 30
  | 7 => 31
  | 8 => 31
  | 9 => 30
  | 10 => 31
  | 11 => 30
  | 12 => 31
  | _ => 0

/-- Days from 1 January of year 0 to 1 January of year `y`. -/
def yearStart : Nat → Nat
  | 0 => 0
  | y + 1 => yearStart y + yearLength y

/-- Days from 1 January to the first day of month `m`. -/
def monthStart (y : Nat) : Nat → Nat
  | 0 => 0
  | m + 1 => monthStart y m + monthLength y m

/-- Days from 1 January of year 0 to a date. -/
def dayNumber (y m d : Nat) : Nat := yearStart y + monthStart y m + (d - 1)

/-- Dates that exist. -/
def validDate (y m d : Nat) : Prop := 1 ≤ m ∧ m ≤ 12 ∧ 1 ≤ d ∧ d ≤ monthLength y m

/-- Decimal digits of `v`, exactly `w` of them. -/
def digits : Nat → Nat → List Char
  | 0, _ => []
  | w + 1, v => digits w (v / 10) ++ [Char.ofNat (48 + v % 10)]

/-- `YYYY-MM-DD` -/
def dateText (y m d : Nat) : List Char := digits 4 y ++ ['-'] ++ digits 2 m ++ ['-'] ++ digits 2 d

/-- `Thh:mm:ss` -/
def timeText (h m s : Nat) : List Char :=
  ['T'] ++ digits 2 h ++ [':'] ++ digits 2 m ++ [':'] ++ digits 2 s

end Keramics.Spec.Calendar
