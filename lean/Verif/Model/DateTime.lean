import Verif.Model.Stream

/-!
Model of keramics-datetime/src: util.rs, epoch.rs, filetime.rs, posix.rs, fat.rs.

i16, i32 and i64 values are `Int` with explicit overflow checks, u8 months are `Nat`. Text is a list
of characters. `while` loops run on fuel; running out is `panic` and does not happen, because every
iteration takes at least 28 days off a day count that is below the initial fuel.
-/

namespace Keramics.DateTime

/-- Result of i16 arithmetic, with overflow check. -/
def i16 (y : Int) : R Int := if -32768 ≤ y ∧ y ≤ 32767 then .ok y else .panic

/-- util.rs:18-20 `is_leap_year`; `%` is the truncated remainder. -/
def isLeapYear (year : Int) : Bool :=
  (year.tmod 4 = 0 && year.tmod 100 ≠ 0) || year.tmod 400 = 0

/-- util.rs:24-37 `get_days_in_month`. -/
def getDaysInMonth (year : Int) (month : Nat) : R Int :=
  if month ∈ [1, 3, 5, 7, 8, 10, 12] then .ok 31
  else if month = 2 then if isLeapYear year then .ok 29 else .ok 28
  else if month ∈ [4, 6, 9, 11] then .ok 30
  else .panic

/-- util.rs:40-57 `DAYS_IN_YEAR`: 10000 entries, entry `i` for year `i`. -/
def daysInYearTable : List Int :=
  (List.range 10000).map fun (i : Nat) => if isLeapYear i then 366 else 365

/-- util.rs:61-69 `get_days_in_year`. -/
def getDaysInYear (year : Int) : R Int :=
  if year ≥ 0 ∧ year ≤ 10000 then R.get daysInYearTable year.toNat
  else if isLeapYear year then .ok 366 else .ok 365

/-- util.rs:72-89 `DAYS_IN_CENTURY`: 100 entries, entry `i` for the century starting in `100 i`. -/
def daysInCenturyTable : List Int :=
  (List.range 100).map fun (i : Nat) => if isLeapYear (100 * i) then 36525 else 36524

/-- util.rs:93-101 `get_days_in_century`. -/
def getDaysInCentury (year : Int) : R Int :=
  if year ≥ 0 ∧ year ≤ 10000 then R.get daysInCenturyTable (year.tdiv 100).toNat
  else if isLeapYear year then .ok 36525 else .ok 36524

/-- epoch.rs:15-24. -/
structure Epoch where
  year : Int
  month : Nat
  day : Nat

/-- One step to the next or previous year, with overflow check. -/
def stepYear (before : Bool) (year by_ : Int) : R Int := if before then i16 (year - by_) else i16 (year + by_)

/-- util.rs:121-136: align with the start of the year. -/
def alignMonth (before : Bool) : Nat → Int → Nat → Int → R (Int × Nat × Int)
  | 0, _, _, _ => .panic
  | fuel + 1, year, month, n =>
    if month > 1 then do
      let days ← getDaysInMonth year month
      if n < days then pure (year, month, n)
      else
        let month := if before then month - 1 else month + 1
        if month > 12 then do
          let year ← i16 (year + 1)
          alignMonth before fuel year 1 (n - days)
        else alignMonth before fuel year month (n - days)
    else pure (year, month, n)

/-- util.rs:139-150: at most `count` years towards the century boundary. -/
def alignCentury (before : Bool) : Nat → Int → Int → R (Int × Int)
  | 0, year, n => .ok (year, n)
  | count + 1, year, n => do
    let days ← getDaysInYear year
    if n < days then pure (year, n)
    else do
      let year ← stepYear before year 1
      alignCentury before count year (n - days)

/-- util.rs:151-161. -/
def skipCenturies (before : Bool) : Nat → Int → Int → R (Int × Int)
  | 0, _, _ => .panic
  | fuel + 1, year, n => do
    let days ← getDaysInCentury year
    if n > days then do
      let year ← stepYear before year 100
      skipCenturies before fuel year (n - days)
    else pure (year, n)

/-- util.rs:162-172. -/
def skipYears (before : Bool) : Nat → Int → Int → R (Int × Int)
  | 0, _, _ => .panic
  | fuel + 1, year, n => do
    let days ← getDaysInYear year
    if n > days then do
      let year ← stepYear before year 1
      skipYears before fuel year (n - days)
    else pure (year, n)

/-- util.rs:173-190. -/
def skipMonths (before : Bool) : Nat → Int → Nat → Int → R (Int × Nat × Int)
  | 0, _, _, _ => .panic
  | fuel + 1, year, month, n => do
    let days ← getDaysInMonth year month
    if n > days then
      let month := if before then month - 1 else month + 1
      if month = 0 then do
        let year ← i16 (year - 1)
        skipMonths before fuel year 12 (n - days)
      else if month > 12 then do
        let year ← i16 (year + 1)
        skipMonths before fuel year 1 (n - days)
      else skipMonths before fuel year month (n - days)
    else pure (year, month, n)

/-- util.rs:105-119: the start values (year, month, days). -/
def dateStart (n : Int) (epoch : Epoch) : R (Int × Nat × Int) :=
  if n < 0 then do
    let n ← R.addI64 n epoch.day
    let month ← R.subU epoch.month 1
    let n ← R.addI64 0 (n * -1)
    if month = 0 then do
      let year ← i16 (epoch.year - 1)
      pure (year, 12, n)
    else pure (epoch.year, month, n)
  else do
    let n ← R.addI64 n epoch.day
    pure (epoch.year, epoch.month, n)

/-- util.rs:191-199: the final adjustment; `as u8` truncates. -/
def dateEnd (before : Bool) (year : Int) (month : Nat) (n : Int) : R (Int × Nat × Nat) :=
  if before then do
    let days ← getDaysInMonth year month
    pure (year, month, ((days - n) % 256).toNat)
  else if n = 0 then do
    let year ← i16 (year - 1)
    pure (year, 12, 31)
  else pure (year, month, (n % 256).toNat)

/-- util.rs:104-200 `get_date_values`; `year as usize` wraps. -/
def getDateValues (days : Int) (epoch : Epoch) : R (Int × Nat × Nat) := do
  let before : Bool := decide (days < 0)
  let (year, month, n) ← dateStart days epoch
  let (year, month, n) ← alignMonth before (n.toNat + 1) year month n
  let remaining := (year % 2 ^ 64).toNat % 100
  let (year, n) ← alignCentury before (100 - remaining) year n
  let (year, n) ← skipCenturies before (n.toNat + 1) year n
  let (year, n) ← skipYears before (n.toNat + 1) year n
  let (year, month, n) ← skipMonths before (n.toNat + 1) year month n
  dateEnd before year month n

/-- util.rs:203-214 `get_time_values`: Euclidean division. -/
def getTimeValues (seconds : Int) : Int × Nat × Nat × Nat :=
  let s := (seconds % 60).toNat
  let n := seconds / 60
  let m := (n % 60).toNat
  let n := n / 60
  let h := (n % 24).toNat
  let n := n / 24
  (n, h, m, s)

/-- The `w` least significant decimal digits of `v`. -/
def decDigits : Nat → Nat → List Char
  | 0, _ => []
  | w + 1, v => decDigits w (v / 10) ++ [Nat.digitChar (v % 10)]

/-- `{:0W}` of an unsigned value: at least `w` digits, more if the value needs them. -/
def formatDec (w v : Nat) : List Char := decDigits (max w (Nat.toDigits 10 v).length) v

/-- `{:0W}` of a signed value: the sign counts towards the width. -/
def formatInt (w : Nat) (v : Int) : List Char :=
  if v < 0 then '-' :: formatDec (w - 1) v.natAbs else formatDec w v.natAbs

/-- The date part `{:04}-{:02}-{:02}` of the formats. -/
def formatDate (year : Int) (month day : Nat) : List Char :=
  formatInt 4 year ++ ['-'] ++ formatDec 2 month ++ ['-'] ++ formatDec 2 day

/-- The time part `T{:02}:{:02}:{:02}` of the formats. -/
def formatTime (h m s : Nat) : List Char :=
  ['T'] ++ formatDec 2 h ++ [':'] ++ formatDec 2 m ++ [':'] ++ formatDec 2 s

/-- filetime.rs:21-25. -/
def filetimeEpoch : Epoch := ⟨1601, 1, 1⟩

/-- posix.rs:21-25. -/
def posixEpoch : Epoch := ⟨1970, 1, 1⟩

/-- filetime.rs:55-65 `Filetime::to_iso8601_string`. -/
def filetimeText (timestamp : Nat) : R (List Char) := do
  let fraction := timestamp % 10000000
  let (days, h, m, s) := getTimeValues (timestamp / 10000000 : Nat)
  let (year, month, day) ← getDateValues days filetimeEpoch
  pure (formatDate year month day ++ formatTime h m s ++ ['.'] ++ formatDec 7 fraction)

/-- posix.rs:60-68 `PosixTime32::to_iso8601_string`. -/
def posix32Text (timestamp : Int) : R (List Char) := do
  let (days, h, m, s) := getTimeValues timestamp
  let (year, month, day) ← getDateValues days posixEpoch
  pure (formatDate year month day ++ formatTime h m s)

/-- posix.rs:104-111 `PosixTime64Ns::to_iso8601_string`. -/
def posix64Text (timestamp : Int) (fraction : Nat) : R (List Char) := do
  let (days, h, m, s) := getTimeValues timestamp
  let (year, month, day) ← getDateValues days posixEpoch
  pure (formatDate year month day ++ formatTime h m s ++ ['.'] ++ formatDec 9 fraction)

/-- fat.rs:39-41 (and 90-92, 153-155): year, month and day of a FAT date. -/
def fatDateFields (date : Nat) : Nat × Nat × Nat :=
  (1980 + ((date >>> 9) &&& 0x7f), (date >>> 5) &&& 0x0f, date &&& 0x1f)

/-- fat.rs:38-44 `FatDate::to_iso8601_string`. -/
def fatDateText (date : Nat) : List Char :=
  let (year, month, day) := fatDateFields date
  formatDate year month day

/-- fat.rs:89-101 `FatTimeDate::to_iso8601_string`. -/
def fatTimeDateText (date time : Nat) : List Char :=
  let (year, month, day) := fatDateFields date
  let hours := (time >>> 11) &&& 0x1f
  let minutes := (time >>> 5) &&& 0x3f
  let seconds := (time &&& 0x1f) * 2
  formatDate year month day ++ formatTime hours minutes seconds

/-- fat.rs:152-170 `FatTimeDate10Ms::to_iso8601_string`, with the u16 overflow checks of line 158. -/
def fatTimeDate10MsText (date time fraction : Nat) : R (List Char) := do
  let (year, month, day) := fatDateFields date
  let hours := (time >>> 11) &&& 0x1f
  let minutes := (time >>> 5) &&& 0x3f
  let a ← R.mulU 16 (time &&& 0x1f) 2000
  let b ← R.mulU 16 fraction 10
  let ms ← R.addU 16 a b
  pure (formatDate year month day ++ formatTime hours minutes (ms / 1000) ++ ['.']
    ++ formatDec 2 (ms % 1000 / 10))

end Keramics.DateTime
