import Verif.Lemmas.DateTime

/-!
C20 to C22: calendar dates, timestamp text, FAT dates.
-/

namespace Keramics.Props
open Keramics.DateTime Keramics.Spec.Calendar

attribute [local irreducible] yearStart

/-- The day number of the specification identifies a date. -/
theorem dayNumber_injective {y m d y' m' d' : Nat} (h : validDate y m d) (h' : validDate y' m' d')
    (e : dayNumber y m d = dayNumber y' m' d') : y = y' ∧ m = m' ∧ d = d' := by
  obtain ⟨h1, h2, h3, h4⟩ := h
  obtain ⟨h1', h2', h3', h4'⟩ := h'
  have bound : ∀ {y m d : Nat}, m ≤ 12 → 1 ≤ d → d ≤ monthLength y m →
      monthStart y m + (d - 1) < monthStart y (m + 1) ∧ monthStart y m + (d - 1) < yearLength y := by
    intro y m d a b c
    have e1 : monthStart y (m + 1) = monthStart y m + monthLength y m := by rw [monthStart]
    have e2 := monthStart_mono y (show m + 1 ≤ 13 by omega)
    rw [monthStart_13] at e2
    omega
  have b := bound h2 h3 h4
  have b' := bound h2' h3' h4'
  simp only [dayNumber] at e
  have hy : y = y' := by
    rcases Nat.lt_trichotomy y y' with hlt | heq | hlt
    · have := yearStart_mono (show y + 1 ≤ y' from hlt)
      rw [yearStart] at this
      omega
    · exact heq
    · have := yearStart_mono (show y' + 1 ≤ y from hlt)
      rw [yearStart] at this
      omega
  subst hy
  have hm : m = m' := by
    rcases Nat.lt_trichotomy m m' with hlt | heq | hlt
    · have := monthStart_mono y (show m + 1 ≤ m' from hlt)
      omega
    · exact heq
    · have := monthStart_mono y (show m' + 1 ≤ m from hlt)
      omega
  subst hm
  omega

/-- C20, part: from every epoch that is the first of January of a year from 0 to 9899, every day
count that stays within year 9999 converts to the date that many days later. The library's epochs
are 1601 and 1970. Missing: years from 10000 on, and counts that go back more than a year, where the
code is wrong (`C20_violated`). -/
theorem C20_date_values_partial (Y n : Nat) (hY : Y ≤ 9899)
    (hn : dayNumber Y 1 1 + n < dayNumber 10000 1 1) :
    ∃ y m d : Nat, getDateValues (n : Int) ⟨Y, 1, 1⟩ = .ok ((y : Int), m, d) ∧
      validDate y m d ∧ dayNumber y m d = dayNumber Y 1 1 + n := by
  have z : ∀ y, dayNumber y 1 1 = yearStart y := by
    intro y; simp [dayNumber, monthStart, monthLength]
  rw [z, z] at hn
  obtain ⟨y, m, d, h1, h2, _, h3⟩ := getDateValues_ok Y n hY hn
  exact ⟨y, m, d, h1, h2, by rw [h3, z]⟩

/-- The hypotheses hold, e.g. for 29 February 2000 counted from 1970. -/
example : dayNumber 1970 1 1 + 11016 < dayNumber 10000 1 1 ∧
    getDateValues 11016 posixEpoch = .ok (2000, 2, 29) := by
  have z : ∀ y, dayNumber y 1 1 = yearStart y := by
    intro y; simp [dayNumber, monthStart, monthLength]
  refine ⟨?_, by decide +kernel⟩
  rw [z, z]
  have := yearStart_closed 1970
  have := yearStart_closed 10000
  omega

/-- C20, part: counting back from the first of January of a year, up to the whole year before it. -/
theorem C20_date_values_before_partial (Y k : Nat) (hY : Y + 1 < 10000) (hk : 1 ≤ k)
    (hk' : k ≤ yearLength Y) :
    ∃ m d : Nat, getDateValues (-(k : Int)) ⟨(Y + 1 : Nat), 1, 1⟩ = .ok ((Y : Int), m, d) ∧
      validDate Y m d ∧ dayNumber Y m d + k = dayNumber (Y + 1) 1 1 := by
  obtain ⟨m, d, h1, h2, h3⟩ := getDateValues_back Y k hY hk hk'
  refine ⟨m, d, h1, h2, ?_⟩
  rw [h3]
  simp [dayNumber, monthStart, monthLength]

example : getDateValues (-307) posixEpoch = .ok (1969, 2, 28) := by decide +kernel

/-- C20 is false of the code: 366 days before 1970 (31 December 1968) converts to "day 0" of January
1969, and a count that reaches year 10000 panics. -/
theorem C20_violated :
    getDateValues (-366) posixEpoch = .ok (1969, 1, 0) ∧
    dayNumber 1968 12 31 + 366 = dayNumber 1970 1 1 ∧
    getDateValues 2932900 posixEpoch = .panic := by
  refine ⟨by decide +kernel, ?_, by decide +kernel⟩
  have z : dayNumber 1970 1 1 = yearStart 1970 := by
    simp [dayNumber, monthStart, monthLength]
  have a := yearStart_closed 1968
  have b := yearStart_closed 1970
  have c : monthStart 1968 12 = 335 := by decide
  rw [z]
  unfold dayNumber
  rw [c]
  generalize yearStart 1968 = a at *
  generalize yearStart 1970 = b at *
  omega

/-! ## C21 -/

/-- A text of date, time and fraction denotes the instant `seconds` seconds after the day number
`epoch`. -/
def Denotes (epoch : Nat) (seconds : Int) (fraction : List Char) (text : List Char) : Prop :=
  ∃ y m d h mi s : Nat, validDate y m d ∧ h < 24 ∧ mi < 60 ∧ s < 60 ∧ y < 10000 ∧
    (dayNumber y m d * 86400 + h * 3600 + mi * 60 + s : Nat) = (epoch * 86400 : Int) + seconds ∧
    text = dateText y m d ++ timeText h mi s ++ fraction

theorem monthLength_lt_100 (y m : Nat) : monthLength y m < 100 := by
  have := monthLength_le y m
  omega

/-- The date and time part, for seconds from one year before the epoch up to the end of 9999. -/
theorem text_ok (Y : Nat) (hY : Y + 1 ≤ 9899) (t : Int) (f : List Char)
    (h1 : -(yearLength Y * 86400 : Int) ≤ t)
    (h2 : (dayNumber (Y + 1) 1 1 * 86400 : Int) + t < (dayNumber 10000 1 1 * 86400 : Nat)) :
    ∃ text, (do
        let (days, h, m, s) := getTimeValues t
        let (year, month, day) ← getDateValues days ⟨(Y + 1 : Nat), 1, 1⟩
        pure (formatDate year month day ++ formatTime h m s ++ f) : R (List Char)) = .ok text ∧
      Denotes (dayNumber (Y + 1) 1 1) t f text := by
  have z : ∀ y, dayNumber y 1 1 = yearStart y := by
    intro y; simp [dayNumber, monthStart, monthLength]
  have key : ∃ y m d : Nat, getDateValues (t / 60 / 60 / 24) ⟨(Y + 1 : Nat), 1, 1⟩
      = .ok ((y : Int), m, d) ∧ validDate y m d ∧ y < 10000 ∧
      (dayNumber y m d : Int) = dayNumber (Y + 1) 1 1 + t / 60 / 60 / 24 := by
    by_cases hneg : t < 0
    · obtain ⟨k, hk⟩ : ∃ k : Nat, t / 60 / 60 / 24 = -(k : Int) :=
        ⟨(-(t / 60 / 60 / 24)).toNat, by omega⟩
      obtain ⟨m, d, e, hv, hd⟩ := getDateValues_back Y k (by omega) (by omega) (by omega)
      refine ⟨Y, m, d, by rw [hk]; exact e, hv, by omega, ?_⟩
      rw [hk, z]
      omega
    · obtain ⟨n, hn⟩ : ∃ n : Nat, t / 60 / 60 / 24 = (n : Int) := ⟨(t / 60 / 60 / 24).toNat, by omega⟩
      obtain ⟨y, m, d, e, hv, hy, hd⟩ := getDateValues_ok (Y + 1) n hY
        (by rw [z, z] at h2; omega)
      refine ⟨y, m, d, by rw [hn]; exact e, hv, hy, ?_⟩
      rw [hn, z]
      omega
  obtain ⟨y, m, d, e, hv, hy, hd⟩ := key
  simp only [getTimeValues]
  rw [e, R.ok_bind]
  refine ⟨_, rfl, y, m, d, (t / 60 / 60 % 24).toNat, (t / 60 % 60).toNat, (t % 60).toNat, hv,
    by omega, by omega, by omega, hy, ?_, ?_⟩
  · push_cast
    omega
  · simp only
    have := monthLength_lt_100 y m
    obtain ⟨a, b, c, d'⟩ := hv
    rw [formatDate_eq hy (by omega) (by omega), formatTime_eq (by omega) (by omega) (by omega)]

/-- C21 for FILETIME, part: every timestamp up to the end of year 9999 renders as the ISO 8601 text
of the instant it denotes, with seven digits of fraction. Missing: later timestamps, for which the
code panics (`C21_violated`). -/
theorem C21_filetime_partial (t : Nat) (h : dayNumber 1601 1 1 * 86400 + t / 10000000 <
    dayNumber 10000 1 1 * 86400) :
    ∃ text, filetimeText t = .ok text ∧
      Denotes (dayNumber 1601 1 1) (t / 10000000 : Nat) ('.' :: digits 7 (t % 10000000)) text := by
  have := text_ok 1600 (by omega) (t / 10000000 : Nat) ('.' :: digits 7 (t % 10000000))
    (by have := yearLength_cases 1600; omega)
    (by
      rw [show 1600 + 1 = 1601 from rfl]
      generalize dayNumber 1601 1 1 = a at h ⊢
      generalize dayNumber 10000 1 1 = b at h ⊢
      omega)
  obtain ⟨text, e, hd⟩ := this
  refine ⟨text, ?_, hd⟩
  rw [← e]
  unfold filetimeText filetimeEpoch
  simp only []
  rw [formatDec_eq (w := 7) (by omega) (by omega)]
  simp only [List.append_assoc, List.singleton_append]
  rfl

/-- C21 for 32-bit POSIX timestamps, part: every timestamp from 1969 on. Missing: earlier timestamps,
where the code is wrong (`C21_violated`). -/
theorem C21_posix32_partial (t : Int) (h1 : -31536000 ≤ t) (h2 : t < 2 ^ 31) :
    ∃ text, posix32Text t = .ok text ∧ Denotes (dayNumber 1970 1 1) t [] text := by
  have z : ∀ y, dayNumber y 1 1 = yearStart y := by
    intro y; simp [dayNumber, monthStart, monthLength]
  have a := yearStart_closed 10000
  have b := yearStart_closed 1970
  obtain ⟨text, e, hd⟩ := text_ok 1969 (by omega) t []
    (by have := yearLength_cases 1969; omega)
    (by rw [z, z, show 1969 + 1 = 1970 from rfl]; omega)
  refine ⟨text, ?_, hd⟩
  rw [← e]
  unfold posix32Text posixEpoch
  simp only [List.append_nil]
  rfl

/-- C21 for 64-bit POSIX timestamps with nanoseconds, part: from 1969 to the end of 9999. -/
theorem C21_posix64_partial (t : Int) (f : Nat) (h1 : -31536000 ≤ t)
    (h2 : (dayNumber 1970 1 1 * 86400 : Int) + t < (dayNumber 10000 1 1 * 86400 : Nat))
    (hf : f < 1000000000) :
    ∃ text, posix64Text t f = .ok text ∧
      Denotes (dayNumber 1970 1 1) t ('.' :: digits 9 f) text := by
  obtain ⟨text, e, hd⟩ := text_ok 1969 (by omega) t ('.' :: digits 9 f)
    (by have := yearLength_cases 1969; omega) h2
  refine ⟨text, ?_, hd⟩
  rw [← e]
  unfold posix64Text posixEpoch
  rw [formatDec_eq (w := 9) (by omega) (by omega)]
  simp only [List.append_assoc, List.singleton_append]
  rfl

example : posix32Text (-1) = .ok "1969-12-31T23:59:59".toList := by decide +kernel
example : filetimeText 0x01cb3a623d0a17ce = .ok "2010-08-12T21:06:31.5468750".toList := by
  decide +kernel

/-- C21 is false of the code: the POSIX timestamp of 31 December 1968 renders as day 0 of January
1969, and a FILETIME in year 10000 or later panics. -/
theorem C21_violated :
    posix32Text (-366 * 86400) = .ok "1969-01-00T00:00:00".toList ∧
    filetimeText 0x7fffffffffffffff = .panic := by
  exact ⟨by decide +kernel, by decide +kernel⟩

/-! ## C22 -/

theorem fatDateFields_eq {y m d : Nat} (hy : y < 128) (hm : m < 16) (hd : d < 32) :
    fatDateFields (y * 512 + m * 32 + d) = (1980 + y, m, d) := by
  unfold fatDateFields
  rw [show (0x7f : Nat) = 2 ^ 7 - 1 from rfl, show (0x0f : Nat) = 2 ^ 4 - 1 from rfl,
    show (0x1f : Nat) = 2 ^ 5 - 1 from rfl, Nat.and_two_pow_sub_one_eq_mod,
    Nat.and_two_pow_sub_one_eq_mod, Nat.and_two_pow_sub_one_eq_mod, Nat.shiftRight_eq_div_pow,
    Nat.shiftRight_eq_div_pow]
  simp only [Prod.mk.injEq]
  omega

/-- C22: a date packed as 7 bits of years since 1980, 4 bits of month and 5 bits of day is rendered
with those numbers, for every value of the fields, existing date or not. -/
theorem C22_fat_date (y m d : Nat) (hy : y < 128) (hm : m < 16) (hd : d < 32) :
    fatDateText (y * 512 + m * 32 + d) = dateText (1980 + y) m d := by
  unfold fatDateText
  rw [fatDateFields_eq hy hm hd]
  simp only
  rw [formatDate_eq (by omega) (by omega) (by omega)]

theorem fatTime {h m s : Nat} (hh : h < 32) (hm : m < 64) (hs : s < 32) :
    (((h * 2048 + m * 32 + s) >>> 11) &&& 0x1f) = h ∧ (((h * 2048 + m * 32 + s) >>> 5) &&& 0x3f) = m ∧
      ((h * 2048 + m * 32 + s) &&& 0x1f) = s := by
  rw [show (0x3f : Nat) = 2 ^ 6 - 1 from rfl,
    show (0x1f : Nat) = 2 ^ 5 - 1 from rfl, Nat.and_two_pow_sub_one_eq_mod,
    Nat.and_two_pow_sub_one_eq_mod, Nat.and_two_pow_sub_one_eq_mod, Nat.shiftRight_eq_div_pow,
    Nat.shiftRight_eq_div_pow]
  omega

/-- C22 for date and time: the time packs 5 bits of hours, 6 bits of minutes and 5 bits of
two-second units. -/
theorem C22_fat_time_date (y mo d h m s : Nat) (hy : y < 128) (hmo : mo < 16) (hd : d < 32)
    (hh : h < 32) (hm : m < 64) (hs : s < 32) :
    fatTimeDateText (y * 512 + mo * 32 + d) (h * 2048 + m * 32 + s)
      = dateText (1980 + y) mo d ++ timeText h m (2 * s) := by
  obtain ⟨e1, e2, e3⟩ := fatTime hh hm hs
  unfold fatTimeDateText
  rw [fatDateFields_eq hy hmo hd]
  simp only
  rw [e1, e2, e3, formatDate_eq (by omega) (by omega) (by omega),
    formatTime_eq (by omega) (by omega) (by omega), Nat.mul_comm s 2]

/-- C22 for date and time with a fraction in units of 10 ms: the seconds are the two-second units
plus whole seconds of the fraction; the hundredths follow the point. No overflow panic. -/
theorem C22_fat_time_date_10ms (y mo d h m s f : Nat) (hy : y < 128) (hmo : mo < 16) (hd : d < 32)
    (hh : h < 32) (hm : m < 64) (hs : s < 32) (hf : f < 256) :
    fatTimeDate10MsText (y * 512 + mo * 32 + d) (h * 2048 + m * 32 + s) f
      = .ok (dateText (1980 + y) mo d ++ timeText h m (2 * s + f / 100) ++ ['.']
          ++ digits 2 (f % 100)) := by
  obtain ⟨e1, e2, e3⟩ := fatTime hh hm hs
  unfold fatTimeDate10MsText
  rw [fatDateFields_eq hy hmo hd]
  simp only
  rw [e1, e2, e3]
  rw [R.mulU_ok (by omega), R.ok_bind, R.mulU_ok (by omega), R.ok_bind, R.addU_ok (by omega),
    R.ok_bind, R.pure_eq]
  rw [formatDate_eq (by omega) (by omega) (by omega),
    show (s * 2000 + f * 10) / 1000 = 2 * s + f / 100 by omega,
    show (s * 2000 + f * 10) % 1000 / 10 = f % 100 by omega,
    formatTime_eq (by omega) (by omega) (by omega), formatDec_eq (by omega) (by omega)]

example : fatTimeDate10MsText 0x3d0c 0xa8d0 0x7d = .ok "2010-08-12T21:06:33.25".toList := by
  decide +kernel

end Keramics.Props
