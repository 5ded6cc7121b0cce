import Verif.Base.Tactics
import Verif.Model.DateTime
import Verif.Spec.DateTime

namespace Keramics.DateTime
open Keramics.Spec.Calendar

/-! ## Calendar facts -/

theorem isLeapYear_nat (y : Nat) : isLeapYear (y : Int) = isLeap y := by
  unfold isLeapYear isLeap
  have h : ∀ k : Nat, (y : Int).tmod (k : Int) = ((y % k : Nat) : Int) := by
    intro k; rw [Int.ofNat_tmod]
  have h4 := h 4
  have h100 := h 100
  have h400 := h 400
  simp only [Nat.cast_ofNat] at h4 h100 h400
  rw [h4, h100, h400]
  rw [Bool.eq_iff_iff]
  simp only [Bool.or_eq_true, Bool.and_eq_true, decide_eq_true_eq]
  omega

theorem yearStart_closed (y : Nat) :
    yearStart y + (y + 99) / 100 = 365 * y + (y + 3) / 4 + (y + 399) / 400 := by
  induction y with
  | zero => rfl
  | succ y ih =>
    unfold yearStart yearLength isLeap
    split
    · rename_i h; simp only [decide_eq_true_eq] at h; omega
    · rename_i h; simp only [decide_eq_true_eq] at h; omega

theorem yearStart_mono {a b : Nat} (h : a ≤ b) : yearStart a ≤ yearStart b := by
  induction h with
  | refl => exact Nat.le_refl _
  | step _ ih => rw [yearStart]; omega

theorem yearStart_lt {a b : Nat} (h : a < b) : yearStart a < yearStart b := by
  have h1 : yearStart (a + 1) ≤ yearStart b := yearStart_mono h
  have : yearStart a < yearStart (a + 1) := by
    rw [yearStart]; unfold yearLength; split <;> omega
  omega

theorem lt_of_yearStart {a b : Nat} (h : yearStart a < yearStart b) : a < b := by
  by_contra hc
  have := yearStart_mono (Nat.le_of_not_lt hc)
  omega

/-- Length of a century. -/
def centuryLength (y : Nat) : Nat := if isLeap y then 36525 else 36524

theorem centuryLength_cases (y : Nat) : centuryLength y = 36525 ∨ centuryLength y = 36524 := by
  unfold centuryLength; split <;> simp

theorem century (y : Nat) (h : y % 100 = 0) :
    yearStart (y + 100) = yearStart y + centuryLength y := by
  have h1 := yearStart_closed y
  have h2 := yearStart_closed (y + 100)
  unfold centuryLength isLeap
  split
  · rename_i h; simp only [decide_eq_true_eq] at h; omega
  · rename_i h; simp only [decide_eq_true_eq] at h; omega

theorem yearLength_cases (y : Nat) : yearLength y = 365 ∨ yearLength y = 366 := by
  unfold yearLength; split <;> simp

theorem monthStart_13 (y : Nat) : monthStart y 13 = yearLength y := by
  unfold yearLength
  simp only [monthStart, monthLength]
  split <;> simp

theorem monthStart_mono (y : Nat) {a b : Nat} (h : a ≤ b) : monthStart y a ≤ monthStart y b := by
  induction h with
  | refl => exact Nat.le_refl _
  | step _ ih => rw [monthStart]; omega

theorem getDaysInMonth_nat (y m : Nat) (h1 : 1 ≤ m) (h2 : m ≤ 12) :
    getDaysInMonth (y : Int) m = .ok (monthLength y m : Nat) := by
  unfold getDaysInMonth monthLength
  rw [isLeapYear_nat]
  have : m = 1 ∨ m = 2 ∨ m = 3 ∨ m = 4 ∨ m = 5 ∨ m = 6 ∨ m = 7 ∨ m = 8 ∨ m = 9 ∨ m = 10 ∨ m = 11
      ∨ m = 12 := by omega
  rcases this with rfl | rfl | rfl | rfl | rfl | rfl | rfl | rfl | rfl | rfl | rfl | rfl <;>
    simp <;> split <;> simp

theorem getDaysInYear_nat (y : Nat) (h : y < 10000) :
    getDaysInYear (y : Int) = .ok (yearLength y : Nat) := by
  unfold getDaysInYear daysInYearTable yearLength
  rw [if_pos (by omega)]
  rw [R.get_ok (by simpa using h)]
  simp only [Int.toNat_natCast, List.getElem_map, List.getElem_range, isLeapYear_nat]
  split <;> simp

theorem getDaysInCentury_nat (y : Nat) (h : y < 10000) :
    getDaysInCentury (y : Int) = .ok ((centuryLength (y / 100 * 100) : Nat) : Int) := by
  unfold centuryLength getDaysInCentury daysInCenturyTable
  rw [if_pos (by omega)]
  have e : ((y : Int).tdiv 100).toNat = y / 100 := by
    have : (y : Int).tdiv ((100 : Nat) : Int) = ((y / 100 : Nat) : Int) := by rw [Int.ofNat_tdiv]
    simp only [Nat.cast_ofNat] at this
    rw [this, Int.toNat_natCast]
  rw [e, R.get_ok (by simp; omega)]
  simp only [List.getElem_map, List.getElem_range]
  have : (100 * ((y / 100 : Nat) : Int)) = ((y / 100 * 100 : Nat) : Int) := by push_cast; ring
  rw [this, isLeapYear_nat]
  split <;> simp

/-! ## The loops, going forward from a date in year 0 to 9999

`C` is one more than the day number that is looked for. -/

variable {C : Nat}

theorem alignCentury_ok (count y n : Nat)
    (hy : y + count ≤ 9999) (hn : yearStart y + n = C) :
    ∃ y' n' : Nat, alignCentury false count (y : Int) (n : Int) = .ok ((y' : Int), (n' : Int)) ∧
      yearStart y' + n' = C ∧ y ≤ y' ∧ y' ≤ y + count ∧ (y' = y + count ∨ n' < yearLength y')
      ∧ (n' = 0 → y < y' ∨ n = 0) := by
  induction count generalizing y n with
  | zero => exact ⟨y, n, rfl, hn, by omega, by omega, .inl rfl, by omega⟩
  | succ count ih =>
    unfold alignCentury
    rw [getDaysInYear_nat y (by omega), R.ok_bind]
    by_cases h : (n : Int) < (yearLength y : Nat)
    · rw [if_pos h]
      exact ⟨y, n, rfl, hn, by omega, by omega, .inr (by exact_mod_cast h), by omega⟩
    · rw [if_neg h]
      have h' : yearLength y ≤ n := by omega
      unfold stepYear
      simp only [Bool.false_eq_true, if_false]
      rw [i16, if_pos (by omega), R.ok_bind]
      obtain ⟨y', n', e, h1, h2, h3, h4, h5⟩ := ih (y + 1) (n - yearLength y) (by omega)
        (by rw [yearStart]; omega)
      refine ⟨y', n', ?_, h1, by omega, by omega, by omega, by omega⟩
      rw [← e]
      congr 1
      omega

theorem skipCenturies_ok (hC : C ≤ yearStart 10000) (fuel y n : Nat) (hf : n < fuel)
    (hy : y < 10000) (hn : yearStart y + n = C) (hal : y % 100 = 0 ∨ n < yearLength y) :
    ∃ y' n' : Nat, skipCenturies false fuel (y : Int) (n : Int) = .ok ((y' : Int), (n' : Int)) ∧
      yearStart y' + n' = C ∧ y ≤ y' ∧ y' < 10000 ∧ (n' = 0 → n = 0) := by
  induction fuel generalizing y n with
  | zero => omega
  | succ fuel ih =>
    unfold skipCenturies
    rw [getDaysInCentury_nat y hy, R.ok_bind]
    have hL := yearLength_cases y
    have hcl := centuryLength_cases (y / 100 * 100)
    split
    · rename_i h
      have h100 : y % 100 = 0 := by omega
      rw [show y / 100 * 100 = y by omega] at h hcl ⊢
      have hc := century y h100
      have hlt : y + 100 < 10000 := by
        apply lt_of_yearStart
        omega
      unfold stepYear
      simp only [Bool.false_eq_true, if_false]
      rw [i16, if_pos (by omega), R.ok_bind]
      obtain ⟨y', n', e, h1, h2, h3, h4⟩ := ih (y + 100) (n - centuryLength y)
        (by omega) hlt (by omega) (.inl (by omega))
      refine ⟨y', n', ?_, h1, by omega, h3, by omega⟩
      rw [← e]
      congr 1
      omega
    · exact ⟨y, n, rfl, hn, by omega, hy, by omega⟩

theorem skipYears_ok (hC : C ≤ yearStart 10000) (fuel y n : Nat) (hf : n < fuel)
    (hy : y < 10000) (hn : yearStart y + n = C) :
    ∃ y' n' : Nat, skipYears false fuel (y : Int) (n : Int) = .ok ((y' : Int), (n' : Int)) ∧
      yearStart y' + n' = C ∧ y ≤ y' ∧ y' < 10000 ∧ n' ≤ yearLength y' ∧ (n' = 0 → n = 0) := by
  induction fuel generalizing y n with
  | zero => omega
  | succ fuel ih =>
    unfold skipYears
    rw [getDaysInYear_nat y hy, R.ok_bind]
    have hL := yearLength_cases y
    split
    · rename_i h
      have hc : yearStart (y + 1) = yearStart y + yearLength y := by rw [yearStart]
      have hlt : y + 1 < 10000 := by
        apply lt_of_yearStart
        omega
      unfold stepYear
      simp only [Bool.false_eq_true, if_false]
      rw [i16, if_pos (by omega), R.ok_bind]
      obtain ⟨y', n', e, h1, h2, h3, h4, h5⟩ := ih (y + 1) (n - yearLength y)
        (by omega) hlt (by omega)
      refine ⟨y', n', ?_, h1, by omega, h3, h4, by omega⟩
      rw [← e]
      congr 1
      omega
    · exact ⟨y, n, rfl, hn, by omega, hy, by omega, by omega⟩

theorem skipMonths_ok (fuel y m n d : Nat) (hf : n < fuel) (hm : 1 ≤ m) (hm' : m ≤ 12)
    (hd : d ≤ yearLength y) (hn : monthStart y m + n = d) :
    ∃ m' n' : Nat, skipMonths false fuel (y : Int) m (n : Int) = .ok ((y : Int), m', (n' : Int)) ∧
      monthStart y m' + n' = d ∧ 1 ≤ m' ∧ m' ≤ 12 ∧ n' ≤ monthLength y m' ∧ (n' = 0 → n = 0) := by
  induction fuel generalizing m n with
  | zero => omega
  | succ fuel ih =>
    unfold skipMonths
    rw [getDaysInMonth_nat y m hm hm', R.ok_bind]
    split
    · rename_i h
      have hc : monthStart y (m + 1) = monthStart y m + monthLength y m := by rw [monthStart]
      have h12 : m < 12 := by
        by_contra hc'
        have : m = 12 := by omega
        subst this
        rw [show monthStart y (12 + 1) = yearLength y from monthStart_13 y] at hc
        omega
      have hpos : 28 ≤ monthLength y m := by
        have : m = 1 ∨ m = 2 ∨ m = 3 ∨ m = 4 ∨ m = 5 ∨ m = 6 ∨ m = 7 ∨ m = 8 ∨ m = 9 ∨ m = 10
          ∨ m = 11 := by omega
        rcases this with rfl | rfl | rfl | rfl | rfl | rfl | rfl | rfl | rfl | rfl | rfl <;>
          simp [monthLength]
        split <;> omega
      simp only [Bool.false_eq_true, if_false]
      rw [if_neg (by omega), if_neg (by omega)]
      obtain ⟨m', n', e, h1, h2, h3, h4, h5⟩ := ih (m + 1) (n - monthLength y m)
        (by omega) (by omega) (by omega) (by omega)
      refine ⟨m', n', ?_, h1, h2, h3, h4, by omega⟩
      rw [← e]
      congr 1
      omega
    · exact ⟨m, n, rfl, hn, hm, hm', by omega, by omega⟩

theorem monthLength_le (y m : Nat) : monthLength y m ≤ 31 := by
  unfold monthLength
  split <;> (try split) <;> omega

/-- Going forward from 1 January of year `Y`. -/
theorem getDateValues_ok (Y n : Nat) (hY : Y ≤ 9899) (hn : yearStart Y + n < yearStart 10000) :
    ∃ y m d : Nat, getDateValues (n : Int) ⟨Y, 1, 1⟩ = .ok ((y : Int), m, d) ∧
      validDate y m d ∧ y < 10000 ∧ dayNumber y m d = yearStart Y + n := by
  have hbig : yearStart 10000 ≤ 4000000 := by
    have := yearStart_closed 10000
    omega
  have hstart : dateStart (n : Int) ⟨Y, 1, 1⟩ = .ok ((Y : Int), 1, ((n + 1 : Nat) : Int)) := by
    unfold dateStart
    rw [if_neg (by omega)]
    simp only [R.addI64]
    rw [if_pos (by constructor <;> push_cast <;> omega), R.ok_bind, R.pure_eq]
    push_cast
    rfl
  have hal : ∀ f, alignMonth false (f + 1) (Y : Int) 1 ((n + 1 : Nat) : Int)
      = .ok ((Y : Int), 1, ((n + 1 : Nat) : Int)) := by
    intro f; simp [alignMonth]
  obtain ⟨y1, n1, e1, a1, b1, c1, d1, z1⟩ :=
    alignCentury_ok (C := yearStart Y + (n + 1)) (100 - Y % 100) Y (n + 1) (by omega) rfl
  obtain ⟨y2, n2, e2, a2, b2, c2, z2⟩ :=
    skipCenturies_ok (by omega) (n1 + 1) y1 n1 (by omega) (by omega) a1 (by omega)
  obtain ⟨y3, n3, e3, a3, b3, c3, d3, z3⟩ :=
    skipYears_ok (by omega) (n2 + 1) y2 n2 (by omega) c2 a2
  have ms1 : monthStart y3 1 = 0 := by simp [monthStart, monthLength]
  obtain ⟨m4, n4, e4, a4, b4, c4, d4, z4⟩ :=
    skipMonths_ok (n3 + 1) y3 1 n3 n3 (by omega) (by omega) (by omega) d3 (by omega)
  have hm := monthLength_le y3 m4
  have hrem : (((Y : Int) % 2 ^ 64).toNat % 100) = Y % 100 := by omega
  have key : getDateValues (n : Int) ⟨Y, 1, 1⟩ = dateEnd false (y3 : Int) m4 (n4 : Int) := by
    unfold getDateValues
    rw [hstart, R.ok_bind]
    have hb : decide ((n : Int) < 0) = false := by simp
    simp only [hb]
    rw [hal, R.ok_bind]
    simp only
    rw [hrem, e1, R.ok_bind]
    simp only [Int.toNat_natCast]
    rw [e2, R.ok_bind]
    simp only [Int.toNat_natCast]
    rw [e3, R.ok_bind]
    simp only [Int.toNat_natCast]
    rw [e4, R.ok_bind]
  rw [key]
  unfold dateEnd
  simp only [Bool.false_eq_true, if_false]
  by_cases h0 : n4 = 0
  · have hn3 := z4 h0
    have hn2 := z3 hn3
    have hn1 := z2 hn2
    have hY1 : Y < y1 := by
      rcases z1 hn1 with h | h <;> omega
    rw [if_pos (by omega)]
    rw [i16, if_pos (by omega), R.ok_bind]
    refine ⟨y3 - 1, 12, 31, ?_, ⟨by omega, by omega, by omega, by simp [monthLength]⟩, by omega, ?_⟩
    · rw [R.pure_eq, show (y3 : Int) - 1 = ((y3 - 1 : Nat) : Int) by omega]
    · have e : y3 = (y3 - 1) + 1 := by omega
      have h1 : yearStart y3 = yearStart (y3 - 1) + yearLength (y3 - 1) := by
        conv_lhs => rw [e, yearStart]
      have h2 := monthStart_13 (y3 - 1)
      rw [monthStart] at h2
      simp only [dayNumber]
      have : monthLength (y3 - 1) 12 = 31 := rfl
      omega
  · rw [if_neg (by omega)]
    refine ⟨y3, m4, n4, ?_, ⟨by omega, by omega, by omega, d4⟩, c3, ?_⟩
    · rw [R.pure_eq, show ((n4 : Int) % 256).toNat = n4 by omega]
    · simp only [dayNumber]; omega

theorem monthLength_ge (y m : Nat) (h1 : 1 ≤ m) (h2 : m ≤ 12) : 28 ≤ monthLength y m := by
  have : m = 1 ∨ m = 2 ∨ m = 3 ∨ m = 4 ∨ m = 5 ∨ m = 6 ∨ m = 7 ∨ m = 8 ∨ m = 9 ∨ m = 10
    ∨ m = 11 ∨ m = 12 := by omega
  rcases this with rfl | rfl | rfl | rfl | rfl | rfl | rfl | rfl | rfl | rfl | rfl | rfl <;>
    simp [monthLength]
  split <;> omega

/-! ## Going back, within the year before the epoch -/

theorem alignMonth_back (fuel y m n : Nat) (hf : n < fuel) (hm : 1 ≤ m) (hm' : m ≤ 12)
    (hn : n < monthStart y (m + 1)) :
    ∃ m' n' : Nat, alignMonth true fuel (y : Int) m (n : Int) = .ok ((y : Int), m', (n' : Int)) ∧
      monthStart y (m' + 1) + n = monthStart y (m + 1) + n' ∧ 1 ≤ m' ∧ m' ≤ 12 ∧
      n' < monthLength y m' := by
  induction fuel generalizing m n with
  | zero => omega
  | succ fuel ih =>
    unfold alignMonth
    by_cases hm1 : m > 1
    · rw [if_pos hm1, getDaysInMonth_nat y m hm hm', R.ok_bind]
      split
      · exact ⟨m, n, rfl, by omega, hm, hm', by omega⟩
      · rename_i h
        have hpos := monthLength_ge y m hm hm'
        simp only [if_true]
        rw [if_neg (by omega)]
        have e : monthStart y (m + 1) = monthStart y m + monthLength y m := by rw [monthStart]
        obtain ⟨m', n', e', h1, h2, h3, h4⟩ := ih (m - 1) (n - monthLength y m) (by omega) (by omega)
          (by omega) (by rw [show m - 1 + 1 = m by omega]; omega)
        rw [show m - 1 + 1 = m by omega] at h1
        refine ⟨m', n', ?_, by omega, h2, h3, h4⟩
        rw [← e']
        congr 1
        omega
    · have : m = 1 := by omega
      subst this
      rw [if_neg (by omega)]
      have : monthStart y (1 + 1) = monthLength y 1 := by simp [monthStart, monthLength]
      exact ⟨1, n, rfl, by omega, by omega, by omega, by omega⟩

theorem getDateValues_back (Y k : Nat) (hY : Y + 1 < 10000) (hk : 1 ≤ k) (hk' : k ≤ yearLength Y) :
    ∃ m d : Nat, getDateValues (-(k : Int)) ⟨(Y + 1 : Nat), 1, 1⟩ = .ok ((Y : Int), m, d) ∧
      validDate Y m d ∧ dayNumber Y m d + k = yearStart (Y + 1) := by
  have hL := yearLength_cases Y
  have hstart : dateStart (-(k : Int)) ⟨(Y + 1 : Nat), 1, 1⟩
      = .ok ((Y : Int), 12, ((k - 1 : Nat) : Int)) := by
    unfold dateStart
    rw [if_pos (by omega)]
    simp only [R.addI64]
    rw [if_pos (by constructor <;> push_cast <;> omega), R.ok_bind]
    rw [show R.subU 1 1 = .ok 0 from rfl, R.ok_bind]
    rw [if_pos (by constructor <;> push_cast <;> omega), R.ok_bind]
    simp only [if_true]
    rw [i16, if_pos (by constructor <;> push_cast <;> omega), R.ok_bind, R.pure_eq]
    rw [show ((Y + 1 : Nat) : Int) - 1 = (Y : Int) by omega,
      show (0 : Int) + (-(k : Int) + (1 : Nat)) * -1 = ((k - 1 : Nat) : Int) by omega]
  have h13 := monthStart_13 Y
  obtain ⟨m, n, e1, h1, h2, h3, h4⟩ := alignMonth_back (k - 1 + 1) Y 12 (k - 1) (by omega) (by omega)
    (by omega) (by rw [show monthStart Y (12 + 1) = yearLength Y from h13]; omega)
  have hml := monthLength_le Y m
  have hrem : ∃ c, 100 - (((Y : Int) % 2 ^ 64).toNat % 100) = c + 1 :=
    ⟨99 - (((Y : Int) % 2 ^ 64).toNat % 100), by omega⟩
  obtain ⟨c, hc⟩ := hrem
  have hcl := centuryLength_cases (Y / 100 * 100)
  refine ⟨m, monthLength Y m - n, ?_, ⟨h2, h3, by omega, by omega⟩, ?_⟩
  · unfold getDateValues
    rw [hstart, R.ok_bind]
    have hb : decide (-(k : Int) < 0) = true := by simp; omega
    simp only [hb, Int.toNat_natCast]
    rw [e1, R.ok_bind]
    simp only
    rw [hc, alignCentury, getDaysInYear_nat Y (by omega), R.ok_bind, if_pos (by omega), R.pure_eq,
      R.ok_bind]
    simp only [Int.toNat_natCast]
    rw [skipCenturies, getDaysInCentury_nat Y (by omega), R.ok_bind, if_neg (by omega), R.pure_eq,
      R.ok_bind]
    simp only [Int.toNat_natCast]
    rw [skipYears, getDaysInYear_nat Y (by omega), R.ok_bind, if_neg (by omega), R.pure_eq,
      R.ok_bind]
    simp only [Int.toNat_natCast]
    rw [skipMonths, getDaysInMonth_nat Y m h2 h3, R.ok_bind, if_neg (by omega), R.pure_eq,
      R.ok_bind]
    simp only
    rw [dateEnd, if_pos rfl, getDaysInMonth_nat Y m h2 h3, R.ok_bind, R.pure_eq,
      show (((monthLength Y m : Nat) : Int) - (n : Int)) % 256 = ((monthLength Y m - n : Nat) : Int) by
        omega, Int.toNat_natCast]
  · have e : yearStart (Y + 1) = yearStart Y + yearLength Y := by rw [yearStart]
    rw [show monthStart Y (12 + 1) = yearLength Y from h13] at h1
    rw [monthStart] at h1
    simp only [dayNumber]
    omega

/-! ## Text -/

theorem decDigits_eq (w v : Nat) : decDigits w v = digits w v := by
  induction w generalizing v with
  | zero => rfl
  | succ w ih =>
    unfold decDigits digits
    rw [ih]
    congr 2
    have h : ∀ d, d < 10 → Nat.digitChar d = Char.ofNat (48 + d) := by decide
    exact h _ (Nat.mod_lt _ (by omega))

theorem formatDec_eq {w v : Nat} (hw : 0 < w) (hv : v < 10 ^ w) : formatDec w v = digits w v := by
  unfold formatDec
  rw [Nat.max_eq_left ((Nat.length_toDigits_le_iff (by decide) hw).mpr hv), decDigits_eq]

theorem formatInt_eq {w v : Nat} (hw : 0 < w) (hv : v < 10 ^ w) :
    formatInt w (v : Int) = digits w v := by
  unfold formatInt
  rw [if_neg (by omega), Int.natAbs_natCast, formatDec_eq hw hv]

theorem formatDate_eq {y m d : Nat} (hy : y < 10000) (hm : m < 100) (hd : d < 100) :
    formatDate (y : Int) m d = dateText y m d := by
  unfold formatDate dateText
  rw [formatInt_eq (by omega) (by omega), formatDec_eq (by omega) (by omega),
    formatDec_eq (by omega) (by omega)]

theorem formatTime_eq {h m s : Nat} (hh : h < 100) (hm : m < 100) (hs : s < 100) :
    formatTime h m s = timeText h m s := by
  unfold formatTime timeText
  rw [formatDec_eq (by omega) (by omega), formatDec_eq (by omega) (by omega),
    formatDec_eq (by omega) (by omega)]

end Keramics.DateTime
