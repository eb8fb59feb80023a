import Verif.Model.Calendar

/-!
Specification of the proleptic Gregorian calendar by day counts (the formulas of the standard library's `datetime`
module, `_days_before_year` and `_days_before_month`), and the proof that the day by day calendar of the model agrees.
-/

namespace Verif.CalendarSpec

open Verif.Time

/-- Specification: a leap year is divisible by 4 but not by 100, or divisible by 400. -/
def Leap (y : Nat) : Prop := (4 ∣ y ∧ ¬ 100 ∣ y) ∨ 400 ∣ y

instance (y : Nat) : Decidable (Leap y) := by unfold Leap; infer_instance

/-- Specification: number of days from 0001-01-01 to the first of January of year `y`. -/
def daysBeforeYear (y : Nat) : Nat := 365 * (y - 1) + (y - 1) / 4 - (y - 1) / 100 + (y - 1) / 400

/-- Specification: number of days from the first of January to the first of month `m`. -/
def daysBeforeMonth (y m : Nat) : Nat :=
  [0, 0, 31, 59, 90, 120, 151, 181, 212, 243, 273, 304, 334].getD m 0 + if 2 < m ∧ Leap y then 1 else 0

/-- Specification: the day number of the first of a month. -/
def firstOfMonth (y m : Nat) : Nat := daysBeforeYear y + daysBeforeMonth y m

theorem isLeap_iff (y : Nat) : isLeap y = true ↔ Leap y := by
  unfold isLeap Leap
  simp only [Bool.or_eq_true, Bool.and_eq_true, beq_iff_eq, bne_iff_ne, Nat.dvd_iff_mod_eq_zero, ne_eq]

theorem daysBeforeYear_succ (y : Nat) (h : 1 ≤ y) :
    daysBeforeYear (y + 1) = daysBeforeYear y + 365 + if Leap y then 1 else 0 := by
  unfold daysBeforeYear
  by_cases hl : Leap y
  · rw [if_pos hl]; unfold Leap at hl; omega
  · rw [if_neg hl]; unfold Leap at hl; omega

theorem daysBeforeYear_mono {y y' : Nat} (h : 1 ≤ y) (hlt : y < y') :
    daysBeforeYear y + 365 + (if Leap y then 1 else 0) ≤ daysBeforeYear y' := by
  induction y' with
  | zero => omega
  | succ k ih =>
    by_cases hk : y = k
    · subst hk; rw [daysBeforeYear_succ y h]; exact Nat.le_refl _
    · have := ih (by omega)
      rw [daysBeforeYear_succ k (by omega)]
      split <;> omega

/-- The month lengths add up. -/
theorem daysBeforeMonth_succ (y m : Nat) (h1 : 1 ≤ m) (h2 : m < 12) :
    daysBeforeMonth y (m + 1) = daysBeforeMonth y m + daysInMonth y m := by
  have hl := isLeap_iff y
  have hm : m = 1 ∨ m = 2 ∨ m = 3 ∨ m = 4 ∨ m = 5 ∨ m = 6 ∨ m = 7 ∨ m = 8 ∨ m = 9 ∨ m = 10 ∨ m = 11 := by omega
  unfold daysBeforeMonth daysInMonth
  by_cases h : Leap y
  · have := hl.2 h
    rcases hm with rfl | rfl | rfl | rfl | rfl | rfl | rfl | rfl | rfl | rfl | rfl <;> simp [h, this]
  · have : isLeap y = false := by simpa using fun h' => h (hl.1 h')
    rcases hm with rfl | rfl | rfl | rfl | rfl | rfl | rfl | rfl | rfl | rfl | rfl <;> simp [h, this]

theorem daysBeforeMonth_last (y : Nat) :
    daysBeforeMonth y 12 + daysInMonth y 12 = 365 + if Leap y then 1 else 0 := by
  unfold daysBeforeMonth daysInMonth
  by_cases h : Leap y <;> simp [h]

theorem daysBeforeMonth_mono (y : Nat) {m m' : Nat} (h1 : 1 ≤ m) (hlt : m < m') (h2 : m' ≤ 12) :
    daysBeforeMonth y m + daysInMonth y m ≤ daysBeforeMonth y m' := by
  induction m' with
  | zero => omega
  | succ k ih =>
    by_cases hk : m = k
    · subst hk; rw [daysBeforeMonth_succ y m h1 (by omega)]; exact Nat.le_refl _
    · have := ih (by omega) (by omega)
      rw [daysBeforeMonth_succ y k (by omega) (by omega)]
      omega

theorem daysInMonth_pos (y m : Nat) : 1 ≤ daysInMonth y m := by
  unfold daysInMonth
  split
  · split <;> omega
  · split <;> omega

/-- The day of the year is smaller than the length of the year. -/
theorem dayOfYear_lt (y m d : Nat) (h1 : 1 ≤ m) (h2 : m ≤ 12) (hd : d ≤ daysInMonth y m) (hd1 : 1 ≤ d) :
    daysBeforeMonth y m + (d - 1) < 365 + if Leap y then 1 else 0 := by
  rw [← daysBeforeMonth_last]
  by_cases h : m = 12
  · subst h; omega
  · have := daysBeforeMonth_mono y h1 (show m < 12 by omega) (Nat.le_refl _)
    have := daysInMonth_pos y 12
    omega

/-- The model's calendar date of day `n` is a valid date, and `n` is its day count. -/
theorem civil_spec (n : Nat) : ∃ y m d, civil n = (y, m, d) ∧ 1 ≤ y ∧ 1 ≤ m ∧ m ≤ 12 ∧ 1 ≤ d ∧ d ≤ daysInMonth y m ∧
    n = firstOfMonth y m + (d - 1) := by
  induction n with
  | zero => exact ⟨1, 1, 1, rfl, by decide, by decide, by decide, by decide, by decide, by decide⟩
  | succ n ih =>
    obtain ⟨y, m, d, e, hy, h1, h2, h3, h4, h5⟩ := ih
    have hc : civil (n + 1) = nextDay (y, m, d) := by rw [← e]; rfl
    rw [hc]
    unfold nextDay
    simp only
    unfold firstOfMonth at *
    split
    · exact ⟨y, m, d + 1, rfl, hy, h1, h2, by omega, by omega, by omega⟩
    · split
      · refine ⟨y, m + 1, 1, rfl, hy, by omega, by omega, by omega, daysInMonth_pos _ _, ?_⟩
        rw [daysBeforeMonth_succ y m h1 (by omega)]
        omega
      · have hm : m = 12 := by omega
        subst hm
        have hl := daysBeforeMonth_last y
        refine ⟨y + 1, 1, 1, rfl, by omega, by omega, by omega, by omega, daysInMonth_pos _ _, ?_⟩
        rw [daysBeforeYear_succ y hy]
        have : daysBeforeMonth (y + 1) 1 = 0 := by simp [daysBeforeMonth]
        omega

/-- Day counts of valid dates are different for different dates. -/
theorem dayCount_inj {y m d y' m' d' : Nat} (hy : 1 ≤ y) (h1 : 1 ≤ m) (h2 : m ≤ 12) (h3 : 1 ≤ d)
    (h4 : d ≤ daysInMonth y m) (hy' : 1 ≤ y') (h1' : 1 ≤ m') (h2' : m' ≤ 12) (h3' : 1 ≤ d')
    (h4' : d' ≤ daysInMonth y' m') (h : firstOfMonth y m + (d - 1) = firstOfMonth y' m' + (d' - 1)) :
    y = y' ∧ m = m' ∧ d = d' := by
  unfold firstOfMonth at h
  have b1 := dayOfYear_lt y m d h1 h2 h4 h3
  have b2 := dayOfYear_lt y' m' d' h1' h2' h4' h3'
  have ey : y = y' := by
    rcases Nat.lt_trichotomy y y' with hlt | he | hlt
    · have := daysBeforeYear_mono hy hlt; omega
    · exact he
    · have := daysBeforeYear_mono hy' hlt; omega
  subst ey
  have em : m = m' := by
    rcases Nat.lt_trichotomy m m' with hlt | he | hlt
    · have := daysBeforeMonth_mono y h1 hlt h2'; omega
    · exact he
    · have := daysBeforeMonth_mono y h1' hlt h2; omega
  subst em
  exact ⟨rfl, rfl, by omega⟩

/-- The model's calendar is the Gregorian calendar. -/
theorem civil_iff (n y m d : Nat) (hy : 1 ≤ y) (h1 : 1 ≤ m) (h2 : m ≤ 12) (h3 : 1 ≤ d) (h4 : d ≤ daysInMonth y m) :
    civil n = (y, m, d) ↔ n = firstOfMonth y m + (d - 1) := by
  obtain ⟨y', m', d', e, hy', h1', h2', h3', h4', h5'⟩ := civil_spec n
  rw [e]
  constructor
  · intro h
    simp only [Prod.mk.injEq] at h
    obtain ⟨rfl, rfl, rfl⟩ := h
    exact h5'
  · intro h
    obtain ⟨rfl, rfl, rfl⟩ := dayCount_inj hy h1 h2 h3 h4 hy' h1' h2' h3' h4' (h.symm.trans h5')
    rfl

/-- Specification: day `n` is the first day of a year. -/
def YearStart (n : Nat) : Prop := ∃ y, 1 ≤ y ∧ n = daysBeforeYear y

/-- Specification: day `n` is the first day of a month. -/
def MonthStart (n : Nat) : Prop := ∃ y m, 1 ≤ y ∧ 1 ≤ m ∧ m ≤ 12 ∧ n = firstOfMonth y m

theorem year_day (n : Nat) : isFreqDay .year n = true ↔ YearStart n := by
  unfold isFreqDay YearStart
  simp only [Bool.and_eq_true, beq_iff_eq]
  constructor
  · obtain ⟨y, m, d, e, hy, h1, h2, h3, h4, h5⟩ := civil_spec n
    rw [e]
    rintro ⟨rfl, rfl⟩
    exact ⟨y, hy, by simpa [firstOfMonth, daysBeforeMonth] using h5⟩
  · rintro ⟨y, hy, h⟩
    have := (civil_iff n y 1 1 hy (by decide) (by decide) (by decide) (daysInMonth_pos _ _)).2
      (by simpa [firstOfMonth, daysBeforeMonth] using h)
    rw [this]
    exact ⟨rfl, rfl⟩

theorem month_day (n : Nat) : isFreqDay .month n = true ↔ MonthStart n := by
  unfold isFreqDay MonthStart
  simp only [beq_iff_eq]
  constructor
  · obtain ⟨y, m, d, e, hy, h1, h2, h3, h4, h5⟩ := civil_spec n
    rw [e]
    rintro rfl
    exact ⟨y, m, hy, h1, h2, by simpa using h5⟩
  · rintro ⟨y, m, hy, h1, h2, h⟩
    have := (civil_iff n y m 1 hy h1 h2 (by decide) (daysInMonth_pos _ _)).2 (by simpa using h)
    rw [this]

/-- Specification: the days of a frequency. -/
def FreqDay : Frequency → Nat → Prop
  | .none, _ => False
  | .year, n => YearStart n
  | .month, n => MonthStart n
  | .day, _ => True

theorem freq_day (f : Frequency) (n : Nat) : isFreqDay f n = true ↔ FreqDay f n := by
  cases f with
  | none => simp [isFreqDay, FreqDay]
  | year => exact year_day n
  | month => exact month_day n
  | day => simp [isFreqDay, FreqDay]

end Verif.CalendarSpec
