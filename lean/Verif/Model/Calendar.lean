import Verif.Model.Time

/-! # Model of frequency dates and reporting periods (`time_utils.py:245-335`) -/

namespace Verif.Time

/-- Microseconds in a day (`timedelta(days=1)`). -/
def usPerDay : Int := 86400 * 1000000

/-- Gregorian leap year rule. -/
def isLeap (y : Nat) : Bool := (y % 4 == 0 && y % 100 != 0) || y % 400 == 0

/-- Number of days in a month. -/
def daysInMonth (y m : Nat) : Nat :=
  if m == 2 then (if isLeap y then 29 else 28)
  else if m == 4 || m == 6 || m == 9 || m == 11 then 30 else 31

/-- The calendar date following `(y, m, d)`. -/
def nextDay : Nat × Nat × Nat → Nat × Nat × Nat
  | (y, m, d) =>
    if d < daysInMonth y m then (y, m, d + 1)
    else if m < 12 then (y, m + 1, 1)
    else (y + 1, 1, 1)

/-- Proleptic Gregorian date of day number `n` (day 0 is 0001-01-01), as used by `datetime`. -/
def civil : Nat → Nat × Nat × Nat
  | 0 => (1, 1, 1)
  | n + 1 => nextDay (civil n)

/-- `class Frequency` (time_utils.py:245-256). -/
inductive Frequency where
  | none | year | month | day
  deriving DecidableEq, Repr

/-- Whether day number `n` is a date of the frequency: `YS` year start, `MS` month start, `D` every day.
(`none` has no dates; it is handled before.) -/
def isFreqDay : Frequency → Nat → Bool
  | .none, _ => false
  | .year, n => (civil n).2.1 == 1 && (civil n).2.2 == 1
  | .month, n => (civil n).2.2 == 1
  | .day, _ => true

/-- `clear_time` (time_utils.py:334-335): midnight of the same day. -/
def clearTime (d : DateTime) : DateTime := d / usPerDay * usPerDay

/-- Number of the day of a moment. -/
def dayNumber (d : DateTime) : Nat := (d / usPerDay).toNat

/-- `pd.date_range(start, end, freq)` (time_utils.py:323): pandas starts at the first frequency day on or
after the day of `start`, keeps the time of day of `start`, and stops after `end`.
(Simplification: pandas' own time stamp range, years 1678-2261, is not modelled.) -/
def dateRange (start stop : DateTime) (freq : Frequency) : List DateTime :=
  let tod := start - clearTime start
  ((List.range (dayNumber stop + 1)).filter (fun k =>
      decide (dayNumber start ≤ k) && isFreqDay freq k
        && decide ((k : Int) * usPerDay + tod ≤ stop))).map (fun (k : Nat) => (k : Int) * usPerDay + tod)

/-- Insert into a strictly increasing list, keeping it strictly increasing. -/
def insertUnique (x : Int) : List Int → List Int
  | [] => [x]
  | y :: ys => if x < y then x :: y :: ys else if x = y then y :: ys else y :: insertUnique x ys

/-- `sorted(set(xs))`: the strictly increasing list of the distinct elements. -/
def sortedSet (xs : List Int) : List Int := xs.foldr insertUnique []

/-- `create_start_and_end_dates_for_periods` (time_utils.py:303-331). -/
def createStartAndEndDates (freq : Frequency) (start stop : DateTime) (includeStart includeEnd : Bool) :
    List DateTime :=
  let range := (dateRange (start + usPerDay) (stop - usPerDay) freq).map clearTime
  let steps := if includeStart then clearTime start :: range else range
  let steps := if includeEnd then clearTime stop :: steps else steps
  sortedSet steps

/-- `resample_periods` (time_utils.py:268-300). IndexError on an empty list of periods. -/
def resamplePeriods (ps : Periods) (freq : Frequency) (includeStart includeEnd : Bool) : Except Err Periods :=
  if freq = .none then .ok ps
  else match ps.head?, ps.getLast? with
    | some f, some l =>
      .ok (Periods.createPeriods (createStartAndEndDates freq f.start l.stop includeStart includeEnd) false false)
    | _, _ => .error .indexError

end Verif.Time
