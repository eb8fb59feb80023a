import Mathlib.Algebra.Order.Field.Rat
import Verif.Model.Calendar
import Verif.Model.Units

/-!
# Model of `libecalc/common/utils/rates.py` (time series, rates, volumes)

Floats are `Option ℚ`: `none` stands for NaN (and for the infinities numpy produces when dividing by
zero). Everything else is exact.
-/

namespace Verif.Rates
open Verif.Time Verif.Units

/-- A float: `none` is "not a (finite) number". -/
abbrev Fl := Option ℚ

/-- Arithmetic is NaN as soon as one operand is. -/
def Fl.add (a b : Fl) : Fl := a.bind fun x => b.map fun y => x + y
@[inherit_doc Fl.add] def Fl.sub (a b : Fl) : Fl := a.bind fun x => b.map fun y => x - y
@[inherit_doc Fl.add] def Fl.mul (a b : Fl) : Fl := a.bind fun x => b.map fun y => x * y
/-- Division; a zero divisor gives inf/NaN in numpy, i.e. `none`. -/
def Fl.div (a b : Fl) : Fl := a.bind fun x => b.bind fun y => if y = 0 then none else some (x / y)

/-- `np.nan_to_num` (infinities, which numpy turns into the largest float, are treated like NaN). -/
def nanToNum (a : Fl) : Fl := some (a.getD 0)

/-- numpy element-wise binary operation: equal lengths, or one side of length one is broadcast,
otherwise ValueError. -/
def npOp (f : Fl → Fl → Fl) (xs ys : List Fl) : Except Err (List Fl) :=
  if xs.length = ys.length then .ok (List.zipWith f xs ys)
  else match xs, ys with
    | [x], _ => .ok (ys.map (f x))
    | _, [y] => .ok (xs.map (fun x => f x y))
    | _, _ => .error .valueError

/-- `class RateType` (rates.py:27-29). -/
inductive RateType where
  | streamDay | calendarDay
  deriving DecidableEq, Repr

/-- `Rates.to_stream_day` for one value: `np.divide(..., out=zeros, where=regularity != 0)`
(rates.py:45-46). -/
def streamDayValue (rate reg : Fl) : Fl := if reg = some 0 then some 0 else Fl.div rate reg

/-- `Rates.to_stream_day` (rates.py:33-46). -/
def toStreamDay (rates reg : List Fl) : Except Err (List Fl) := npOp streamDayValue rates reg

/-- `Rates.to_calendar_day` (rates.py:48-61). -/
def toCalendarDay (rates reg : List Fl) : Except Err (List Fl) := npOp Fl.mul rates reg

/-- `(end - start).total_seconds() / SECONDS_IN_A_DAY` (rates.py:82). -/
def durationDays (p : Period) : ℚ := ((p.stop - p.start : Int) : ℚ) / 1000000 / 86400

/-- `Rates.to_volumes` (rates.py:63-86). -/
def toVolumes (rates : List Fl) (ps : Periods) : Except Err (List Fl) :=
  npOp Fl.mul rates (ps.map fun p => some (durationDays p))

/-- `np.nancumsum` with a running start value. -/
def nancumsumFrom (acc : ℚ) : List Fl → List Fl
  | [] => []
  | v :: vs => some (acc + v.getD 0) :: nancumsumFrom (acc + v.getD 0) vs

/-- `Rates.compute_cumulative` (rates.py:88-99). -/
def computeCumulative (vs : List Fl) : List Fl := nancumsumFrom 0 vs

/-- `Rates.compute_cumulative_volumes_from_daily_rates` (rates.py:101-119). -/
def cumulativeFromDailyRates (rates : List Fl) (ps : Periods) : Except Err (List Fl) :=
  if rates.length = 0 then .error .valueError
  else do
    let v ← toVolumes rates ps
    return computeCumulative v

/-- `elementwise_sum` of two vectors (list_utils.py:65-81). -/
def elementwiseSum (xs ys : List Fl) : Except Err (List Fl) := npOp Fl.add (xs.map nanToNum) (ys.map nanToNum)

/-- `calculate_delta_days` (time_utils.py:20-21): differences of consecutive dates in days. -/
def deltaDays : List DateTime → List ℚ
  | [] => []
  | [_] => []
  | a :: b :: rest => ((b - a : Int) : ℚ) / 1000000 / 86400 :: deltaDays (b :: rest)

/-! ## `TimeSeries` -/

/-- `class TimeSeries` (rates.py:122-126). -/
structure TS (α : Type) where
  periods : Periods
  values : List α
  unit : EUnit
  deriving DecidableEq

namespace TS
variable {α : Type}

/-- Construction with the validator `period_values_one_to_one` (rates.py:128-140). -/
def make (ps : Periods) (vs : List α) (u : EUnit) : Except Err (TS α) :=
  if ps.length = vs.length then .ok ⟨ps, vs, u⟩ else .error .valueError

/-- `first_date` (rates.py:157-159). -/
def firstDate (s : TS α) : Except Err DateTime := (Periods.period s.periods).map (·.start)

/-- `last_date` (rates.py:161-163). -/
def lastDate (s : TS α) : Except Err DateTime := (Periods.period s.periods).map (·.stop)

/-- `TimeSeries.extend` (rates.py:210-236). -/
def extend (s o : TS α) : Except Err (TS α) :=
  if s.unit ≠ o.unit then .error .valueError
  else if s.values.length > 0 ∧ o.values.length > 0 then do
    let sf ← s.firstDate
    let sl ← s.lastDate
    let of ← o.firstDate
    let ol ← o.lastDate
    if sl ≠ of ∧ sf ≠ ol then .error .valueError
    else if sl = of then make (s.periods ++ o.periods) (s.values ++ o.values) s.unit
    else make (o.periods ++ s.periods) (o.values ++ s.values) s.unit
  else make (o.periods ++ s.periods) (o.values ++ s.values) s.unit

/-- `TimeSeries.merge` (rates.py:238-276). -/
def merge (s o : TS α) : Except Err (TS α) :=
  if s.unit ≠ o.unit then .error .valueError
  else do
    let sp ← Periods.period s.periods
    let op ← Periods.period o.periods
    if Period.intersects sp op then .error .valueError
    else if sp.start ≠ op.stop ∧ sp.stop ≠ op.start then .error .valueError
    else if sp.start < op.stop then make (s.periods ++ o.periods) (s.values ++ o.values) s.unit
    else make (o.periods ++ s.periods) (o.values ++ s.values) s.unit

/-- `TimeSeries.for_period` (rates.py:281-301). -/
def forPeriod (s : TS α) (p : Period) : Except Err (TS α) := do
  let ds ← Periods.allDates s.periods
  if p.start ∉ ds ∨ p.stop ∉ ds then .error .valueError
  else do
    let (i, j) ← Period.getPeriodIndices p s.periods
    make (Periods.slice s.periods i j) (Periods.slice s.values i j) s.unit

/-- `TimeSeries.for_periods` (rates.py:303-324). -/
def forPeriods (s : TS α) (ps : Periods) : Except Err (TS α) := do
  let ds ← if ps = [] then .ok [] else Periods.allDates s.periods
  if ps.all (fun p => decide (p.start ∈ ds) && decide (p.stop ∈ ds)) then do
    let whole ← Periods.period ps
    let (i, j) ← Period.getPeriodIndices whole s.periods
    make (Periods.slice s.periods i j) (Periods.slice s.values i j) s.unit
  else .error .valueError

/-- `TimeSeries.__getitem__` with a slice `[i:j]`, non-negative bounds (rates.py:338-341). -/
def getSlice (s : TS α) (i j : Nat) : Except Err (TS α) :=
  make (Periods.slice s.periods i j) (Periods.slice s.values i j) s.unit

/-- `TimeSeries.to_unit` (rates.py:326-329) for floats. -/
def toUnit (s : TS Fl) (u : EUnit) : Except Err (TS Fl) :=
  if u = s.unit then .ok s
  else match EUnit.to s.unit u with
    | .error _ => if s.values = [] then .ok { s with unit := u } else .error .notImplemented
    | .ok f => .ok { s with values := s.values.map (fun v => v.map f), unit := u }

/-- `TimeSeries.fill_values_for_new_periods` (rates.py:379-398). The dict keeps insertion order, so
duplicate new periods collapse to one value (and then fail validation). -/
def fillValuesForNewPeriods (s : TS α) (newPs : Periods) (fill : α) : Except Err (TS α) :=
  if s.periods.all (fun p => decide (p ∈ newPs)) then
    let d0 : List (Period × α) := newPs.foldl (fun d p => dictSet p fill d) []
    let d1 := (s.periods.zip s.values).foldl
      (fun d pv => if pv.1 ∈ d.map (·.1) then dictSet pv.1 pv.2 d else d) d0
    make newPs (d1.map (·.2)) s.unit
  else .error .valueError

/-- Forward fill of `pandas`: missing values take the previous present value. -/
def ffill (prev : Option α) : List (Option α) → List (Option α)
  | [] => []
  | none :: vs => prev :: ffill prev vs
  | some v :: vs => some v :: ffill (some v) vs

/-- `TimeSeries.resample` (rates.py:181-208): values at exactly matching start dates, then forward fill.
The result values are optional: `none` is the NaN pandas leaves in front. -/
def resample (s : TS α) (freq : Frequency) (incStart incEnd : Bool) : Except Err (TS (Option α)) :=
  if freq = .none then .ok ⟨s.periods, s.values.map some, s.unit⟩
  else do
    let nps ← resamplePeriods s.periods freq incStart incEnd
    let points := (Periods.startDates s.periods).zip s.values
    make nps (ffill none ((Periods.startDates nps).map (fun d => (points.find? (fun dv => dv.1 == d)).map (·.2)))) s.unit

end TS

/-- Index of the last date satisfying `q` in an ascending list of dates:
`dates.index(max([date for date in dates if q date]))` (rates.py:446-447). -/
def lastIndexWhere (dates : List DateTime) (q : DateTime → Bool) : Except Err Nat :=
  match (dates.filter q).max? with
  | none => .error .valueError
  | some m => Periods.pyIndex dates m

/-- The loop of `TimeSeriesBoolean.resample` (rates.py:442-448). -/
def boolResampleValues (s : TS Bool) (nps : Periods) : Except Err (List Bool) :=
  nps.mapM fun p => do
    let ds ← Periods.allDates s.periods
    let i ← lastIndexWhere ds (fun d => decide (d ≤ p.start))
    let j ← lastIndexWhere ds (fun d => decide (d < p.stop))
    return (Periods.slice s.values i (j + 1)).all id

/-- `TimeSeriesBoolean.resample` (rates.py:421-454). -/
def boolResample (s : TS Bool) (freq : Frequency) (incStart incEnd : Bool) : Except Err (TS Bool) :=
  if freq = .none then .ok s
  else do
    let nps ← resamplePeriods s.periods freq incStart incEnd
    let vs ← boolResampleValues s nps
    TS.make nps vs s.unit

/-- `TimeSeriesBoolean.__mul__` (rates.py:456-466). -/
def boolMul (s o : TS Bool) : Except Err (TS Bool) :=
  TS.make s.periods (List.zipWith (· && ·) s.values o.values) s.unit

/-! ## Volumes -/

/-- Linear interpolation from the known point `(x0, y0)`, for `d ≥ x0`; constant after the last point. -/
def interpFrom (x0 : Int) (y0 : ℚ) : List (Int × ℚ) → Int → ℚ
  | [], _ => y0
  | (x1, y1) :: rest, d =>
    if d < x1 then y0 + (y1 - y0) * ((d - x0 : Int) : ℚ) / ((x1 - x0 : Int) : ℚ)
    else interpFrom x1 y1 rest d

/-- `Series.interpolate("time")` evaluated at one date (rates.py:524): NaN before the first known point,
linear in between, last value afterwards. The points are in ascending date order. -/
def interpTime (pts : List (Int × ℚ)) (d : Int) : Fl :=
  match pts with
  | [] => none
  | (x0, y0) :: rest => if d < x0 then none else some (interpFrom x0 y0 rest d)

/-- The known (not NaN) points of a series. -/
def knownPoints (ds : List DateTime) (vs : List Fl) : List (Int × ℚ) :=
  (ds.zip vs).filterMap fun dv => dv.2.map fun v => (dv.1, v)

/-- `resampled` before the start correction in `TimeSeriesVolumesCumulative.resample`
(rates.py:513, 524-527): interpolated cumulative volumes at the new dates. -/
def cumAtDates (s : TS Fl) (newDates : List DateTime) : Except Err (List Fl) := do
  let ds ← Periods.allDates s.periods
  return newDates.map (interpTime (knownPoints ds (some 0 :: s.values)))

/-- The start correction (rates.py:529-533). IndexError if there is no date. -/
def dropStart (incStart : Bool) (resampled : List Fl) : Except Err (List Fl) :=
  if incStart then .ok resampled.tail
  else match resampled with
    | [] => .error .indexError
    | r0 :: rest => .ok (rest.map fun v => Fl.sub v r0)

/-- `TimeSeriesVolumesCumulative.resample` (rates.py:490-539). -/
def cumResample (s : TS Fl) (freq : Frequency) (incStart incEnd : Bool) : Except Err (TS Fl) :=
  if freq = .none then .ok s
  else do
    let nps ← resamplePeriods s.periods freq incStart incEnd
    let nds ← Periods.allDates nps
    let r ← cumAtDates s nds
    let r' ← dropStart incStart r
    TS.make nps r' s.unit

/-- `np.diff([prev] + values)`. -/
def diffFrom (prev : Fl) : List Fl → List Fl
  | [] => []
  | v :: vs => Fl.sub v prev :: diffFrom v vs

/-- `TimeSeriesVolumesCumulative.to_volumes` (rates.py:564-576). -/
def cumToVolumes (s : TS Fl) : Except Err (TS Fl) := TS.make s.periods (diffFrom (some 0) s.values) s.unit

/-- `TimeSeriesVolumes.cumulative` (rates.py:605-618). -/
def cumulative (s : TS Fl) : Except Err (TS Fl) := TS.make s.periods (computeCumulative s.values) s.unit

/-- `TimeSeriesVolumes.resample` (rates.py:588-603). -/
def volResample (s : TS Fl) (freq : Frequency) (incStart incEnd : Bool) : Except Err (TS Fl) := do
  let c ← cumulative s
  let r ← cumResample c freq incStart incEnd
  cumToVolumes r

/-- `__truediv__` of volumes: KILO / STANDARD_CUBIC_METER or KILO / BOE only; NaN where the divisor is 0
(rates.py:541-562 and 647-674, the latter checks the lengths explicitly). -/
def volumesDiv (s o : TS Fl) : Except Err (TS Fl) := do
  let u ← match s.unit, o.unit with
    | .KILO, .STANDARD_CUBIC_METER => .ok EUnit.KG_SM3
    | .KILO, .BOE => .ok EUnit.KG_BOE
    | _, _ => .error .programmingError
  if s.values.length ≠ o.values.length then .error .valueError
  else TS.make s.periods (List.zipWith Fl.div s.values o.values) u

/-! ## `TimeSeriesRate` -/

/-- `class TimeSeriesRate` (rates.py:714-727). -/
structure RateTS where
  periods : Periods
  values : List Fl
  unit : EUnit
  rateType : RateType
  regularity : List Fl
  deriving DecidableEq

namespace RateTS

/-- Construction with both length validators (rates.py:128-140, 737-747). -/
def make (ps : Periods) (vs : List Fl) (u : EUnit) (rt : RateType) (reg : List Fl) : Except Err RateTS :=
  if ps.length = vs.length ∧ ps.length = reg.length then .ok ⟨ps, vs, u, rt, reg⟩ else .error .valueError

/-- `to_calendar_day` (rates.py:881-896). -/
def toCalendarDay (s : RateTS) : Except Err RateTS :=
  if s.rateType = .calendarDay then .ok s
  else do
    let v ← Rates.toCalendarDay s.values s.regularity
    make s.periods v s.unit .calendarDay s.regularity

/-- `to_stream_day` (rates.py:898-913). -/
def toStreamDay (s : RateTS) : Except Err RateTS :=
  if s.rateType = .streamDay then .ok s
  else do
    let v ← Rates.toStreamDay s.values s.regularity
    make s.periods v s.unit .streamDay s.regularity

/-- `TimeSeriesRate.__add__` (rates.py:749-784). `self.regularity == other.regularity` is list equality;
a NaN entry is never equal (identity shortcut of Python lists is not modelled). -/
def add (s o : RateTS) : Except Err RateTS :=
  if s.unit ≠ o.unit then .error .valueError
  else if s.rateType ≠ o.rateType then .error .valueError
  else if s.regularity = o.regularity ∧ none ∉ s.regularity then do
    let v ← elementwiseSum s.values o.values
    make s.periods v s.unit s.rateType s.regularity
  else do
    let sc ← s.toCalendarDay
    let oc ← o.toCalendarDay
    let sumCal ← elementwiseSum sc.values oc.values
    let ss ← s.toStreamDay
    let os ← o.toStreamDay
    let sumStream ← elementwiseSum ss.values os.values
    let v ← elementwiseSum s.values o.values
    let reg ← npOp Fl.div sumCal sumStream
    make s.periods v s.unit s.rateType reg

/-- `TimeSeriesRate.extend` (rates.py:786-807). -/
def extend (s o : RateTS) : Except Err RateTS :=
  if s.unit ≠ o.unit then .error .valueError
  else if s.rateType ≠ o.rateType then .error .valueError
  else make (s.periods ++ o.periods) (s.values ++ o.values) s.unit s.rateType (s.regularity ++ o.regularity)

/-- `TimeSeriesRate.merge` (rates.py:809-852). -/
def merge (s o : RateTS) : Except Err RateTS :=
  if s.unit ≠ o.unit then .error .valueError
  else if s.rateType ≠ o.rateType then .error .valueError
  else do
    let sp ← Periods.period s.periods
    let op ← Periods.period o.periods
    if Period.intersects sp op then .error .valueError
    else if sp.start ≠ op.stop ∧ sp.stop ≠ op.start then .error .valueError
    else if sp.start < op.stop then
      make (s.periods ++ o.periods) (s.values ++ o.values) s.unit s.rateType (s.regularity ++ o.regularity)
    else
      make (o.periods ++ s.periods) (o.values ++ s.values) s.unit s.rateType (o.regularity ++ s.regularity)

/-- `TimeSeriesRate.for_period` (rates.py:854-879). -/
def forPeriod (s : RateTS) (p : Period) : Except Err RateTS := do
  let whole ← Periods.period s.periods
  if !(Period.intersects whole p) then make [] [] s.unit s.rateType []
  else do
    let (i, j) ← Period.getPeriodIndices p s.periods
    make (Periods.slice s.periods i j) (Periods.slice s.values i j) s.unit s.rateType
      (Periods.slice s.regularity i j)

/-- `TimeSeriesRate.__getitem__` with a slice `[i:j]` (rates.py:988-995). -/
def getSlice (s : RateTS) (i j : Nat) : Except Err RateTS :=
  make (Periods.slice s.periods i j) (Periods.slice s.values i j) s.unit s.rateType
    (Periods.slice s.regularity i j)

/-- Unit errors as Python exceptions of this module. -/
def liftU {β : Type} : Except UErr β → Except Err β
  | .ok b => .ok b
  | .error _ => .error .notImplemented

/-- `TimeSeriesRate.to_volumes` (rates.py:915-925). -/
def toVolumes (s : RateTS) : Except Err (TS Fl) := do
  let c ← s.toCalendarDay
  let v ← Rates.toVolumes c.values s.periods
  let u ← liftU s.unit.rateToVolume
  TS.make s.periods v u

end RateTS

/-- One division of `to_rate` (rates.py:634): Python float division, ZeroDivisionError. -/
def pyDiv (v : Fl) (d : ℚ) : Except Err Fl := if d = 0 then .error .zeroDivision else .ok (v.map (· / d))

/-- `TimeSeriesVolumes.to_rate` (rates.py:620-645) with a given regularity. For a non-empty series there are
always at least two dates; for an empty one `all_dates` raises IndexError. -/
def toRate (s : TS Fl) (reg : List Fl) : Except Err RateTS := do
  let ds ← Periods.allDates s.periods
  let avg ← (s.values.zip (deltaDays ds)).mapM fun vd => pyDiv vd.1 vd.2
  let u ← RateTS.liftU s.unit.volumeToRate
  RateTS.make s.periods avg u .calendarDay reg

/-- The resampled period volumes for a list of daily rates (rates.py:947-958 and 960-971). -/
def resampledVolumes (s : RateTS) (rates : List Fl) (freq : Frequency) (incStart incEnd : Bool) :
    Except Err (TS Fl) := do
  let cum ← cumulativeFromDailyRates rates s.periods
  let u ← RateTS.liftU s.unit.rateToVolume
  let c ← TS.make s.periods cum u
  let r ← cumResample c freq incStart incEnd
  cumToVolumes r

/-- One entry of `new_regularity` (rates.py:974-977). -/
def newRegularity (cal stream : Fl) : Fl := if stream = some 0 then some 0 else Fl.div cal stream

/-- `TimeSeriesRate.resample` (rates.py:927-985). -/
def RateTS.resample (s : RateTS) (freq : Frequency) (incStart incEnd : Bool) : Except Err RateTS :=
  if freq = .none then .ok s
  else do
    let c ← s.toCalendarDay
    let cal ← resampledVolumes s c.values freq incStart incEnd
    let d ← s.toStreamDay
    let str ← resampledVolumes s d.values freq incStart incEnd
    let reg := List.zipWith newRegularity cal.values str.values
    let r ← toRate cal reg
    if s.rateType = .calendarDay then .ok r else r.toStreamDay

end Verif.Rates
