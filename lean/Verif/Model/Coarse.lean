import Verif.Model.Rates

/-!
# Model of resampling plain series of results

`TimeSeries.resample` (`libecalc/common/utils/rates.py`) for series of floats (pressures, temperatures,
efficiencies, speeds, regularity): the class `TimeSeriesFloat` does not override it, unlike rates, volumes and
booleans.
-/

namespace Verif.Coarse
open Verif.Time Verif.Units Verif.Rates

/-- `pd.Series(index=start_dates, data=values)` looked up at one date (rates.py:196, 201): the value of the
period that starts exactly at the date. No such period and the value NaN look the same afterwards.
(Simplification: with two periods starting at the same date pandas refuses to reindex; the model takes the
first. Consecutive periods have distinct start dates.) -/
def valueAt (points : List (DateTime × Fl)) (d : DateTime) : Fl :=
  (points.find? (fun dv => dv.1 == d)).bind (·.2)

/-- `ffill()` of a float series (rates.py:201): NaN takes the last value before it that is not NaN. -/
def fillForward (prev : Fl) : List Fl → List Fl
  | [] => []
  | none :: vs => prev :: fillForward prev vs
  | some v :: vs => some v :: fillForward (some v) vs

/-- `TimeSeriesFloat.resample`, inherited from `TimeSeries.resample` (rates.py:181-208). -/
def floatResample (s : TS Fl) (freq : Frequency) (incStart incEnd : Bool) : Except Err (TS Fl) :=
  if freq = .none then .ok s
  else do
    let nps ← resamplePeriods s.periods freq incStart incEnd
    let points := (Periods.startDates s.periods).zip s.values
    TS.make nps (fillForward none ((Periods.startDates nps).map (valueAt points))) s.unit

end Verif.Coarse
