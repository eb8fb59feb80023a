import Verif.Model.Rates

/-!
# Model of the emission intensity (`libecalc/domain/emission/emission_intensity.py`,
`ecalc_cli/emission_intensity.py`)
-/

namespace Verif.Intensity
open Verif.Time Verif.Units Verif.Rates

/-- `class EmissionIntensity` (emission_intensity.py:7-19). -/
structure EmissionIntensity where
  emission : TS Fl
  export_ : TS Fl
  unit : EUnit
  periods : Periods
  deriving DecidableEq

/-- `class TimeSeriesIntensity` (time_series_intensity.py:8-11); no validator. -/
structure IntensityTS where
  periods : Periods
  values : List Fl
  unit : EUnit
  deriving DecidableEq

/-- `EmissionIntensity.__init__` (emission_intensity.py:21-44). -/
def EmissionIntensity.make (em hc : TS Fl) : Except Err EmissionIntensity := do
  let u ← match em.unit, hc.unit with
    | .KILO, .STANDARD_CUBIC_METER => .ok EUnit.KG_SM3
    | .KILO, .BOE => .ok EUnit.KG_BOE
    | _, _ => .error .programmingError
  if em.values.length ≠ hc.values.length then .error .valueError
  else return ⟨em, hc, u, em.periods⟩

/-- `calculate_for_periods` (emission_intensity.py:46-59). -/
def EmissionIntensity.forPeriods (e : EmissionIntensity) : Except Err IntensityTS := do
  let ev ← cumToVolumes e.emission
  let hv ← cumToVolumes e.export_
  let r ← volumesDiv ev hv
  return ⟨e.periods, r.values, e.unit⟩

/-- `calculate_cumulative` (emission_intensity.py:61-72). -/
def EmissionIntensity.cumulative (e : EmissionIntensity) : Except Err IntensityTS := do
  let r ← volumesDiv e.emission e.export_
  return ⟨e.periods, r.values, e.unit⟩

/-- `EmissionResult.get_cumulative_kg` (presentation/json_result/result/emission.py:21-23). -/
def cumulativeKg (rate : RateTS) : Except Err (TS Fl) := do
  let v ← rate.toVolumes
  let k ← v.toUnit .KILO
  Rates.cumulative k

/-- `EmissionIntensityCalculator.__init__` (ecalc_cli/emission_intensity.py:41-56) for the rate of the CO2
result; the choice of the CO2 result by name (84-85) is not modelled. The first component is per Sm3, the
second per BOE. -/
def calculator (hcRate co2 : RateTS) : Except Err (EmissionIntensity × EmissionIntensity) := do
  let hv ← hcRate.toVolumes
  let hcum ← Rates.cumulative hv
  let e1 ← cumulativeKg co2
  let h1 ← hcum.toUnit .STANDARD_CUBIC_METER
  let sm3 ← EmissionIntensity.make e1 h1
  let e2 ← cumulativeKg co2
  let h2 ← hcum.toUnit .BOE
  let boe ← EmissionIntensity.make e2 h2
  return (sm3, boe)

end Verif.Intensity
