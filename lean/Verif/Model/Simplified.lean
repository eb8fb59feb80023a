import Verif.Model.Outlet
import Verif.Model.CompressorChart

/-!
# Simplified compressor trains

* `CompressorTrainStage.evaluate_given_target_pressure_ratio`
  (`libecalc/domain/process/compressor/core/train/stage.py:349-469`),
* `calculate_enthalpy_change_head_iteration` (`.../train/utils/enthalpy_calculations.py:22-141`) for one stream, the only
  way it is called,
* `CompressorTrainSimplified` (`.../train/simplified_train/simplified_train.py:101-360`).

Parameters: the thermodynamics (`Thermo`: the two flashes and Campbell's head, see `Model/Campbell`) and, per stage, the
efficiency of the chart as a function of rate and head. The pressure ratio per stage is an argument (the root is taken in
`Model/Campbell`). Simplifications: a division by a zero efficiency (`inf` in numpy) is zero here, theorems exclude it;
log messages are dropped; the temperature guess of a flash does not influence its result; the flag whether an iteration
converged, which the code only logs, is returned.
-/

namespace Verif.Simplified
open Verif.Outlet Verif.Process Verif.Charts

/-- What can go wrong: a `FluidFlashCalculationError` that no one wraps, a `CompressorThermodynamicCalculationError`,
the `IllegalStateException` for a ratio below one, the `ValueError` for a train without stages, a negative mass rate. -/
inductive FErr where
  | flash
  | thermo
  | ratioBelowOne
  | noStages
  | negativeMass
deriving DecidableEq, Repr

/-- The fluid service for one fluid, and Campbell's head from efficiency, kappa, z, pressure ratio and temperature. -/
structure Thermo where
  flashPT : ℚ → ℚ → Option State
  flashPH : ℚ → ℚ → Option State
  head : ℚ → ℚ → ℚ → ℚ → ℚ → ℚ

/-- The parts of a stage that a simplified train uses. -/
structure SStage where
  temperature : ℚ
  chart : Chart
  efficiency : ℚ → ℚ → ℚ

/-- A flash whose failure is not caught. -/
def plain : Option State → Except FErr State
  | none => .error .flash
  | some s => .ok s

/-- Whether two heads in succession are close (enthalpy_calculations.py:118-126). -/
def closeHeads (previous h : ℚ) : Bool :=
  decide (previous ≠ 0) && decide (|h - previous| / |previous| < 1 / 1000)

/-- The loop of `calculate_enthalpy_change_head_iteration` (enthalpy_calculations.py:82-135): enthalpy change,
efficiency and whether it converged. -/
def headLoop (th : Thermo) (effOf : ℚ → ℚ → ℚ) (inlet : State) (rate outletPressure : ℚ) :
    Nat → ℚ → ℚ → ℚ → ℚ → ℚ → Except FErr (ℚ × ℚ × Bool)
  | 0, _, _, _, change, eff => .ok (change, eff, false)
  | n + 1, previous, z, kappa, _, _ =>
    let eff := effOf rate previous
    let h := th.head eff kappa z (outletPressure / inlet.pressure) inlet.temperature
    match plain (th.flashPH outletPressure (inlet.enthalpy + h / eff)) with
    | .error e => .error e
    | .ok s =>
      if closeHeads previous h then .ok (h / eff, eff, true)
      else headLoop th effOf inlet rate outletPressure n h ((inlet.z + s.z) / 2) ((inlet.kappa + s.kappa) / 2)
        (h / eff) eff

/-- `calculate_enthalpy_change_head_iteration` (enthalpy_calculations.py:22-141). -/
def headIteration (th : Thermo) (effOf : ℚ → ℚ → ℚ) (inlet : State) (rate outletPressure : ℚ) :
    Except FErr (ℚ × ℚ × Bool) :=
  headLoop th effOf inlet rate outletPressure 20 0 inlet.z inlet.kappa 0 (effOf rate 0)

/-- `CompressorTrainStageResultSingleTimeStep` (core/results.py:30-61) as filled in by the simplified stage. `none` for
power and efficiency is NaN. -/
structure StageOut where
  inlet : State
  outlet : State
  mass : ℚ
  massAsv : ℚ
  power : Option ℚ
  area : Area
  change : ℚ
  changeBefore : ℚ
  efficiency : Option ℚ
  recirculates : Bool
  rateExceeds : Bool
  choked : Bool
  headExceeds : Bool
  valid : Bool
deriving DecidableEq, Repr

/-- The chart area flag (stage.py:437-450). -/
def areaOf (c : Capacity) : Area :=
  if c.choked && c.recirculates then .belowSpeedBelowFlow
  else if c.choked && c.rateExceeds then .belowSpeedAboveFlow
  else if c.recirculates then .belowFlow
  else if c.rateExceeds then .aboveFlow
  else if c.choked then .belowSpeed
  else if c.headExceeds then .aboveSpeed
  else .internal

/-- The corrections of stage.py:373-411: enthalpy change and mass rate to use, enthalpy change before the corrections,
efficiency and the flags. -/
def corrections (th : Thermo) (st : SStage) (inlet : State) (mass outletPressure : ℚ) (adjust : Bool) :
    Except FErr (ℚ × ℚ × ℚ × Option ℚ × Capacity) :=
  if mass > 0 then
    match headIteration th st.efficiency inlet (mass / inlet.density) outletPressure with
    | .error e => .error e
    | .ok (change, eff, _) =>
      if adjust then
        let c := st.chart.capacity (mass / inlet.density) (change * eff) true
        .ok (c.head / eff, c.rate * inlet.density, change, some eff, c)
      else .ok (change, mass, change, some eff, ⟨mass / inlet.density, change * eff, false, false, false, false, false⟩)
  else .ok (0, mass, 0, none, ⟨0, 0, false, false, false, false, false⟩)

/-- `evaluate_given_target_pressure_ratio` (stage.py:349-469). The stream is given by its pressure and mass rate. -/
def evalStage (th : Thermo) (st : SStage) (pressure mass ratio : ℚ) (adjust : Bool) : Except FErr StageOut :=
  match plain (th.flashPT pressure st.temperature) with
  | .error e => .error e
  | .ok inlet =>
    match corrections th st inlet mass (pressure * ratio) adjust with
    | .error e => .error e
    | .ok (change, massAsv, before, eff, c) =>
      match plain (th.flashPH (pressure * ratio) (inlet.enthalpy + change)) with
      | .error e => .error e
      | .ok outlet =>
        let power := if c.exceeds then none else some (massAsv * change / 3600 * (1 / 1000000))
        .ok { inlet := inlet, outlet := outlet, mass := mass, massAsv := massAsv, power := power, area := areaOf c,
              change := change, changeBefore := before, efficiency := eff, recirculates := c.recirculates,
              rateExceeds := c.rateExceeds, choked := c.choked, headExceeds := c.headExceeds,
              valid := power.isSome }

/-- The loop over the stages (simplified_train.py:139-146): each stage starts at the outlet pressure of the one
before. -/
def evalStages (th : Thermo) (ratio mass : ℚ) : List SStage → ℚ → Except FErr (List StageOut)
  | [], _ => .ok []
  | st :: sts, pressure =>
    match evalStage th st pressure mass ratio true with
    | .error e => .error e
    | .ok r =>
      match evalStages th ratio mass sts r.outlet.pressure with
      | .error e => .error e
      | .ok rs => .ok (r :: rs)

/-- The parts of `CompressorTrainResultSingleTimeStep` that the simplified train fills in: `none` is the empty result. -/
structure TrainOut where
  stages : List StageOut
  abovePower : Bool
deriving DecidableEq, Repr

/-- A sum of powers, NaN as soon as one is. -/
def totalPower : List (Option ℚ) → Option ℚ
  | [] => some 0
  | p :: ps =>
    match p, totalPower ps with
    | some a, some b => some (a + b)
    | _, _ => none

/-- `sum(...) > maximum_power if maximum_power else False` (simplified_train.py:152-154). -/
def exceedsPower (maximumPower : Option ℚ) (powers : List (Option ℚ)) : Bool :=
  match maximumPower with
  | none => false
  | some m =>
    if m = 0 then false
    else match totalPower powers with
      | none => false
      | some p => decide (p > m)

/-- `CompressorTrainSimplified.evaluate_given_constraints` (simplified_train.py:101-164), with `train_inlet_stream`
(base.py:273-293). -/
def evalTrain (th : Thermo) (stages : List SStage) (maximumPower : Option ℚ) (suction ratio rate : ℚ) :
    Except FErr (Option TrainOut) :=
  match stages with
  | [] => .error .noStages
  | st :: sts =>
    match plain (th.flashPT suction st.temperature) with
    | .error e => .error e
    | .ok inlet =>
      let mass := rate * inlet.stdDensity / 24
      if mass < 0 then .error .negativeMass
      else if mass > 0 then
        match evalStages th ratio mass (st :: sts) inlet.pressure with
        | .error e => .error e
        | .ok rs => .ok (some ⟨rs, exceedsPower maximumPower (rs.map (·.power))⟩)
      else .ok none

/-! ## Maximum rate -/

/-- The highest head of the fastest curve (simplified_train.py:257). -/
def topHead (c : Chart) : ℚ := (c.high.rest.map (·.head)).foldl max c.high.first.head

/-- The mean head of the fastest curve (simplified_train.py:258-260). -/
def meanHead (c : Chart) : ℚ := (c.high.pts.map (·.head)).sum / c.high.pts.length

/-- `diff < expected_diff` (simplified_train.py:326-330); a division by zero is not below anything. -/
def closeRates (previous r : ℚ) : Bool :=
  decide (previous ≠ 0) && decide (|r - previous| / |previous| < 1 / 1000)

/-- The loop of `calculate_maximum_rate_for_stage` (simplified_train.py:270-353). -/
def maxRateLoop (th : Thermo) (st : SStage) (inlet : State) (ratio : ℚ) :
    Nat → ℚ → ℚ → ℚ → ℚ → Except FErr ℚ
  | 0, _, _, _, previous => .ok previous
  | n + 1, h, z, kappa, previous =>
    let r := st.chart.maximumRate h false
    let eff := st.efficiency r h
    let h' := th.head eff kappa z ratio inlet.temperature
    match flashChecked th.flashPH (inlet.pressure * ratio) (inlet.enthalpy + h' / eff) with
    | .error _ => if h' > topHead st.chart then .ok (st.chart.maximumRate h' false) else .error .thermo
    | .ok s =>
      if closeRates previous r then .ok r
      else maxRateLoop th st inlet ratio n h' ((inlet.z + s.z) / 2) ((inlet.kappa + s.kappa) / 2) r

/-- `calculate_maximum_rate_for_stage` (simplified_train.py:238-360). -/
def maxRateStage (th : Thermo) (st : SStage) (inlet : State) (ratio : ℚ) : Except FErr ℚ :=
  if ratio < 1 then .error .ratioBelowOne
  else
    match maxRateLoop th st inlet ratio 20 (meanHead st.chart) inlet.z inlet.kappa (1 / 100000) with
    | .error e => .error e
    | .ok r => .ok (r * inlet.density / inlet.stdDensity * 24)

/-- `_calculate_inlet_pressure_stages` (simplified_train.py:221-235). -/
def inletPressures (ratio : ℚ) : Nat → ℚ → List ℚ
  | 0, _ => []
  | n + 1, p => p :: inletPressures ratio n (p * ratio)

/-- The list of maximum rates (simplified_train.py:199-214). -/
def maxRates (th : Thermo) (ratio : ℚ) : List (SStage × ℚ) → Except FErr (List ℚ)
  | [] => .ok []
  | (st, p) :: rest =>
    match plain (th.flashPT p st.temperature) with
    | .error e => .error e
    | .ok inlet =>
      match maxRateStage th st inlet ratio with
      | .error e => .error e
      | .ok r =>
        match maxRates th ratio rest with
        | .error e => .error e
        | .ok rs => .ok (r :: rs)

/-- `_get_max_std_rate_single_timestep` (simplified_train.py:166-217). -/
def maxRateTrain (th : Thermo) (stages : List SStage) (suction ratio : ℚ) : Except FErr ℚ :=
  match maxRates th ratio (stages.zip (inletPressures ratio stages.length suction)) with
  | .error e => .error e
  | .ok [] => .error .noStages
  | .ok (r :: rs) => .ok (rs.foldl min r)

end Verif.Simplified
