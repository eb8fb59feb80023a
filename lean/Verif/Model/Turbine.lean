import Verif.Model.Table

/-!
# Model of `libecalc/domain/infrastructure/energy_components/turbine/turbine.py`

The arrays are handled element by element. Infinite and missing results (division by a zero adjustment factor) are
`none`.
-/

namespace Verif.TurbineModel
open Verif.Time Verif.Rates Verif.Table

/-- `Turbine` (turbine.py:27-39). -/
structure Turbine where
  loads : List ℚ
  maximumLoad : ℚ
  lowerHeatingValue : ℚ
  efficiencies : List ℚ
  factor : ℚ
  constant : ℚ
  deriving DecidableEq

/-- `Turbine.__init__` and `validate_loads_and_efficiency_factors` (turbine.py:19-39, 86-97). -/
def Turbine.make (loads : List ℚ) (lhv : ℚ) (efficiencies : List ℚ) (factor constant : ℚ) : Except Err Turbine := do
  let m ← pyMax loads
  if loads.length ≠ efficiencies.length then .error .validation
  else if efficiencies.any (fun x => !(decide (0 ≤ x) && decide (x ≤ 1))) then .error .validation
  else return ⟨loads, m, lhv, efficiencies, factor, constant⟩

/-- `Turbine.max_power` (turbine.py:41-43). -/
def Turbine.maxPower (t : Turbine) : ℚ := t.maximumLoad * t.factor - t.constant

/-- `load_adjusted` (turbine.py:48-52). -/
def Turbine.adjusted (t : Turbine) (load : ℚ) : Fl :=
  if 0 < load then Fl.div (some (load + t.constant)) (some t.factor) else some load

/-- `_efficiency_function` (turbine.py:32-37); the fill value above the table is the last efficiency as given. -/
def Turbine.efficiency (t : Turbine) (x : ℚ) : Except Err ℚ :=
  match t.efficiencies.getLast? with
  | none => .error .indexError
  | some last => lookup (t.loads.zip t.efficiencies) 0 last x

/-- One element of `TurbineResult`. -/
structure Result where
  load : Fl
  efficiency : Fl
  fuel : Fl
  exceeds : Bool
  deriving DecidableEq

/-- One element of `Turbine.evaluate` (turbine.py:45-84). The overload flag compares the load as given. -/
def Turbine.evaluateOne (t : Turbine) (fuelLhv load : ℚ) : Except Err Result :=
  let lhv := if 0 < fuelLhv then fuelLhv else t.lowerHeatingValue
  match t.adjusted load with
  | none => .ok ⟨none, none, none, decide (t.maximumLoad < load)⟩
  | some x => do
    let e ← t.efficiency x
    let fuel := if lhv ≠ 0 ∧ e ≠ 0 then x * 86400 / lhv / e else 0
    return ⟨some x, some e, some fuel, decide (t.maximumLoad < load)⟩

/-- `Turbine.evaluate` (turbine.py:45-84). -/
def Turbine.evaluate (t : Turbine) (fuelLhv : ℚ) (loads : List ℚ) : Except Err (List Result) :=
  loads.mapM (t.evaluateOne fuelLhv)

end Verif.TurbineModel
