import Mathlib.Data.Rat.Defs
import Mathlib.Algebra.Order.Ring.Abs
import Verif.Model.Search
import Verif.Model.ProcessUnits

/-!
# Outlet state of a compressor from its head

`libecalc/domain/process/compressor/core/train/utils/common.py:27-82,134-302` and
`libecalc/process/fluid_stream/fluid_property_validation.py`.

The thermodynamics are a parameter: `flash p h` is `fluid_service.flash_ph` for the fluid and temperature guess of the
inlet stream, `none` stands for a `FluidFlashCalculationError` and for properties that are not finite; `campbell κ z` is
`calculate_outlet_pressure_campbell` with the machine's head, efficiency and inlet state, `none` stands for a value that
is not finite (the formula itself is in `Model/Campbell`). Every `CompressorOutletCalculationError` is the error
`thermo`. Log messages are dropped; whether the loop converged, which the code only logs, is returned as a flag.
-/

namespace Verif.Outlet
open Verif.Process Verif.Search

/-- `FluidProperties` (fluid_stream/fluid_properties.py:8-37) without the molar mass. -/
structure State where
  pressure : ℚ
  temperature : ℚ
  density : ℚ
  enthalpy : ℚ
  z : ℚ
  kappa : ℚ
  vapor : ℚ
  stdDensity : ℚ
deriving DecidableEq, Repr

/-- `validate_ph_flash_result` (fluid_property_validation.py:33-83). -/
def validPH (s : State) (target : ℚ) : Bool :=
  decide (0 < s.pressure) && decide (0 < s.temperature) && decide (0 < s.density) && decide (0 < s.z) &&
    decide (0 < s.kappa) && decide (0 < s.stdDensity) &&
    (decide (-(1 / 100000) ≤ s.vapor) && decide (s.vapor ≤ 1 + 1 / 100000)) &&
    decide (|s.enthalpy - target| ≤ max 10 (|target| * (1 / 10000)))

/-- `flash_ph_for_compressor_calculation` (utils/common.py:27-62) and `_flash_ph_for_compressor_outlet`
(utils/common.py:65-81). -/
def flashChecked (flash : ℚ → ℚ → Option State) (pressure target : ℚ) : Except PErr State :=
  match flash pressure target with
  | none => .error .thermo
  | some s => if validPH s target then .ok s else .error .thermo

/-- `MAX_FIRST_GUESS_BAR` (utils/common.py:24). -/
def maxFirstGuess : ℚ := 2000

/-- `PRESSURE_CALCULATION_TOLERANCE` (utils/common.py:17). -/
def pressureTolerance : ℚ := 1 / 1000

/-- The loop of `calculate_outlet_pressure_and_stream` (utils/common.py:216-300). `n` is the number of iterations
left, `p` the pressure so far, `cur` the outlet state so far. The flag tells whether the loop converged. -/
def outletLoop (flash : ℚ → ℚ → Option State) (campbell : ℚ → ℚ → Option ℚ) (inlet : State) (target : ℚ) :
    Nat → ℚ → DampState → State → Except PErr (State × Bool)
  | 0, _, _, cur => .ok (cur, false)
  | n + 1, p, d, cur =>
    match campbell ((inlet.kappa + cur.kappa) / 2) ((inlet.z + cur.z) / 2) with
    | none => .error .thermo
    | some raw =>
      if raw ≤ 0 then .error .thermo
      else
        let u := adaptiveUpdate p raw d
        if u.1 ≤ 0 then .error .thermo
        else
          match flashChecked flash u.1 target with
          | .error e => .error e
          | .ok s =>
            if |p - u.1| / u.1 < pressureTolerance then .ok (s, true)
            else outletLoop flash campbell inlet target n u.1 u.2 s

/-- `calculate_outlet_pressure_and_stream` (utils/common.py:134-302). The code returns a stream: the inlet stream with
the fluid properties given here (`with_new_fluid`, so with the same mass rate and fluid model). -/
def outletState (flash : ℚ → ℚ → Option State) (campbell : ℚ → ℚ → Option ℚ) (inlet : State) (head eff : ℚ) :
    Except PErr (State × Bool) :=
  match campbell inlet.kappa inlet.z with
  | none => .error .thermo
  | some guess =>
    if guess ≤ 0 then .error .thermo
    else
      let first := if guess > maxFirstGuess then maxFirstGuess else guess
      let target := inlet.enthalpy + head / eff
      match flashChecked flash first target with
      | .error e => .error e
      | .ok s => outletLoop flash campbell inlet target 30 (first * (95 / 100)) {} s

end Verif.Outlet
