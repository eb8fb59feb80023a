import Mathlib.Analysis.SpecialFunctions.Pow.Real

/-!
# Campbell's polytropic equations

`libecalc/domain/process/compressor/core/train/utils/enthalpy_calculations.py:144-280`,
`.../train/base.py:30-34` and `calculate_power_in_megawatt` (`.../train/utils/common.py:112-131`).

These formulas raise numbers to fractional powers, so they are modelled over the real numbers (`Real.rpow`) and not
over `ℚ`. Simplifications: numpy's elementwise arrays are one number each; a power of a negative base (`nan` with a
numpy scalar) and a division by zero (κ = 1, η = 0) have no counterpart, theorems about them exclude these inputs.
-/

namespace Verif.Campbell

/-- `UnitConstants.GAS_CONSTANT` (common/units.py:39). -/
noncomputable def gasConstant : ℝ := 8.314472

/-- `_calculate_polytropic_exponent_expression_n_minus_1_over_n` (enthalpy_calculations.py:218-235). -/
noncomputable def exponent (kappa eff : ℝ) : ℝ := (kappa - 1) / (kappa * eff)

/-- `_calculate_head` (enthalpy_calculations.py:188-215). -/
noncomputable def headOf (e temperature ratio z molarMass : ℝ) : ℝ :=
  1 / e * (z * gasConstant * temperature) / molarMass * (ratio ^ e - 1)

/-- `calculate_polytropic_head_campbell` (enthalpy_calculations.py:144-185). -/
noncomputable def head (eff kappa z molarMass ratio temperature : ℝ) : ℝ :=
  headOf (exponent kappa eff) temperature ratio z molarMass

/-- `calculate_outlet_pressure_campbell` (enthalpy_calculations.py:238-280). -/
noncomputable def outletPressure (kappa eff h molarMass z temperature pressure : ℝ) : ℝ :=
  let n := 1 / exponent kappa eff
  pressure * (1 + h / n * molarMass / (z * gasConstant * temperature)) ^ n

/-- `calculate_pressure_ratio_per_stage` (train/base.py:30-34); the number of stages is at least one. -/
noncomputable def ratioPerStage (suction discharge : ℝ) (stages : ℕ) : ℝ :=
  (discharge / suction) ^ (1 / (stages : ℝ))

/-- `calculate_power_in_megawatt` (utils/common.py:112-131). -/
noncomputable def powerMegawatt (enthalpyChange massRate : ℝ) : ℝ :=
  enthalpyChange * massRate / 3600 * (1 / 1000000)

end Verif.Campbell
