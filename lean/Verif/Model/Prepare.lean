import Verif.Model.Campbell
import Verif.Model.GenericChart
import Verif.Model.Simplified

/-!
# Preparing simplified compressor trains from operational data

* `calculate_number_of_stages` (`presentation/yaml/mappers/simplified_train_mapping_utils.py:61-83`),
* `_create_simplified_model_with_prepared_stages` (`presentation/yaml/mappers/consumer_function_mapper.py:540-692`),
* `GenericFromInputChartData` (`presentation/yaml/mappers/charts/generic_from_input_chart_data.py:16-97`),
* `calculate_enthalpy_change_head_iteration` (`.../train/utils/enthalpy_calculations.py:22-141`) for several streams.

The number of stages is a ratio of logarithms and is modelled over the real numbers; the charts use the thermodynamics of
`Model/Simplified` over `ℚ`, with the pressure ratio per stage of each time step as an argument. Simplifications: the
chart of a stage is made at once (in the code when it is first asked for); `NaN` ratios (pressures 0 and 0) are left out.
-/

namespace Verif.Prepare
open Verif.Outlet Verif.Charts Verif.Simplified Verif.Time

/-- What `calculate_number_of_stages` and the mapper raise. -/
inductive NErr where
  | noData
  | domain
  | zeroDivision
  | overflow
  | noStages
deriving DecidableEq, Repr

/-- The largest element of `x :: xs`. -/
noncomputable def largest (x : ℝ) (xs : List ℝ) : ℝ := xs.foldl max x

/-- `calculate_number_of_stages` (simplified_train_mapping_utils.py:61-83). `max` of nothing and `math.log` outside its
domain are ValueErrors; with a suction pressure 0 the ratio is infinite, which `math.ceil` refuses. -/
noncomputable def numberOfStages (maximum : ℝ) (steps : List (ℝ × ℝ)) : Except NErr ℤ :=
  match steps.map fun s => s.2 / s.1 with
  | [] => .error .noData
  | r :: rs =>
    if ∃ s ∈ steps, s.1 = 0 then .error .overflow
    else if largest r rs ≤ 0 ∨ maximum ≤ 0 then .error .domain
    else if Real.log maximum = 0 then .error .zeroDivision
    else .ok ⌈Real.log (largest r rs) / Real.log maximum⌉

/-- The pressure ratios per stage of a train with an unknown number of stages (consumer_function_mapper.py:582-587 and
635-641; `range` of a negative number is empty, base.py:31-32). -/
noncomputable def preparedRatios (maximum : ℝ) (steps : List (ℝ × ℝ)) : Except NErr (ℕ × List ℝ) :=
  match numberOfStages maximum steps with
  | .error e => .error e
  | .ok n =>
    if n.toNat < 1 then .error .noStages
    else .ok (n.toNat, steps.map fun s => Campbell.ratioPerStage s.1 s.2 n.toNat)

/-- The inlet and outlet pressures of the stages (consumer_function_mapper.py:643-645, 667) in one time step. -/
noncomputable def ladder (ratio : ℝ) : ℕ → ℝ → List (ℝ × ℝ)
  | 0, _ => []
  | n + 1, p => (p, p * ratio) :: ladder ratio n (p * ratio)

/-! ## Charts -/

/-- What can go wrong when a chart is made: flashes, charts. -/
inductive PErr where
  | fluid (e : FErr)
  | chart (e : Err)
  | endless
deriving DecidableEq, Repr

/-- One stream in the iteration: its inlet, the outlet pressure, and the latest head, z and kappa. -/
structure Elem where
  inlet : State
  out : ℚ
  head : ℚ
  z : ℚ
  kappa : ℚ
deriving DecidableEq, Repr

/-- One pass for one stream (enthalpy_calculations.py:87-117) at constant efficiency. -/
def Elem.next (th : Thermo) (eff : ℚ) (x : Elem) : Except FErr Elem :=
  let h := th.head eff x.kappa x.z (x.out / x.inlet.pressure) x.inlet.temperature
  match plain (th.flashPH x.out (x.inlet.enthalpy + h / eff)) with
  | .error e => .error e
  | .ok s => .ok { x with head := h, z := (x.inlet.z + s.z) / 2, kappa := (x.inlet.kappa + s.kappa) / 2 }

/-- Square of `numpy.linalg.norm`. -/
def normSq (l : List ℚ) : ℚ := (l.map fun x => x * x).sum

/-- Whether the iteration has converged (enthalpy_calculations.py:120-127): the norms of all streams together. -/
def closeAll (previous heads : List ℚ) : Bool :=
  decide (normSq previous ≠ 0) &&
    decide (normSq (List.zipWith (fun a b => a - b) heads previous) < normSq previous * (1 / 1000) ^ 2)

/-- The loop (enthalpy_calculations.py:82-135). -/
def manyLoop (th : Thermo) (eff : ℚ) : Nat → List Elem → Except FErr (List Elem)
  | 0, xs => .ok xs
  | n + 1, xs =>
    match xs.mapM (Elem.next th eff) with
    | .error e => .error e
    | .ok ys => if closeAll (xs.map (·.head)) (ys.map (·.head)) then .ok ys else manyLoop th eff n ys

/-- A time step of the input: standard rate, pressure, pressure ratio per stage. -/
structure Step where
  rate : ℚ
  pressure : ℚ
  ratio : ℚ
deriving DecidableEq, Repr

/-- `create_stream_from_standard_rate` (fluid_service.py:124-142, process/fluid_stream/fluid_stream.py:125-127): the
inlet state and the actual volume rate. -/
def inletStream (th : Thermo) (temperature : ℚ) (s : Step) : Except FErr (State × ℚ) :=
  match plain (th.flashPT s.pressure temperature) with
  | .error e => .error e
  | .ok x => .ok (x, s.rate * x.stdDensity / 24 / x.density)

/-- The inputs of the iteration (enthalpy_calculations.py:60-74). -/
def startElem (s : Step) (x : State) : Elem := ⟨x, s.pressure * s.ratio, 0, x.z, x.kappa⟩

/-- Rates and heads from which the chart is made (generic_from_input_chart_data.py:36-82). -/
def inputPoints (th : Thermo) (temperature eff : ℚ) (steps : List Step) : Except FErr (List (ℚ × ℚ)) :=
  match steps.mapM (inletStream th temperature) with
  | .error e => .error e
  | .ok inlets =>
    match manyLoop th eff 20 (List.zipWith (fun s x => startElem s x.1) steps inlets) with
    | .error e => .error e
    | .ok ys => .ok (List.zipWith (fun x y => (x.2, y.head / eff * eff)) inlets ys)

/-- A stage in the file: inlet temperature, efficiency, and the design point if there is one. -/
structure Spec where
  temperature : ℚ
  efficiency : ℚ
  design : Option (ℚ × ℚ)
deriving DecidableEq, Repr

/-- The chart of a stage (consumer_function_mapper.py:652-665, generic_from_input_chart_data.py:84-88). -/
def stageChart (th : Thermo) (fuel : ℕ) (spec : Spec) (steps : List Step) : Except PErr Chart :=
  match spec.design with
  | some (rate, head) =>
    match genericFromDesign rate head spec.efficiency with
    | .error e => .error (.chart e)
    | .ok c => .ok c
  | none =>
    match inputPoints th spec.temperature spec.efficiency steps with
    | .error e => .error (.fluid e)
    | .ok pts =>
      match genericFromInput fuel pts spec.efficiency with
      | .error e => .error (.chart e)
      | .ok none => .error .endless
      | .ok (some (_, _, c)) => .ok c

/-- The loop over the stages (consumer_function_mapper.py:643-680): each starts where the one before ends. The efficiency
of a generic chart is the same everywhere (`C63_design`). -/
def prepare (th : Thermo) (fuel : ℕ) : List Spec → List Step → Except PErr (List SStage)
  | [], _ => .ok []
  | spec :: specs, steps =>
    match stageChart th fuel spec steps with
    | .error e => .error e
    | .ok c =>
      match prepare th fuel specs (steps.map fun s => { s with pressure := s.pressure * s.ratio }) with
      | .error e => .error e
      | .ok sts => .ok (⟨spec.temperature, c, fun _ _ => spec.efficiency⟩ :: sts)

end Verif.Prepare
