import Verif.Model.ChartFile
import Verif.Model.Inputs
import Verif.Model.Pump

/-!
# Model of the mapping of pump process simulations

* `presentation/yaml/mappers/pump_process_simulation_mapper.py` (`PumpProcessSimulationMapper`)
* `presentation/yaml/model.py` (`get_pump_process_simulations`)
* `presentation/yaml/domain/expression_time_series_fluid_density.py`
* `presentation/yaml/yaml_reference_service.py` (`get_pump_model`)

Simplifications:
* the references of a model are a list of names with the pump chart behind each, `none` for anything else;
* reading texts of a resource and comparing headers is the parameter `Reader` of `Verif.ChartFile`;
* messages of exceptions are dropped; `validate_for_run` happens before (other models treat it).
-/

namespace Verif.PumpMap
open Verif.Time (Period)
open Verif.Rates Verif.Variables Verif.Inputs Verif.Charts Verif.ChartFile Verif.Pumps
open Verif.Resource (Memory)

/-- What the mapping can raise. -/
inductive MErr where
  /-- `InvalidReferenceException` -/
  | reference (name : String)
  /-- `EcalcValidationException` -/
  | validation
  /-- `KeyError` of pandas -/
  | keyError (header : String)
  /-- the exceptions of a stream (process/pump/exceptions.py) -/
  | stream (e : LErr)
  /-- `ValueError` of `zip(strict=True)` and of the comparison of lengths -/
  | valueError
  /-- what evaluating an expression raises -/
  | other (e : Verif.Time.Err)
  deriving DecidableEq, Repr

/-- `YamlPumpChartSingleSpeed | YamlPumpChartVariableSpeed` (yaml_facility_model.py). -/
structure PumpChart where
  single : Bool
  headMargin : ℚ
  file : String
  units : ChartUnits
  deriving DecidableEq, Repr

/-- What the mapper looks up: the references of the model and its facility resources. -/
structure World where
  references : List (String × Option PumpChart)
  resources : List (String × Memory)
  reader : Reader

/-- `YamlPumpProcessSimulation` (yaml_process_simulation.py:127-176). -/
structure Sim where
  name : String
  chart : String
  minFlow : Option ℚ
  rate : ExprInput
  pressure : ExprInput
  density : ExprInput
  discharge : ExprInput

/-- `LiquidStream` (liquid_stream.py:19-31) whose numbers may be NaN. -/
structure Stream where
  pressure : Fl
  density : Fl
  mass : Fl
  deriving DecidableEq, Repr

/-- `PumpOperatingInput` (pump_process_simulation.py). -/
structure Input where
  inlet : Stream
  discharge : Fl
  deriving DecidableEq, Repr

/-- `PumpProcessSimulation` with the inputs and the periods, as `map` returns them. -/
structure Mapped where
  name : String
  pump : Pump
  inputs : List Input
  periods : List Period

/-- `x <= 0`, false for NaN. -/
def notPositive : Fl → Bool
  | none => false
  | some v => v ≤ 0

/-- `x > 0`, false for NaN. -/
def positive : Fl → Bool
  | none => false
  | some v => 0 < v

/-- Errors of the expressions: the validation errors are `EcalcValidationException`s. -/
def ofTime {α : Type} : Except Verif.Time.Err α → Except MErr α
  | .ok a => .ok a
  | .error .validation => .error .validation
  | .error e => .error (.other e)

/-- Errors of a pump or a stream. -/
def ofLiquid {α : Type} : Except LErr α → Except MErr α
  | .ok a => .ok a
  | .error .validation => .error .validation
  | .error e => .error (.stream e)

/-- `get_pump_model` (yaml_reference_service.py:189-195, 209-213). -/
def getPumpModel (w : World) (name : String) : Except MErr PumpChart :=
  match w.references.lookup name with
  | some (some c) => .ok c
  | some none => .error (.reference name)
  | none => .error (.reference name)

/-- `UserDefinedChartData.from_resource` within the `try` (pump_process_simulation_mapper.py:157-164): the exceptions of
resources become validation errors, others pass. -/
def readChart (r : Reader) (c : PumpChart) (m : Memory) : Except MErr Data :=
  match if c.single then readSingle r c.units m none else readVariable r c.units m none with
  | .ok d => .ok d
  | .error (.resource _) => .error .validation
  | .error (.column _) => .error .validation
  | .error .validation => .error .validation
  | .error (.keyError h) => .error (.keyError h)

/-- `_get_chart_data` (pump_process_simulation_mapper.py:147-164). -/
def chartData (w : World) (name : String) : Except MErr Data := do
  let c ← getPumpModel w name
  if c.headMargin ≠ 0 then .error .validation
  else
    match w.resources.lookup c.file with
    | none => .error .validation
    | some m => readChart w.reader c m

/-- `Chart(pump_chart)` in `Pump.__init__` (process/pump/pump.py:119, chart.py:86-106): no curve at all is refused. -/
def chartOf (d : Data) : Except MErr Chart :=
  match d.adjusted with
  | [] => .error .validation
  | c :: cs => .ok ⟨c, cs⟩

/-- The pump of a simulation (pump_process_simulation_mapper.py:43-47). -/
def makePump (w : World) (s : Sim) : Except MErr Pump := do
  let d ← chartData w s.chart
  let ch ← chartOf d
  ofLiquid (Pump.make ch s.minFlow)

/-- `_require_positive` (pump_process_simulation_mapper.py:142-145). -/
def requirePositive (x : Fl) : Except MErr Unit := if notPositive x then .error .validation else .ok ()

/-- `LiquidStream.from_volumetric_rate` with the checks of `__post_init__` (liquid_stream.py:33-39, 59-72). -/
def fromRate (rate pressure density : Fl) : Except MErr Stream :=
  let mass := Fl.div (Fl.mul rate density) (some 24)
  if notPositive density then .error (.stream .nonPositiveDensity)
  else if isNegative mass then .error (.stream .negativeMass)
  else if notPositive pressure then .error (.stream .nonPositivePressure)
  else .ok ⟨pressure, density, mass⟩

/-- The discharge pressure of the input (pump_process_simulation_mapper.py:124-134). -/
def dischargeOf (rate suction discharge : Fl) : Except MErr Fl :=
  if positive rate then do
    requirePositive discharge
    return discharge
  else .ok (if positive discharge then discharge else suction)

/-- `_to_operating_input` (pump_process_simulation_mapper.py:106-139). -/
def toInput (rate suction discharge density : Fl) : Except MErr Input := do
  requirePositive suction
  requirePositive density
  let inlet ← fromRate rate suction density
  let d ← dischargeOf rate suction discharge
  return ⟨inlet, d⟩

/-- The list of inputs with `zip(strict=True)` (pump_process_simulation_mapper.py:86-101). -/
def toInputs : List Fl → List Fl → List Fl → List Fl → Except MErr (List Input)
  | [], [], [], [] => .ok []
  | r :: rs, s :: ss, d :: ds, q :: qs => do
    let i ← toInput r s d q
    let is ← toInputs rs ss ds qs
    return i :: is
  | _, _, _, _ => .error .valueError

/-- The rates (pump_process_simulation_mapper.py:53-64): per calendar day, with the regularity that is one. -/
def rates (pow : Fl → Fl → Fl) (ev : VarMap) (e : ExprInput) : Except Verif.Time.Err (List Fl) := do
  let own ← ev.period
  let reg ← Reg.make pow ev own .absent
  let t ← TSE.make e ev none
  flowRate pow t .calendarDay reg

/-- A pressure (pump_process_simulation_mapper.py:65-76): every value is validated. -/
def pressures (pow : Fl → Fl → Fl) (ev : VarMap) (e : ExprInput) : Except Verif.Time.Err (List Fl) := do
  let t ← TSE.make e ev none
  Inputs.pressure pow t none

/-- The density (pump_process_simulation_mapper.py:77-82, expression_time_series_fluid_density.py:10-20). -/
def densities (pow : Fl → Fl → Fl) (ev : VarMap) (e : ExprInput) : Except Verif.Time.Err (List Fl) := do
  let t ← TSE.make e ev none
  t.evaluated pow

/-- `map` (pump_process_simulation_mapper.py:39-104) with the evaluator of the mapper. -/
def map (pow : Fl → Fl → Fl) (w : World) (ev : VarMap) (s : Sim) : Except MErr Mapped := do
  let pump ← makePump w s
  let rs ← ofTime (rates pow ev s.rate)
  let ss ← ofTime (pressures pow ev s.pressure)
  let ds ← ofTime (pressures pow ev s.discharge)
  let qs ← ofTime (densities pow ev s.density)
  let is ← toInputs rs ss ds qs
  if ev.periods.length ≠ is.length then .error .valueError
  else return ⟨s.name, pump, is, ev.periods⟩

/-- `get_pump_process_simulations` (model.py:185-200) with `__init__` (pump_process_simulation_mapper.py:28-37). -/
def mapAll (pow : Fl → Fl → Fl) (w : World) (ev : VarMap) (period : Period) (sims : List Sim) :
    Except MErr (List Mapped) := do
  let sub ← ofTime (ev.getSubsetForPeriod period)
  sims.mapM (map pow w sub)

end Verif.PumpMap
