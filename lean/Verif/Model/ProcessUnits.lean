import Mathlib.Algebra.Order.Field.Rat
import Mathlib.Algebra.Order.Field.Basic
import Mathlib.Algebra.Order.Group.Abs
import Verif.Model.Time

/-!
# Model of streams and process units

`src/libecalc/process/fluid_stream/{fluid_model,fluid_stream,stream_mixer}.py`, `src/libecalc/process/process_units/*.py`
and `src/libecalc/process/process_solver/recirculation_loop.py`.

Floats are exact rationals. The thermodynamics (`FluidService`, NeqSim) is a parameter: a record of functions, which
may raise. `z`, `kappa` are left out. Ids and log messages of errors are left out.
-/

namespace Verif.Process
open Verif.Time

/-- Exceptions of this part of the code (`process_pipeline/process_error.py`, `fluid_stream/exceptions.py`, and the
built-in ones). -/
inductive PErr where
  | surge (actual boundary : ℚ)
  | stonewall (actual boundary : ℚ)
  | liquid
  | offtake (available demanded : ℚ)
  | insufficient (inlet required : ℚ)
  | thermo
  | negativeMass
  | emptyStreams
  | zeroMass
  | eosMismatch
  | negativeFraction
  | invalidComposition
  | assertion
  | value
  | attribute
  | programming
  | notConverged
  deriving DecidableEq, Repr

/-! ## Compositions -/

/-- The fields of `FluidComposition` (fluid_model.py:30-41). -/
inductive Component where
  | water | nitrogen | CO2 | methane | ethane | propane | i_butane | n_butane | i_pentane | n_pentane | n_hexane
  deriving DecidableEq, Repr

/-- The fields in order of declaration (`dataclasses.asdict`). -/
def Component.all : List Component :=
  [.water, .nitrogen, .CO2, .methane, .ethane, .propane, .i_butane, .n_butane, .i_pentane, .n_pentane, .n_hexane]

/-- `FluidComposition` (fluid_model.py:28-41). -/
abbrev Composition := Component → ℚ

/-- `sum(data.values())` (fluid_model.py:54). -/
def Composition.total (c : Composition) : ℚ := (Component.all.map c).sum

/-- `FluidComposition(**data)` with `__post_init__` (fluid_model.py:43-46). -/
def Composition.make (c : Composition) : Except PErr Composition :=
  if Component.all.all (fun k => decide (0 ≤ c k)) then .ok c else .error .negativeFraction

/-- `FluidComposition.normalized` (fluid_model.py:48-58). -/
def Composition.normalized (c : Composition) : Except PErr Composition :=
  if c.total = 0 then .error .invalidComposition else Composition.make (fun k => c k / c.total)

/-- `EoSModel` (fluid_model.py:21-25). -/
inductive Eos where
  | SRK | PR | GERG_SRK | GERG_PR
  deriving DecidableEq, Repr

/-- `FluidModel` (fluid_model.py:15-18). -/
structure FluidModel where
  eos : Eos
  composition : Composition

/-! ## Streams -/

/-- `FluidProperties` (fluid_properties.py:8-38). -/
structure Props where
  temperature : ℚ
  pressure : ℚ
  density : ℚ
  enthalpy : ℚ
  vapor : ℚ
  molarMass : ℚ
  stdDensity : ℚ
  deriving DecidableEq, Repr

/-- `FluidStream` (fluid_stream.py:24-51) with its `Fluid` (model and properties). -/
structure Stream where
  model : FluidModel
  props : Props
  mass : ℚ

/-- `FluidStream(...)` with `__post_init__` (fluid_stream.py:53-56). -/
def Stream.make (m : FluidModel) (p : Props) (mass : ℚ) : Except PErr Stream :=
  if mass < 0 then .error .negativeMass else .ok ⟨m, p, mass⟩

/-- `volumetric_rate_m3_per_hour` (fluid_stream.py:125-128). -/
def Stream.volRate (s : Stream) : ℚ := s.mass / s.props.density

/-- `standard_rate_sm3_per_day` (fluid_stream.py:130-133). -/
def Stream.stdRate (s : Stream) : ℚ := s.mass / s.props.stdDensity * 24

/-- `with_mass_rate` (fluid_stream.py:135-144). -/
def Stream.withMass (s : Stream) (mass : ℚ) : Except PErr Stream := Stream.make s.model s.props mass

/-- `with_standard_rate` (fluid_stream.py:146-153). -/
def Stream.withStdRate (s : Stream) (rate : ℚ) : Except PErr Stream :=
  Stream.make s.model s.props (rate * s.props.stdDensity / 24)

/-- `FluidService` (fluid_service.py:23-170). -/
structure Service where
  flashPT : FluidModel → ℚ → ℚ → Except PErr Props
  flashPH : FluidModel → ℚ → ℚ → ℚ → Except PErr Props
  removeLiquid : FluidModel → Props → Except PErr (FluidModel × Props)
  stdDensity : FluidModel → ℚ

/-- `create_stream_from_standard_rate` as in `NeqSimFluidService` (ecalc_neqsim_wrapper/fluid_service.py:437-457,
480-495). -/
def Service.fromStdRate (svc : Service) (m : FluidModel) (p t rate : ℚ) : Except PErr Stream := do
  let props ← svc.flashPT m p t
  Stream.make m props (rate * svc.stdDensity m / 24)

/-- `mass_rate_to_standard_rate` (ecalc_neqsim_wrapper/fluid_service.py:497-512). -/
def Service.massToStd (svc : Service) (m : FluidModel) (mass : ℚ) : ℚ := mass * 24 / svc.stdDensity m

/-! ## Units -/

/-- `ThermodynamicConstants.PURE_VAPOR_THRESHOLD` (fluid_stream/constants.py:27). -/
def pureVapor : ℚ := 9999 / 10000

/-- `Choke.propagate_stream` (choke.py:32-50); `PressureDropper.propagate_stream` (pressure_dropper.py) is the same
code. -/
def choke (svc : Service) (dp : ℚ) (s : Stream) : Except PErr Stream :=
  if dp > 0 then
    let p := s.props.pressure - dp
    if p < 0 then .error (.insufficient s.props.pressure dp)
    else svc.fromStdRate s.model p s.props.temperature s.stdRate
  else .ok s

/-- `Choke.set_pressure_change` (choke.py:27-30): the new setting. -/
def setPressureChange (_old new : ℚ) : Except PErr ℚ := if new < 0 then .error .value else .ok new

/-- `TemperatureSetter.propagate_stream` (temperature_setter.py). -/
def setTemperature (svc : Service) (t : ℚ) (s : Stream) : Except PErr Stream :=
  if s.props.temperature ≠ t then do
    let props ← svc.flashPT s.model s.props.pressure t
    Stream.make s.model props s.mass
  else .ok s

/-- `LiquidRemover.propagate_stream` (liquid_remover.py). -/
def removeLiquid (svc : Service) (s : Stream) : Except PErr Stream :=
  if s.props.vapor < pureVapor then do
    let (m, props) ← svc.removeLiquid s.model s.props
    if s.props.molarMass > 0 then do
      let f := s.props.vapor * props.molarMass / s.props.molarMass
      let t ← Stream.make m props s.mass
      t.withMass (s.mass * f)
    else .error .assertion
  else .ok s

/-- `DirectMixer.propagate_stream` (direct_mixer.py). -/
def directMix (rate : ℚ) (s : Stream) : Except PErr Stream :=
  s.withMass (s.mass + rate * s.props.stdDensity / 24)

/-- `DirectSplitter.propagate_stream` (direct_splitter.py). -/
def directSplit (rate : ℚ) (s : Stream) : Except PErr Stream :=
  s.withMass (s.mass - rate * s.props.stdDensity / 24)

/-- `Splitter.propagate_stream` (splitter.py:34-47). -/
def split (svc : Service) (rate : ℚ) (s : Stream) : Except PErr Stream :=
  let remaining := s.stdRate - rate
  if remaining < 0 then .error (.offtake s.stdRate rate)
  else svc.fromStdRate s.model s.props.pressure s.props.temperature remaining

/-- `Splitter.get_split_stream` (splitter.py:49-56). -/
def splitOff (svc : Service) (rate : ℚ) (s : Stream) : Except PErr Stream :=
  svc.fromStdRate s.model s.props.pressure s.props.temperature rate

/-- A `Compressor` (compressor.py:29-43): the flow limits of its chart as functions of speed, and the outlet stream
for an inlet within capacity (the chart look-up and `calculate_outlet_pressure_and_stream`) are parameters. -/
structure Compressor where
  minFlow : ℚ → ℚ
  maxFlow : ℚ → ℚ
  outlet : ℚ → Stream → Except PErr Stream
  speed : Option ℚ

/-- `Compressor.speed` (compressor.py:107-111). -/
def Compressor.getSpeed (c : Compressor) : Except PErr ℚ :=
  match c.speed with
  | none => .error .value
  | some n => .ok n

/-- `Compressor.propagate_stream` (compressor.py:45-77). -/
def Compressor.propagate (c : Compressor) (s : Stream) : Except PErr Stream :=
  if s.props.vapor < pureVapor then .error .liquid
  else do
    let n ← c.getSpeed
    if s.volRate < c.minFlow n then .error (.surge s.volRate (c.minFlow n))
    else if s.volRate > c.maxFlow n then .error (.stonewall s.volRate (c.maxFlow n))
    else c.outlet n s

/-- `RECIRCULATION_BOUNDARY_TOLERANCE` (domain/process/compressor/core/train/utils/common.py:21). -/
def recircTol : ℚ := 1 / 1000000

/-- `Boundary` (boundary.py). -/
structure Boundary where
  min : ℚ
  max : ℚ
  deriving DecidableEq, Repr

/-- `Compressor.get_minimum_standard_rate` (compressor.py:127-147). -/
def Compressor.minStdRate (svc : Service) (c : Compressor) (s : Stream) : Except PErr ℚ := do
  let n ← c.getSpeed
  return svc.massToStd s.model (c.minFlow n * s.props.density) + recircTol

/-- `Compressor.get_maximum_standard_rate` (compressor.py:149-165). -/
def Compressor.maxStdRate (svc : Service) (c : Compressor) (s : Stream) : Except PErr ℚ := do
  let n ← c.getSpeed
  return svc.massToStd s.model (c.maxFlow n * s.props.density) - recircTol

/-- `Compressor.get_recirculation_range` (compressor.py:167-180). -/
def Compressor.recircRange (svc : Service) (c : Compressor) (s : Stream) : Except PErr Boundary := do
  let lo ← c.minStdRate svc s
  let hi ← c.maxStdRate svc s
  return ⟨max 0 (lo - s.stdRate), max 0 (hi - s.stdRate)⟩

/-! ## Mixing streams -/

/-- The check of the EoS models (stream_mixer.py:66-71). -/
def sameEos (streams : List Stream) : Bool :=
  match streams with
  | [] => true
  | s :: rest => rest.all fun t => decide (t.model.eos = s.model.eos)

/-- Molar rate of each component over all streams (stream_mixer.py:86-96). -/
def mixMoles : List Stream → Except PErr Composition
  | [] => .ok fun _ => 0
  | s :: rest => do
    let c ← Composition.normalized s.model.composition
    let r ← mixMoles rest
    return fun k => s.mass / s.props.molarMass * c k + r k

/-- `min(s.pressure_bara for s in streams)` (stream_mixer.py:74) for a non-empty list. -/
def minPressure (s : Stream) (rest : List Stream) : ℚ := rest.foldl (fun p t => min p t.props.pressure) s.props.pressure

/-- `StreamMixer.mix_streams` (stream_mixer.py:38-111). Divisions by a zero molar mass or a zero molar rate raise
ZeroDivisionError in the code; here they give 0 (molar masses are positive). -/
def mixStreams (svc : Service) (streams : List Stream) : Except PErr Stream :=
  match streams with
  | [] => .error .emptyStreams
  | s0 :: rest =>
    let total := (streams.map (·.mass)).sum
    if total = 0 then .error .zeroMass
    else if !sameEos streams then .error .eosMismatch
    else do
      let p := minPressure s0 rest
      let guess := (streams.map fun s => s.mass * s.props.temperature).sum / total
      let h := (streams.map fun s => s.mass * s.props.enthalpy).sum / total
      let moles ← mixMoles streams
      let totalMoles := (streams.map fun s => s.mass / s.props.molarMass).sum
      let c0 ← Composition.make (fun k => moles k / totalMoles)
      let c ← Composition.normalized c0
      let m : FluidModel := ⟨s0.model.eos, c⟩
      let props ← svc.flashPH m p h guess
      Stream.make m props total

/-- `Mixer.propagate_stream` (mixer.py): ValueError when no stream has been set. -/
def mixer (svc : Service) (external : Option Stream) (s : Stream) : Except PErr Stream :=
  match external with
  | none => .error .value
  | some e => mixStreams svc [s, e]

/-! ## Sequences of units -/

/-- The process units. -/
inductive ProcUnit where
  | inlet
  | outlet
  | choke (dp : ℚ)
  | pressureDropper (dp : ℚ)
  | temperatureSetter (t : ℚ)
  | liquidRemover
  | directMixer (rate : ℚ)
  | directSplitter (rate : ℚ)
  | splitter (rate : ℚ)
  | mixer (external : Option Stream)
  | compressor (c : Compressor)

/-- `propagate_stream` of each unit. -/
def ProcUnit.propagate (svc : Service) : ProcUnit → Stream → Except PErr Stream
  | .inlet, s => .ok s
  | .outlet, s => .ok s
  | .choke dp, s => Process.choke svc dp s
  | .pressureDropper dp, s => Process.choke svc dp s
  | .temperatureSetter t, s => setTemperature svc t s
  | .liquidRemover, s => removeLiquid svc s
  | .directMixer r, s => directMix r s
  | .directSplitter r, s => directSplit r s
  | .splitter r, s => split svc r s
  | .mixer e, s => Process.mixer svc e s
  | .compressor c, s => c.propagate s

/-- `for unit in units: stream = unit.propagate_stream(stream)` (process_pipeline_runner.py `run`). -/
def runUnits (svc : Service) : List ProcUnit → Stream → Except PErr Stream
  | [], s => .ok s
  | u :: us, s => do
    let t ← u.propagate svc s
    runUnits svc us t

end Verif.Process
