import Verif.Model.ProcessUnits
import Verif.Model.CompressorChart

/-!
# Model of a compressor train stage

`src/libecalc/domain/process/entities/process_units/{rate_modifier/rate_modifier,legacy_splitter/legacy_splitter,
legacy_mixer/legacy_mixer,legacy_compressor/legacy_compressor}.py` and
`src/libecalc/domain/process/compressor/core/train/stage.py`.

The chart of the compressor (rate limits as functions of speed and the look-up of a point, modelled in
`Model/CompressorChart`) and the pressure iteration `calculate_outlet_pressure_and_stream` are parameters. A chart
look-up without head and efficiency (`nan` in the code) is not distinguished.
-/

namespace Verif.Stage
open Verif.Process Verif.Charts

/-! ## Recirculation -/

/-- `RateModifier` (rate_modifier.py:28-42): `_additional_mass_rate`, `_mass_rate_to_recirculate` and
`_fraction_of_available_capacity_to_recirculate`. -/
structure Modifier where
  additional : ℚ
  massRate : Option ℚ
  fraction : Option ℚ
  deriving DecidableEq, Repr

/-- `RateModifier(...)` (rate_modifier.py:38-42). -/
def Modifier.fresh : Modifier := ⟨0, none, none⟩

/-- The setter of `mass_rate_to_recirculate` (rate_modifier.py:76-87). -/
def Modifier.setMass (m : Modifier) (v : ℚ) : Modifier := { m with massRate := some v, fraction := none }

/-- The setter of `fraction_of_available_capacity_to_recirculate` (rate_modifier.py:99-110). -/
def Modifier.setFraction (m : Modifier) (v : ℚ) : Modifier := { m with fraction := some v, massRate := none }

/-- `reset` (rate_modifier.py:200-208). -/
def Modifier.reset (m : Modifier) : Modifier := { m with massRate := none, fraction := none }

/-- `add_rate` (rate_modifier.py:132-179) for the flow limits of the chart at the speed of the shaft. -/
def Modifier.addRate (m : Modifier) (minRate maxRate : ℚ) (s : Stream) : Except PErr (Stream × Modifier) := do
  let actual := s.volRate
  let additional : ℚ := 0
  let (actual, additional) :=
    match m.massRate with
    | some v => (actual + (additional + v / s.props.density), additional + v / s.props.density)
    | none => (actual, additional)
  let (actual, additional) :=
    match m.fraction with
    | some f =>
      let available := max 0 (maxRate - actual)
      (actual + (additional + f * available), additional + f * available)
    | none => (actual, additional)
  let needed := max 0 (minRate - actual)
  let additional := if needed > 0 then additional + needed else additional
  let m' : Modifier := { m with additional := additional * s.props.density }
  let out ← s.withMass (s.mass + m'.additional)
  return (out, m')

/-- `remove_rate` (rate_modifier.py:181-198). -/
def Modifier.removeRate (m : Modifier) (s : Stream) : Except PErr Stream := s.withMass (s.mass - m.additional)

/-! ## Splitter and mixer -/

/-- `LegacySplitter.split_stream` with the setter of `rates_out_of_splitter` before it (legacy_splitter.py:44-92). A
division by zero (nothing enters and nothing is taken out) is an error. -/
def legacySplit (outputs : ℕ) (rates : Option (List ℚ)) (s : Stream) : Except PErr (List Stream) :=
  let rates := rates.getD (List.replicate (outputs - 1) 0)
  if rates.length ≠ outputs - 1 then .error .assertion
  else
    let last := s.stdRate - rates.sum
    let last := if last < 0 then 0 else last
    let all := rates ++ [last]
    if all.sum = 0 then .error .value
    else all.mapM fun r => Stream.make s.model s.props (s.mass * (r / all.sum))

/-- `CompressorTrainStage.mix` (stage.py:236-273) with `LegacyMixer.mix_streams` (legacy_mixer.py:13-26). -/
def legacyMix (svc : Service) (inputs : ℕ) (s : Stream) (others : List Stream) : Except PErr Stream :=
  if inputs ≠ others.length + 1 then .error .programming
  else if ((s :: others).map (·.mass)).sum = 0 then .ok s
  else mixStreams svc (s :: others)

/-! ## Compressor -/

/-- `OperationalPoint` (legacy_compressor.py:16-21) with the chart area flag. -/
structure Point where
  head : ℚ
  eff : ℚ
  valid : Bool
  area : Area
  deriving DecidableEq, Repr

/-- `LegacyCompressor` (legacy_compressor.py:24-35): chart, speed of the shaft, and the pressure iteration
(common.py:137-302), which gives the properties of the fluid at the outlet. -/
structure Machine where
  minSpeed : ℚ
  maxSpeed : ℚ
  minRate : ℚ → ℚ
  maxRate : ℚ → ℚ
  point : ℚ → ℚ → ℚ → Except PErr Point
  outlet : ℚ → ℚ → Stream → Except PErr Props

/-- `compress` (legacy_compressor.py:115-153) for the rate before recirculation. `thermo` is
`CompressorOutletCalculationError`. -/
def Machine.compress (c : Machine) (speed before : ℚ) (s : Stream) : Except PErr (Stream × Point) := do
  let p ← c.point speed s.volRate before
  if p.eff = 0 then .error .value
  else
    match c.outlet p.eff p.head s with
    | .ok props => do
      let o ← Stream.make s.model props s.mass
      return (o, p)
    | .error .thermo => if p.valid then .error .thermo else return (s, p)
    | .error e => .error e

/-! ## Stage -/

/-- `CompressorTrainStage` (stage.py:47-67). -/
structure StageUnits where
  splitter : Option ℕ
  mixer : Option ℕ
  choke : Option ℚ
  temperature : ℚ
  liquidRemover : Bool
  machine : Machine

/-- `CompressorTrainStageResultSingleTimeStep` (results.py:29-61), as built by `evaluate`. -/
structure StageResult where
  inlet : Stream
  outlet : Stream
  inletAsv : Stream
  outletAsv : Stream
  head : ℚ
  eff : ℚ
  enthalpy : ℚ
  power : ℚ
  area : Area
  valid : Bool

/-- The splitter, if any (stage.py:111-118, 217-234). -/
def StageUnits.split (u : StageUnits) (rates : Option (List ℚ)) (s : Stream) : Except PErr Stream :=
  match u.splitter with
  | none => .ok s
  | some n => do
    let parts ← legacySplit n rates s
    match parts.getLast? with
    | some p => .ok p
    | none => .error .value

/-- The mixer, if any (stage.py:120-129). -/
def StageUnits.mix (u : StageUnits) (svc : Service) (others : Option (List Stream)) (s : Stream) : Except PErr Stream :=
  match u.mixer with
  | none => .ok s
  | some n =>
    match others with
    | none => .error .programming
    | some o => legacyMix svc n s o

/-- The choke, if any (stage.py:131-135). -/
def StageUnits.throttle (u : StageUnits) (svc : Service) (s : Stream) : Except PErr Stream :=
  match u.choke with
  | none => .ok s
  | some dp => Process.choke svc dp s

/-- `get_compressor_inlet_stream` (stage.py:105-150). -/
def StageUnits.prepare (u : StageUnits) (svc : Service) (rates : Option (List ℚ)) (others : Option (List Stream))
    (s : Stream) : Except PErr Stream := do
  let s ← u.split rates s
  let s ← u.mix svc others s
  let s ← u.throttle svc s
  let s ← setTemperature svc u.temperature s
  if u.liquidRemover then removeLiquid svc s else .ok s

/-- `calculate_power_in_megawatt` (common.py:115-134). -/
def powerMW (enthalpy mass : ℚ) : ℚ := enthalpy * mass / 3600 * (1 / 1000000)

/-- `evaluate` (stage.py:152-215): the result and the rate modifier afterwards. -/
def StageUnits.evaluate (u : StageUnits) (svc : Service) (speed : ℚ) (m : Modifier) (s : Stream)
    (rates : Option (List ℚ) := none) (others : Option (List Stream) := none) : Except PErr (StageResult × Modifier) := do
  let inlet ← u.prepare svc rates others s
  let (inletAsv, m') ← m.addRate (u.machine.minRate speed) (u.machine.maxRate speed) inlet
  if speed < u.machine.minSpeed ∨ u.machine.maxSpeed < speed then .error .programming
  else do
    let (outletAsv, p) ← u.machine.compress speed inlet.volRate inletAsv
    let outlet ← m'.removeRate outletAsv
    let enthalpy := p.head / p.eff
    return (⟨inlet, outlet, inletAsv, outletAsv, p.head / 1000, p.eff, enthalpy / 1000,
      powerMW enthalpy inletAsv.mass, p.area, p.valid⟩, m')

/-- `within_capacity` (results.py:145-147). -/
def StageResult.within (r : StageResult) : Bool := decide (r.area = .internal) || r.valid

/-- `asv_recirculation_loss_mw` (results.py:157-170). -/
def StageResult.loss (r : StageResult) : ℚ :=
  (r.inletAsv.mass - r.inlet.mass) * r.enthalpy * (1 / (60 * 60 * 1000))

end Verif.Stage
