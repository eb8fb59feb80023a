import Mathlib.Algebra.Order.Field.Rat
import Verif.Model.Chart

/-!
# Model of the pumps

Sources: `libecalc/process/pump/liquid_stream.py`, `libecalc/process/pump/pump.py`,
`libecalc/process/pump/pump_process_simulation.py`, `libecalc/presentation/yaml/mappers/pump_process_simulation_mapper.py`
(the new pump) and `libecalc/domain/process/pump/pump.py`, `libecalc/domain/process/core/results/pump.py` (the pump of
consumer functions, called the legacy pump here).

Simplifications:
* identities of pumps, units and connections are dropped; the five serial connections are the five entries of a list, in
  the order of `PumpProcessSimulation._connections`;
* the geometry behind the chart efficiency is the parameter `near` of `Chart.effAt`;
* adding `EPSILON = 1e-15` in double precision is written out as `plusEps`.
* the density given to the legacy pump is not zero (the code divides by it).
-/

namespace Verif.Pumps
open Verif.Time Verif.Charts

/-- Exceptions of the pump packages (process/pump/exceptions.py, and built-in ones). -/
inductive LErr where
  | nonPositiveDensity | negativeMass | nonPositivePressure | validation | valueError | zeroDivision | assertion
deriving DecidableEq, Repr

/-- `LiquidStream` (liquid_stream.py:19-31). -/
structure Liquid where
  pressure : ℚ
  density : ℚ
  mass : ℚ
deriving DecidableEq, Repr

/-- `LiquidStream.__post_init__` (liquid_stream.py:33-39). -/
def Liquid.make (pressure density mass : ℚ) : Except LErr Liquid :=
  if density ≤ 0 then .error .nonPositiveDensity
  else if mass < 0 then .error .negativeMass
  else if pressure ≤ 0 then .error .nonPositivePressure
  else .ok ⟨pressure, density, mass⟩

/-- `volumetric_rate_m3_per_hour` (liquid_stream.py:41-44). -/
def Liquid.rate (s : Liquid) : ℚ := s.mass / s.density

/-- `with_mass_rate` (liquid_stream.py:51-53); `dataclasses.replace` validates again. -/
def Liquid.withMass (s : Liquid) (mass : ℚ) : Except LErr Liquid := Liquid.make s.pressure s.density mass

/-- `with_pressure` (liquid_stream.py:55-57). -/
def Liquid.withPressure (s : Liquid) (pressure : ℚ) : Except LErr Liquid := Liquid.make pressure s.density s.mass

/-- `from_volumetric_rate` (liquid_stream.py:59-72), rate in m3/day. -/
def Liquid.fromRate (rate pressure density : ℚ) : Except LErr Liquid :=
  Liquid.make pressure density (rate * density / 24)

/-- `PumpFailureStatus` (process/pump/pump.py:34-38, core/results/pump.py:9-14; the remaining member is never used). -/
inductive Status where
  | noFailure | aboveMaxRate | aboveMaxHead | aboveBoth
deriving DecidableEq, Repr

/-- `_determine_failure_status` (process/pump/pump.py:299-314; domain/process/pump/pump.py:227-235). -/
def status (head maxHead rate maxRate : ℚ) : Status :=
  if maxHead < head ∧ maxRate < rate then .aboveBoth
  else if maxHead < head then .aboveMaxHead
  else if maxRate < rate then .aboveMaxRate
  else .noFailure

/-- `_calculate_head` (process/pump/pump.py:266-269; domain/process/pump/pump.py:92-100), in J/kg. -/
def headOf (suction discharge density : ℚ) : ℚ := (discharge - suction) * 100000 / density

/-- `Pump` (process/pump/pump.py:99-130). -/
structure Pump where
  chart : Chart
  minFlow : ℚ
  discharge : Option ℚ
deriving DecidableEq, Repr

/-- `Pump.__init__` (process/pump/pump.py:112-130, 316-318). -/
def Pump.make (chart : Chart) (minFlow : Option ℚ) : Except LErr Pump :=
  if chart.curves.any (fun c => c.pts.any fun p => decide (p.eff ≤ 0)) then .error .validation
  else
    let m := minFlow.getD chart.minRate
    if m < chart.minRate then .error .validation else .ok ⟨chart, m, none⟩

/-- `PumpEvaluationResult` (process/pump/pump.py:41-84). -/
structure Result where
  inlet : Liquid
  power : ℚ
  efficiency : Option ℚ
  work : Option ℚ
  requiredHead : ℚ
  head : ℚ
  rate : ℚ
  recirculation : ℚ
  requiredDischarge : ℚ
  discharge : ℚ
  speed : Option ℚ
  status : Status
deriving DecidableEq, Repr

/-- `is_valid` (process/pump/pump.py:86-88). -/
def Result.isValid (r : Result) : Bool := r.status == .noFailure

/-- `choke_pressure_drop_bara` (process/pump/pump.py:90-96). -/
def Result.chokeDrop (r : Result) : ℚ := max 0 (r.discharge - r.requiredDischarge)

/-- The loop over neighbouring curves (process/pump/pump.py:292-296), on pairs (speed, head at the operating rate). -/
def speedScan (head : ℚ) : List (ℚ × ℚ) → Option ℚ
  | a :: b :: rest =>
    if a.2 ≤ head ∧ head ≤ b.2 then
      some (a.1 + (if b.2 = a.2 then 0 else (head - a.2) / (b.2 - a.2)) * (b.1 - a.1))
    else speedScan head (b :: rest)
  | _ => none

/-- `_speed_at_operating_point` (process/pump/pump.py:281-297). -/
def speedAt (c : Chart) (rate head : ℚ) : ℚ :=
  match (c.curves.insertionSort (fun a b => a.speed ≤ b.speed)).map (fun k => (k.speed, k.headAt rate)) with
  | [] => 0
  | [a] => a.1
  | a :: b :: rest =>
    if head ≤ a.2 then a.1
    else if ((b :: rest).getLast (by simp)).2 ≤ head then ((b :: rest).getLast (by simp)).1
    else (speedScan head (a :: b :: rest)).getD ((b :: rest).getLast (by simp)).1

/-- `evaluate` (process/pump/pump.py:166-250). -/
def Pump.evaluate (near : Curve → ℚ → ℚ → ℚ × ℚ) (p : Pump) (inlet : Liquid) (discharge : ℚ) : Except LErr Result :=
  if discharge ≤ 0 then .error .nonPositivePressure
  else
    let required := headOf inlet.pressure discharge inlet.density
    if inlet.rate ≤ 0 then
      .ok { inlet := inlet, power := 0, efficiency := none, work := none, requiredHead := required, head := 0, rate := 0,
            recirculation := 0, requiredDischarge := discharge, discharge := inlet.pressure, speed := none,
            status := .noFailure }
    else
      let rate := max (max inlet.rate p.minFlow) (p.chart.minRateAt required)
      let head := max required (p.chart.minHeadAt rate)
      let efficiency := p.chart.effAt near rate head
      if efficiency = 0 then .error .zeroDivision
      else
        .ok { inlet := inlet, power := rate * inlet.density * (head / efficiency) / 3600 / 1000000,
              efficiency := some efficiency, work := some (head / efficiency), requiredHead := required, head := head,
              rate := rate, recirculation := rate - inlet.rate, requiredDischarge := discharge,
              discharge := inlet.pressure + head * inlet.density / 100000, speed := some (speedAt p.chart rate head),
              status := status head (p.chart.maxHeadAt rate) rate p.chart.maxRate }

/-- `set_discharge_pressure` (process/pump/pump.py:149-152). -/
def Pump.setDischarge (p : Pump) (discharge : ℚ) : Except LErr Pump :=
  if discharge ≤ 0 then .error .nonPositivePressure else .ok { p with discharge := some discharge }

/-- `propagate_stream` (process/pump/pump.py:154-164). -/
def Pump.propagate (near : Curve → ℚ → ℚ → ℚ × ℚ) (p : Pump) (inlet : Liquid) : Except LErr Liquid :=
  match p.discharge with
  | none => .error .valueError
  | some d => do
    let r ← p.evaluate near inlet d
    inlet.withPressure r.discharge

/-- `get_max_volumetric_rate_m3_per_day` (process/pump/pump.py:252-259). -/
def Pump.maxRatePerDay (p : Pump) (suction discharge density : ℚ) : ℚ :=
  p.chart.maxRateAt (headOf suction discharge density) * 24

/-- `_project_streams` (pump_process_simulation.py:225-255): inlet → mixer, mixer → pump, pump → splitter,
splitter → choke, choke → outlet. -/
def projectStreams (r : Result) : Except LErr (List Liquid) := do
  let atSuction ← r.inlet.withMass (r.rate * r.inlet.density)
  let afterPump ← atSuction.withPressure r.discharge
  let beforeChoke ← r.inlet.withPressure r.discharge
  let afterChoke ← r.inlet.withPressure (min r.discharge r.requiredDischarge)
  return [r.inlet, atSuction, afterPump, beforeChoke, afterChoke]

/-- `_evaluate_one` (pump_process_simulation.py:215-223). -/
def evaluateOne (near : Curve → ℚ → ℚ → ℚ × ℚ) (p : Pump) (input : Liquid × ℚ) : Except LErr (Result × List Liquid) := do
  let r ← p.evaluate near input.1 input.2
  let s ← projectStreams r
  return (r, s)

/-- `PumpProcessSimulation.evaluate` (pump_process_simulation.py:212-213). -/
def evaluateAll (near : Curve → ℚ → ℚ → ℚ × ℚ) (p : Pump) (inputs : List (Liquid × ℚ)) :
    Except LErr (List (Result × List Liquid)) := inputs.mapM (evaluateOne near p)

/-- `_to_operating_input` (pump_process_simulation_mapper.py:109-145). -/
def toOperatingInput (rate suction discharge density : ℚ) : Except LErr (Liquid × ℚ) :=
  if suction ≤ 0 then .error .validation
  else if density ≤ 0 then .error .validation
  else do
    let inlet ← Liquid.fromRate rate suction density
    if 0 < rate then
      if discharge ≤ 0 then .error .validation else .ok (inlet, discharge)
    else .ok (inlet, if 0 < discharge then discharge else suction)

/-! ## The legacy pump -/

/-- `x + EPSILON` with `EPSILON = 1e-15` (domain/process/pump/pump.py:13). In double precision the sum is `x` again
once half a unit in the last place exceeds 1e-15, that is from 16 on. -/
def plusEps (x : ℚ) : ℚ := if 16 ≤ |x| then x else x + 1 / 1000000000000000

/-- `_adjust_for_head_margin` (domain/process/pump/pump.py:301-313). -/
def adjustHead (head maxHead margin : ℚ) : ℚ :=
  if margin ≠ 0 ∧ maxHead < head ∧ head ≤ maxHead + margin then maxHead else head

/-- `PumpModel` (domain/process/pump/pump.py:25-32). -/
structure Legacy where
  chart : Chart
  margin : ℚ
deriving DecidableEq, Repr

/-- `simulate` (domain/process/pump/pump.py:170-256): power, head and status; the rate is in m3/day. The efficiency is a
numpy number, a division by zero does not raise but gives infinity, which is `none`. -/
def Legacy.simulate (near : Curve → ℚ → ℚ → ℚ × ℚ) (p : Legacy) (rate suction discharge density : ℚ) :
    Option ℚ × ℚ × Status :=
  if rate ≤ 0 then (some 0, 0, .noFailure)
  else
    let required := headOf suction discharge density
    let r := max (rate / 24) (plusEps (p.chart.minRateAt required))
    let h := adjustHead (max required (plusEps (p.chart.minHeadAt r))) (p.chart.maxHeadAt r) p.margin
    let raw := density * h * r / 3600 / 1000000 / 1
    let power :=
      if p.chart.perfect then some raw
      else if p.chart.effAt near r h = 0 then none
      else some (raw / p.chart.effAt near r h)
    (power, required, status h (p.chart.maxHeadAt r) r p.chart.maxRate)

/-- `get_max_standard_rate` (domain/process/pump/pump.py:68-90). -/
def Legacy.maxRate (p : Legacy) (suction discharge density : ℚ) : ℚ :=
  p.chart.maxRateAt (headOf suction discharge density) * 24

/-- `PumpModelResult` with `_is_valid` (core/results/pump.py:17-61). -/
structure LegacyResult where
  power : List (Option ℚ)
  head : List ℚ
  status : List Status
deriving DecidableEq, Repr

/-- `_is_valid` (core/results/pump.py:57-61). -/
def LegacyResult.isValid (r : LegacyResult) : List Bool := r.status.map (· == .noFailure)

/-- `evaluate_rate_ps_pd_density` (domain/process/pump/pump.py:121-168). -/
def Legacy.evaluate (near : Curve → ℚ → ℚ → ℚ × ℚ) (p : Legacy) (rates suctions discharges densities : List ℚ) :
    Except LErr LegacyResult :=
  if ¬ (rates.length = suctions.length ∧ suctions.length = discharges.length ∧ discharges.length = densities.length) then
    .error .assertion
  else
    let rs := (rates.zip (suctions.zip (discharges.zip densities))).map
      fun q => p.simulate near q.1 q.2.1 q.2.2.1 q.2.2.2
    .ok ⟨rs.map (·.1), rs.map (·.2.1), rs.map (·.2.2)⟩

end Verif.Pumps
