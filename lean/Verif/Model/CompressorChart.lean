import Mathlib.Algebra.Order.Field.Rat
import Verif.Model.Chart

/-!
# Model of the compressor chart

Source: `libecalc/domain/process/value_objects/chart/compressor/compressor_chart.py` (CompressorChart).

Simplifications:
* one point at a time (the code maps over arrays entry by entry);
* inputs are numbers; NaN inputs are not modelled. A result that is not a number is `none`;
* log messages are dropped; both kinds of `IllegalStateException` are the error `assertion`.
-/

namespace Verif.Charts
open Verif.Time Verif.Table

/-- `EPSILON` (compressor_chart.py:16). -/
def noFlow : ℚ := 1 / 100000

/-- `NUMERICAL_TOLERANCE` (compressor_chart.py:17). -/
def rateTol : ℚ := 1 / 10000000

/-- The entries of `CompressorChartResult` for one point (compressor/types.py). -/
structure Capacity where
  rate : ℚ
  head : ℚ
  recirculates : Bool
  choked : Bool
  rateExceeds : Bool
  headExceeds : Bool
  exceeds : Bool
deriving DecidableEq, Repr

/-- `get_maximum_rate` (compressor_chart.py:21-49). -/
def Chart.maximumRate (c : Chart) (head : ℚ) (extrapolate : Bool) : ℚ :=
  if extrapolate then c.maxRateAt head else c.maxRateNoChokeAt head

/-- `evaluate_capacity_and_extrapolate_below_minimum` (compressor_chart.py:51-114). -/
def Chart.capacity (c : Chart) (rate head : ℚ) (extrapolate : Bool) : Capacity :=
  let minimum := if extrapolate then c.minRateAt head else c.minRateNoChokeAt head
  let asv := max minimum rate
  let minHead := c.minHeadAt asv
  let choked := extrapolate && decide (head < minHead)
  let head' := if extrapolate then max minHead head else head
  let below := !extrapolate && decide (head < minHead)
  let rateExceeds := decide (c.maximumRate head extrapolate < asv)
  let headExceeds := decide (c.maxHeadAt rate < head')
  { rate := asv, head := head', recirculates := decide (rate < minimum), choked := choked, rateExceeds := rateExceeds,
    headExceeds := headExceeds, exceeds := !(!rateExceeds && !headExceeds && !below) }

/-- The members of `ChartAreaFlag` that are used here (chart_area_flag.py). -/
inductive Area where
  | internal | belowFlow | aboveFlow | belowSpeed | aboveSpeed | belowSpeedBelowFlow | belowSpeedAboveFlow | noFlow
deriving DecidableEq, Repr

/-- `_evaluate_point_validity_chart_area_flag_and_adjusted_speed_and_rate` (compressor_chart.py:221-299): validity,
area, speed and rate to use. `rate` is the rate through the machine, `actual` the rate without recirculation. -/
def Chart.place (c : Chart) (speed actual rate : ℚ) (choke asv : Bool) : Bool × Area × ℚ × ℚ :=
  let (valid, area, speed', increased) :=
    if speed < c.low.speed then
      if choke then (true, Area.belowSpeed, c.low.speed, true) else (false, Area.belowSpeed, speed, false)
    else if c.high.speed < speed then (false, Area.aboveSpeed, speed, false)
    else (true, Area.internal, speed, false)
  if valid then
    let lo := c.minRateAtSpeed speed'
    let hi := c.maxRateAtSpeed speed'
    let (valid, rate') := if rate < lo then (if asv then (true, lo) else (false, rate)) else (true, rate)
    if actual ≤ noFlow then (valid, .noFlow, speed', rate')
    else if actual < lo then (valid, if increased then .belowSpeedBelowFlow else .belowFlow, speed', rate')
    else if hi < actual then (false, if increased then .belowSpeedAboveFlow else .aboveFlow, speed', rate')
    else (valid, area, speed', rate')
  else (valid, area, speed', rate)

/-- `_calculate_scaling_factors_for_speed_below_and_above` (compressor_chart.py:455-470): the weight of the curve
below; the other one is the rest to 1. -/
def weightBelow (speed above below : ℚ) : ℚ :=
  if (above - speed) + (speed - below) = 0 then 0 else (above - speed) / ((above - speed) + (speed - below))

/-- `_calculate_equivalent_rates_for_speed_below_and_above` (compressor_chart.py:472-519) up to the last step: the
fraction of the way from the minimum to the maximum rate. A width of zero gives NaN or infinity, which is `none`. -/
def rateFraction (w minBelow maxBelow minAbove maxAbove rate : ℚ) : Except Err (Option ℚ) :=
  let lo := w * minBelow + (1 - w) * minAbove
  let hi := w * maxBelow + (1 - w) * maxAbove
  if (hi < rate ∧ rateTol < |rate - hi|) ∨ (rate < lo ∧ rateTol < |rate - lo|) then .error .assertion
  else .ok (if hi - lo = 0 then none else some ((rate - lo) / (hi - lo)))

/-- `calculate_head_and_efficiency_for_internal_point_between_given_speeds` (compressor_chart.py:343-419). -/
def Chart.between (c : Chart) (speed rate : ℚ) : Except Err (Option (ℚ × ℚ)) :=
  match c.curveBelow speed, c.curveAbove speed with
  | some b, some a => do
    let w := weightBelow speed a.speed b.speed
    let f ← rateFraction w b.minRate b.maxRate a.minRate a.maxRate rate
    return f.map fun t =>
      let rb := b.minRate + (b.maxRate - b.minRate) * t
      let ra := a.minRate + (a.maxRate - a.minRate) * t
      (b.headAt rb * w + a.headAt ra * (1 - w), b.effAt rb * w + a.effAt ra * (1 - w))
  | _, _ => .error .assertion

/-- The interpolations of head and efficiency at the ends of the curves (compressor_chart.py:126-172). -/
def Chart.atEnds (c : Chart) (val : Curve → ℚ) (speed : ℚ) : ℚ :=
  interp (c.curves.map fun k => (k.speed, val k)) (val c.low) (val c.high) speed

/-- `_calculate_extrapolated_values_for_external_points` (compressor_chart.py:421-453). -/
def Chart.external (c : Chart) (speed : ℚ) : Area → Except Err (Option (ℚ × ℚ))
  | .belowSpeed | .aboveSpeed => .ok none
  | .aboveFlow | .belowSpeedAboveFlow => .ok (some (c.atEnds (·.last.head) speed, c.atEnds (·.last.eff) speed))
  | .belowFlow | .belowSpeedBelowFlow => .ok (some (c.atEnds (·.first.head) speed, c.atEnds (·.first.eff) speed))
  | .internal | .noFlow => .error .assertion

/-- `_calculate_polytropic_head_and_efficiency` (compressor_chart.py:301-341). -/
def Chart.headEff (c : Chart) (valid : Bool) (speed rate : ℚ) (area : Area) : Except Err (Option (ℚ × ℚ)) :=
  if valid then
    match c.curveAt speed with
    | some k => .ok (some (k.headAt rate, k.effAt rate))
    | none => c.between speed rate
  else c.external speed area

/-- `CompressorChartHeadEfficiencyResultSinglePoint` (compressor/types.py). -/
structure PointResult where
  value : Option (ℚ × ℚ)
  area : Area
  valid : Bool
deriving DecidableEq, Repr

/-- `calculate_polytropic_head_and_efficiency_single_point` (compressor_chart.py:174-219). -/
def Chart.point (c : Chart) (speed actual : ℚ) (including : Option ℚ) (choke asv : Bool) : Except Err PointResult := do
  let (valid, area, speed', rate') := c.place speed actual (including.getD actual) choke asv
  let v ← c.headEff valid speed' rate' area
  return ⟨v, area, valid⟩

end Verif.Charts
