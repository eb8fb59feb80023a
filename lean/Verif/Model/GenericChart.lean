import Verif.Model.CompressorChart
import Verif.Model.Search

/-!
# Model of the generic compressor charts

Sources: `libecalc/domain/process/value_objects/chart/compressor/generic_chart_data.py` (the unified curves),
`libecalc/domain/process/value_objects/chart/compressor/chart_creator.py` (CompressorChartCreator),
`libecalc/presentation/yaml/mappers/charts/generic_from_design_point_chart_data.py` (no adjustment of the curves).

Simplifications:
* the decimal constants are exact;
* input points are pairs of rate and head (two lists of equal length in the code);
* inside the search the charts are built without checking the efficiency, which is the same in all of them and is
  checked first; and without sorting, which changes nothing for rates that are not negative (`C63_design`);
* the `while` loops take a number of passes as fuel; `C64_terminates` shows that they end by themselves.
-/

namespace Verif.Charts
open Verif.Time Verif.Table Verif.Search

/-- `UNIFIED_CHART_CURVE_DATA_75` (generic_chart_data.py:40-50): first point. -/
def slowFirst : ℚ × ℚ := (0.498902665, 0.558852888)

/-- `UNIFIED_CHART_CURVE_DATA_75` (generic_chart_data.py:40-50): remaining points. -/
def slowRest : List (ℚ × ℚ) :=
  [(0.529285159, 0.546703033), (0.553058057, 0.5325282), (0.612499498, 0.506203512), (0.667962103, 0.46570399),
   (0.70889013, 0.427229447), (0.730015921, 0.409004665)]

/-- `UNIFIED_GENERIC_CHART_CURVE_DATA_105` (generic_chart_data.py:12-24): first point. -/
def fastFirst : ℚ × ℚ := (0.878913798, 1.289869247)

/-- `UNIFIED_GENERIC_CHART_CURVE_DATA_105` (generic_chart_data.py:12-24): remaining points. -/
def fastRest : List (ℚ × ℚ) :=
  [(0.929112832, 1.271644457), (0.97269818, 1.247344747), (1.038726745, 1.200770298), (1.099463139, 1.148120922),
   (1.158871891, 1.089396618), (1.231463064, 0.99827269), (1.278951663, 0.913223698), (1.323778851, 0.809949924)]

/-- `maximum_rate_on_maximum_speed_curve_unified` (chart_creator.py:63). -/
def fastMaxRate : ℚ := 1.323778851

/-- `maximum_change_in_rate_unified` (chart_creator.py:63-69). -/
def rateChange : ℚ := 1.323778851 - 0.730015921

/-- `maximum_change_in_head_unified` (chart_creator.py:64-72). -/
def headChange : ℚ := 1.289869247 - 0.809949924

/-- One point of the unified curve scaled by the design point (chart_creator.py:228-231). -/
def scalePt (rate head eff : ℚ) (p : ℚ × ℚ) : Pt := ⟨rate * p.1, head * p.2, eff⟩

/-- The curves of `from_rate_and_head_design_point` without the checks of `ChartCurve` (chart_creator.py:228-247). -/
def genericChart (rate head eff : ℚ) : Chart :=
  ⟨⟨75, scalePt rate head eff slowFirst, slowRest.map (scalePt rate head eff)⟩,
   [⟨105, scalePt rate head eff fastFirst, fastRest.map (scalePt rate head eff)⟩]⟩

/-- `from_rate_and_head_design_point` (chart_creator.py:208-251) followed by `Chart(...)` (chart.py:86-106). -/
def genericFromDesign (rate head eff : ℚ) : Except Err Chart := do
  let slow := slowFirst :: slowRest
  let fast := fastFirst :: fastRest
  let low ← Curve.make (slow.map fun p => rate * p.1) (slow.map fun p => head * p.2) (slow.map fun _ => eff) 75
  let high ← Curve.make (fast.map fun p => rate * p.1) (fast.map fun p => head * p.2) (fast.map fun _ => eff) 105
  return ⟨low, [high]⟩

/-- `any_points_below_stone_wall` (compressor/types.py:42-50) of the result without choking (chart_creator.py:86-98). -/
def anyBelow (ch : Chart) (pts : List (ℚ × ℚ)) : Bool :=
  pts.any fun p => (ch.capacity p.1 p.2 false).rateExceeds && !(ch.capacity p.1 p.2 false).headExceeds

/-- `any_points_above_maximum_speed_curve` (compressor/types.py:52-59) of the result without choking. -/
def anyAbove (ch : Chart) (pts : List (ℚ × ℚ)) : Bool :=
  pts.any fun p => (ch.capacity p.1 p.2 false).rateExceeds && (ch.capacity p.1 p.2 false).headExceeds

/-- What stays the same during the search: the points, the efficiency and the scales (chart_creator.py:74-80). -/
structure Fitting where
  pts : List (ℚ × ℚ)
  eff : ℚ
  scaleRate : ℚ
  scaleHead : ℚ

/-- `_create_compressor_chart_result_from_unified_design_point` (chart_creator.py:85-98): the chart. -/
def Fitting.chart (s : Fitting) (rate head : ℚ) : Chart :=
  genericChart (rate * s.scaleRate) (head * s.scaleHead) s.eff

/-- Points below the stone wall for a unified design point. -/
def Fitting.below (s : Fitting) (rate head : ℚ) : Bool := anyBelow (s.chart rate head) s.pts

/-- Points above the maximum speed curve for a unified design point. -/
def Fitting.above (s : Fitting) (rate head : ℚ) : Bool := anyAbove (s.chart rate head) s.pts

/-- `maximize_x_given_boolean_condition_function` with its default tolerance and iterations (numeric_methods.py:10-11,
186-224). -/
def maximizeDefault (lo hi : ℚ) (f : ℚ → Bool) : ℚ := maximizeX (1 / 100000) 50 lo hi f

/-- The largest design head without points below the stone wall (chart_creator.py:136-145, 151-160, 184-193). -/
def Fitting.raiseHead (s : Fitting) (rate head : ℚ) : ℚ :=
  maximizeDefault head (1 + headChange) fun x => !s.below rate x

/-- The `while` loop (chart_creator.py:128-145 and 178-193), both times the same. `none`: out of fuel. -/
def Fitting.grow (s : Fitting) : Nat → ℚ → ℚ → Option (ℚ × ℚ)
  | 0, _, _ => none
  | n + 1, rate, head =>
    if s.above rate head then s.grow n (rate + 1 / 100) (s.raiseHead (rate + 1 / 100) head) else some (rate, head)

/-- The scenarios (chart_creator.py:100-193): the unified design rate and head. -/
def Fitting.design (s : Fitting) (fuel : Nat) : Option (ℚ × ℚ) :=
  if s.below 1 1 then
    let rate := (1 + rateChange) - maximizeDefault 0 ((1 + rateChange) - 1) fun x => !s.below ((1 + rateChange) - x) 1
    s.grow fuel rate 1
  else if s.above 1 1 then
    let head := s.raiseHead 1 1
    if !s.above 1 head then
      some (1 - maximizeDefault 0 headChange (fun x => !s.above 1 (head - x)), head)
    else s.grow fuel 1 head
  else some (1, 1)

/-- `from_rate_and_head_values` (chart_creator.py:22-206): the design rate, the design head and the chart. `numpy.max`
of nothing is a ValueError. -/
def genericFromInput (fuel : Nat) (pts : List (ℚ × ℚ)) (eff : ℚ) : Except Err (Option (ℚ × ℚ × Chart)) :=
  match pts with
  | [] => .error .valueError
  | p :: ps =>
    let scaleRate := greatest p.1 (ps.map (·.1)) / fastMaxRate
    let scaleHead := greatest p.2 (ps.map (·.2)) / 1.289869247
    let s : Fitting := ⟨p :: ps, eff, scaleRate, scaleHead⟩
    do
      let _ ← genericFromDesign scaleRate scaleHead eff
      match s.design fuel with
      | none => return none
      | some (rate, head) =>
        let chart ← genericFromDesign (rate * scaleRate) (head * scaleHead) eff
        return some (rate * scaleRate, head * scaleHead, chart)

end Verif.Charts
