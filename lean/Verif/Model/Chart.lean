import Mathlib.Algebra.Order.Field.Rat
import Mathlib.Data.List.Sort
import Mathlib.Algebra.Order.Group.Abs
import Verif.Model.Table

/-!
# Model of pump and compressor charts

Sources: `libecalc/domain/process/value_objects/chart/base.py` (ChartCurve),
`libecalc/domain/process/value_objects/chart/chart.py` (Chart),
`libecalc/presentation/yaml/mappers/charts/user_defined_chart_data.py` (UserDefinedChartData).

Simplifications:
* a curve is stored as its first point and the remaining points, a chart as its first curve and the remaining curves;
  both are never empty in the code (base.py:43-46, chart.py:99-106), so no default value is needed;
* `numpy.argsort` without a kind is not documented to be stable; points of equal rate keep their order here;
* the geometry behind the efficiency (`shapely` distances in a rescaled chart) is a parameter `near`, see
  `Chart.effAt`;
* log messages are dropped.
-/

namespace Verif.Charts
open Verif.Time Verif.Table

/-- One point of a chart curve: rate [Am3/h], head [J/kg], efficiency as a fraction (base.py:28-34). -/
structure Pt where
  rate : ℚ
  head : ℚ
  eff : ℚ
deriving DecidableEq, Repr

/-- `ChartCurve` (base.py:15-54). -/
structure Curve where
  speed : ℚ
  first : Pt
  rest : List Pt
deriving DecidableEq, Repr

/-- `interp1d(x, y, fill_value=(below, above), bounds_error=False)(x)` on a table that is not empty. -/
def interp (rows : List (ℚ × ℚ)) (below above x : ℚ) : ℚ :=
  match lookup rows below above x with
  | .ok y => y
  | .error _ => 0

/-- All points of the curve, in the order they are stored. -/
def Curve.pts (c : Curve) : List Pt := c.first :: c.rest

/-- The last point of the curve. -/
def Curve.last (c : Curve) : Pt := c.pts.getLast (by simp [Curve.pts])

/-- `ChartCurve.__init__` (base.py:28-54): efficiencies between 0 and 1, columns of equal length, at least two points;
the points are sorted by rate. -/
def Curve.make (rates heads effs : List ℚ) (speed : ℚ) : Except Err Curve :=
  if ¬ (∀ e ∈ effs, 0 ≤ e ∧ e ≤ 1) then .error .validation
  else if ¬ (rates.length = heads.length ∧ heads.length = effs.length) then .error .validation
  else if rates.length < 2 then .error .validation
  else
    match (List.zipWith (fun r (he : ℚ × ℚ) => Pt.mk r he.1 he.2) rates (heads.zip effs)).insertionSort
        (fun a b => a.rate ≤ b.rate) with
    | [] => .error .validation
    | p :: rest => .ok ⟨speed, p, rest⟩

/-- `minimum_rate` (base.py:103-105): the rate of the first point. -/
def Curve.minRate (c : Curve) : ℚ := c.first.rate

/-- `maximum_rate` (base.py:107-109): the rate of the last point. -/
def Curve.maxRate (c : Curve) : ℚ := c.last.rate

/-- `head_as_function_of_rate` (base.py:121-129). -/
def Curve.headAt (c : Curve) (rate : ℚ) : ℚ :=
  interp (c.pts.map fun p => (p.rate, p.head)) c.first.head c.last.head rate

/-- `efficiency_as_function_of_rate` (base.py:111-119). -/
def Curve.effAt (c : Curve) (rate : ℚ) : ℚ :=
  interp (c.pts.map fun p => (p.rate, p.eff)) c.first.eff c.last.eff rate

/-- `rate_as_function_of_head` (base.py:131-140): the fill values are exchanged. -/
def Curve.rateAt (c : Curve) (head : ℚ) : ℚ :=
  interp (c.pts.map fun p => (p.head, p.rate)) c.last.rate c.first.rate head

/-- `numpy.min` of a list that is not empty. -/
def least (x : ℚ) (xs : List ℚ) : ℚ := xs.foldl min x

/-- `numpy.max` of a list that is not empty. -/
def greatest (x : ℚ) (xs : List ℚ) : ℚ := xs.foldl max x

/-- `_get_new_point` (base.py:197-201): the fill values are the smallest and the largest ordinate. -/
def Curve.newPoint (c : Curve) (y : Pt → ℚ) (x : ℚ) : ℚ :=
  interp (c.pts.map fun p => (p.rate, y p)) (least (y c.first) (c.rest.map y)) (greatest (y c.first) (c.rest.map y)) x

/-- The new minimum rate (base.py:203-204). -/
def Curve.marginRate (c : Curve) (margin : ℚ) : ℚ :=
  least c.first.rate (c.rest.map (·.rate)) +
    (greatest c.first.rate (c.rest.map (·.rate)) - least c.first.rate (c.rest.map (·.rate))) * margin

/-- `adjust_for_control_margin` (base.py:181-228): no margin and margin 0 give a copy; otherwise the points up to the
new minimum rate are removed and a point at the new minimum rate is put in front. -/
def Curve.adjust (c : Curve) : Option ℚ → Curve
  | none => c
  | some margin =>
    if margin = 0 then c
    else
      let m := c.marginRate margin
      ⟨c.speed, ⟨m, c.newPoint (·.head) m, c.newPoint (·.eff) m⟩, c.pts.filter (fun p => m < p.rate)⟩

/-- `Chart` (chart.py:86-114): at least one curve. -/
structure Chart where
  low : Curve
  more : List Curve
deriving DecidableEq, Repr

/-- `Chart.curves` (chart.py:112-114). -/
def Chart.curves (c : Chart) : List Curve := c.low :: c.more

/-- `maximum_speed_curve` (chart.py:128-130): the last curve. `minimum_speed_curve` (124-126) is `low`. -/
def Chart.high (c : Chart) : Curve := c.curves.getLast (by simp [Chart.curves])

/-- `UserDefinedChartData` followed by `Chart` (user_defined_chart_data.py:28-53, chart.py:86-106): the curves are
sorted by speed (stable) and adjusted for the control margin; no curve at all is refused. -/
def Chart.userDefined (curves : List Curve) (margin : Option ℚ) : Except Err Chart :=
  match (curves.insertionSort (fun a b => a.speed ≤ b.speed)).map (·.adjust margin) with
  | [] => .error .validation
  | c :: cs => .ok ⟨c, cs⟩

/-- `minimum_rate` (chart.py:140-142). -/
def Chart.minRate (c : Chart) : ℚ := least c.low.minRate (c.more.map (·.minRate))

/-- `maximum_rate` (chart.py:144-146). -/
def Chart.maxRate (c : Chart) : ℚ := greatest c.low.maxRate (c.more.map (·.maxRate))

/-- `is_100_percent_efficient` (chart.py:148-154, base.py:98-101). -/
def Chart.perfect (c : Chart) : Bool := c.curves.all fun k => k.pts.all fun p => p.eff == 1

/-- `minimum_head_as_function_of_rate` (chart.py:156-204): the minimum speed curve, then the stone wall up to the last
point of the maximum speed curve. -/
def Chart.minHeadAt (c : Chart) (rate : ℚ) : ℚ :=
  if c.low.last.rate < c.high.maxRate then
    interp ((c.low.pts.map fun p => (p.rate, p.head)) ++ [(c.high.last.rate, c.high.last.head)])
      c.low.first.head c.high.last.head rate
  else
    interp (c.low.pts.map fun p => (p.rate, p.head)) c.low.first.head c.low.last.head rate

/-- `minimum_rate_as_function_of_head` (chart.py:206-231): the line between the first points of the minimum and the
maximum speed curve. -/
def Chart.minRateAt (c : Chart) (head : ℚ) : ℚ :=
  interp [(c.low.first.head, c.low.first.rate), (c.high.first.head, c.high.first.rate)]
    c.low.first.rate c.high.first.rate head

/-- `minimum_rate_as_function_of_head_no_choking` (chart.py:233-261): the reversed minimum speed curve, then the first
point of the maximum speed curve. -/
def Chart.minRateNoChokeAt (c : Chart) (head : ℚ) : ℚ :=
  interp ((c.low.pts.reverse.map fun p => (p.head, p.rate)) ++ [(c.high.first.head, c.high.first.rate)])
    c.low.last.rate c.high.first.rate head

/-- The points of the maximum speed curve as (head, rate), sorted by head (chart.py:269-271, 306-308). -/
def Chart.highByHead (c : Chart) : List (ℚ × ℚ) := sortRows (c.high.pts.map fun p => (p.head, p.rate))

/-- `maximum_rate_as_function_of_head` (chart.py:263-285). -/
def Chart.maxRateAt (c : Chart) (head : ℚ) : ℚ :=
  interp c.highByHead (c.highByHead.headD (0, 0)).2 (c.highByHead.getLastD (0, 0)).2 head

/-- `maximum_rate_as_function_of_head_no_choking` (chart.py:287-324). -/
def Chart.maxRateNoChokeAt (c : Chart) (head : ℚ) : ℚ :=
  interp ((c.low.last.head, c.low.last.rate) :: c.highByHead) c.low.last.rate (c.highByHead.getLastD (0, 0)).2 head

/-- `maximum_head_as_function_of_rate` (chart.py:326-334). -/
def Chart.maxHeadAt (c : Chart) (rate : ℚ) : ℚ :=
  interp (c.high.pts.map fun p => (p.rate, p.head)) c.high.first.head c.high.last.head rate

/-- `minimum_rate_as_function_of_speed` (chart.py:336-349). -/
def Chart.minRateAtSpeed (c : Chart) (speed : ℚ) : ℚ :=
  interp (c.curves.map fun k => (k.speed, k.minRate)) c.low.minRate c.high.minRate speed

/-- `maximum_rate_as_function_of_speed` (chart.py:351-363). -/
def Chart.maxRateAtSpeed (c : Chart) (speed : ℚ) : ℚ :=
  interp (c.curves.map fun k => (k.speed, k.maxRate)) c.low.maxRate c.high.maxRate speed

/-- The nearest curves seen so far: distance and efficiency above and below the point (chart.py:424-427). `none` is an
infinite distance. -/
structure Near where
  above : Option ℚ
  effAbove : ℚ
  below : Option ℚ
  effBelow : ℚ
deriving DecidableEq, Repr

/-- One curve of the loop (chart.py:429-440): the curve is above the point when the distance is not negative. -/
def Near.step (n : Near) (d e : ℚ) : Near :=
  if 0 ≤ d ∧ (∀ a ∈ n.above, d < a) then { n with above := some d, effAbove := e }
  else if (∀ b ∈ n.below, b < d) ∧ d < 0 then { n with below := some d, effBelow := e }
  else n

/-- `_get_alpha_from_distances` (chart.py:452-466). -/
def Near.alpha (n : Near) : ℚ :=
  match n.above, n.below with
  | none, _ => 1
  | some _, none => 0
  | some a, some b => |a| / (|a| + |b|)

/-- `efficiency_as_function_of_rate_and_head` for one point (chart.py:365-450). `near c rate head` is the signed
distance of the point to the curve in the rescaled chart and the (unscaled) rate of the closest point of the curve. -/
def Chart.effAt (near : Curve → ℚ → ℚ → ℚ × ℚ) (c : Chart) (rate head : ℚ) : ℚ :=
  if c.perfect then 1
  else
    let n := c.curves.foldl (fun (n : Near) k => n.step (near k rate head).1 (k.effAt (near k rate head).2)) ⟨none, 1, none, 1⟩
    n.alpha * n.effBelow + (1 - n.alpha) * n.effAbove

/-- `closest_curve_below_speed` (chart.py:468-476). -/
def Chart.curveBelow (c : Chart) (speed : ℚ) : Option Curve := (c.curves.reverse.filter fun k => k.speed ≤ speed).head?

/-- `closest_curve_above_speed` (chart.py:478-486). -/
def Chart.curveAbove (c : Chart) (speed : ℚ) : Option Curve := (c.curves.filter fun k => speed ≤ k.speed).head?

/-- `get_curve_by_speed` (chart.py:488-493). -/
def Chart.curveAt (c : Chart) (speed : ℚ) : Option Curve := (c.curves.filter fun k => k.speed == speed).head?

end Verif.Charts
