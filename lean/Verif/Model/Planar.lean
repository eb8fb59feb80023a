import Verif.Model.Sampled

/-!
# Model of the two-dimensional sampled compressors

`src/libecalc/domain/process/compressor/core/sampled/convex_hull_common.py` (`get_lower_upper_qhull`,
`sort_ndarray_by_column`) for two dimensions and `compressor_model_sampled_2d.py`.

The geometric library (`scipy.spatial.ConvexHull`, `scipy.interpolate.LinearNDInterpolator`) is a parameter: it gives
the facets of the hull of the sampled points and the interpolated energy (`Geometry`). Of the half hulls only the points
are kept, because nothing else is used in two dimensions. `argsort` is modelled as a stable sort; numpy leaves the order
of equal values open.
-/

namespace Verif.Planar

open Verif.Rates Verif.Table Verif.Sampled

/-- The two columns of the points. -/
inductive Axis where
  | zero | one
  deriving DecidableEq, Repr

/-- The other column. -/
def Axis.other : Axis → Axis
  | .zero => .one
  | .one => .zero

/-- A coordinate of a point. -/
def coord (p : ℚ × ℚ) : Axis → ℚ
  | .zero => p.1
  | .one => p.2

/-- One facet of a `ConvexHull` in two dimensions: a row of `simplices` (indices of its two points) and of `equations`
(the outward normal and the offset: `a x + b y + c ≤ 0` inside). -/
structure Facet where
  i : Nat
  j : Nat
  a : ℚ
  b : ℚ
  c : ℚ
  deriving DecidableEq, Repr

/-- `qh.equations[f, axis]`. -/
def Facet.normal (f : Facet) : Axis → ℚ
  | .zero => f.a
  | .one => f.b

/-- `scipy.spatial.ConvexHull`: all points and the facets. -/
structure Hull where
  points : List (ℚ × ℚ)
  facets : List Facet

/-- `qh.max_bound[axis]`. -/
def Hull.maxBound (h : Hull) (ax : Axis) : ℚ :=
  (h.points.map (coord · ax)).foldl max ((h.points.map (coord · ax)).headD 0)

/-- `qh.min_bound[axis]`. -/
def Hull.minBound (h : Hull) (ax : Axis) : ℚ :=
  (h.points.map (coord · ax)).foldl min ((h.points.map (coord · ax)).headD 0)

/-- `test_point[axis]` (convex_hull_common.py:110). -/
def Hull.centre (h : Hull) (ax : Axis) : ℚ := (h.maxBound ax + h.minBound ax) / 2

/-- `test_values` of a facet that is not parallel to the axis (convex_hull_common.py:112-120). -/
def Hull.test (h : Hull) (ax : Axis) (f : Facet) : ℚ :=
  -1 * (f.c / f.normal ax) - f.normal ax.other / f.normal ax * h.centre ax.other

/-- `upper_simplices_indices` (convex_hull_common.py:112, 124). -/
def Hull.upper (h : Hull) (ax : Axis) : List Facet :=
  h.facets.filter fun f => decide (f.normal ax ≠ 0) && decide (h.centre ax ≤ h.test ax f)

/-- `lower_simplices_indices` (convex_hull_common.py:112, 125). -/
def Hull.lower (h : Hull) (ax : Axis) : List Facet :=
  h.facets.filter fun f => decide (f.normal ax ≠ 0) && decide (h.test ax f ≤ h.centre ax)

/-- `upper_monotonic_correct_simplices_indices` in two dimensions (convex_hull_common.py:198-222): the upper facets on
which the rate does not fall with the suction pressure, or does not rise with the discharge pressure. -/
def Hull.upperMonotonic (h : Hull) (k : Kind) : List Facet :=
  (h.upper .zero).filter fun f =>
    match k with
    | .ratePs => decide (f.b / f.a ≤ 0)
    | _ => decide (0 ≤ f.b / f.a)

/-- `qh.points[np.unique(qh.simplices[facets]), :]` (convex_hull_common.py:128-133, 224-227). -/
def Hull.pointsOf (h : Hull) (fs : List Facet) : List (ℚ × ℚ) :=
  ((List.range h.points.length).filter fun k => fs.any fun f => f.i == k || f.j == k).filterMap (h.points[·]?)

/-- An `interp1d` with its fill values. -/
structure Curve where
  rows : List (ℚ × ℚ)
  below : Fl
  above : Fl
  deriving DecidableEq, Repr

/-- Calling an `interp1d`. -/
def Curve.at (c : Curve) (x : ℚ) : Fl := lookupFl c.rows c.below c.above x

/-- The points as a function of one column, sorted by it (`sort_ndarray_by_column`, convex_hull_common.py:11-22). -/
def asRows (pts : List (ℚ × ℚ)) (x : Axis) : List (ℚ × ℚ) := sortRows (pts.map fun p => (coord p x, coord p x.other))

/-- `interp1d(..., fill_value=(first, last))`: indexing the first row of no rows is an IndexError. -/
def Curve.make (pts : List (ℚ × ℚ)) (x : Axis) : Except SErr Curve :=
  match firstLast (asRows pts x) with
  | none => .error .indexError
  | some (a, b) => .ok ⟨asRows pts x, some a.2, some b.2⟩

/-- `interp1d(..., fill_value=(first, 0))` for discharge pressures and `fill_value=(0, last)` for suction pressures
(compressor_model_sampled_2d.py:107-112, 247-252). -/
def Curve.makeMax (k : Kind) (pts : List (ℚ × ℚ)) : Except SErr Curve :=
  match firstLast (asRows pts .one) with
  | none => .error .indexError
  | some (a, b) =>
    .ok (if k = .ratePs then ⟨asRows pts .one, some 0, some b.2⟩ else ⟨asRows pts .one, some a.2, some 0⟩)

/-- `np.fmax`: a NaN is ignored. -/
def fmax (x : ℚ) (y : Fl) : ℚ := match y with
  | none => x
  | some y => max x y

/-- `np.fmin`: a NaN is ignored. -/
def fmin (x : ℚ) (y : Fl) : ℚ := match y with
  | none => x
  | some y => min x y

/-- The fields of a `CompressorModelSampled2D…`: the function that is used first and the one that is used second in
`_project_variables_for_evaluation`, and the maximum rate. -/
structure Plane where
  first : Curve
  second : Curve
  maxRate : Option Curve
  deriving DecidableEq, Repr

/-- `CompressorModelSampled2DRatePd.__init__` (compressor_model_sampled_2d.py:45-128); the maximum discharge pressure,
which nothing calls, is left out except that its rows are the same. -/
def makeRatePd (h : Hull) : Except SErr Plane := do
  let minRate ← Curve.make (h.pointsOf (h.lower .zero)) .one
  let minPd ← Curve.make (h.pointsOf (h.lower .one)) .zero
  let maxRate ← Curve.makeMax .ratePd (h.pointsOf (h.upperMonotonic .ratePd))
  return ⟨minRate, minPd, some maxRate⟩

/-- `CompressorModelSampled2DRatePs.__init__` (compressor_model_sampled_2d.py:208-253). -/
def makeRatePs (h : Hull) : Except SErr Plane := do
  let minRate ← Curve.make (h.pointsOf (h.lower .zero)) .one
  let maxPs ← Curve.make (h.pointsOf (h.upper .one)) .zero
  let maxRate ← Curve.makeMax .ratePs (h.pointsOf (h.upperMonotonic .ratePs))
  return ⟨minRate, maxPs, some maxRate⟩

/-- `CompressorModelSampled2DPsPd.__init__` (compressor_model_sampled_2d.py:277-321). -/
def makePsPd (h : Hull) : Except SErr Plane := do
  let minPd ← Curve.make (h.pointsOf (h.lower .one)) .zero
  let maxPs ← Curve.make (h.pointsOf (h.upper .zero)) .one
  return ⟨minPd, maxPs, none⟩

/-- The three constructors. -/
def Plane.make (k : Kind) (h : Hull) : Except SErr Plane :=
  match k with
  | .ratePd => makeRatePd h
  | .ratePs => makeRatePs h
  | .psPd => makePsPd h

/-- `_project_variables_for_evaluation` (compressor_model_sampled_2d.py:186-205, 266-270, 337-341). -/
def Plane.project (k : Kind) (pl : Plane) (x y : ℚ) : ℚ × ℚ :=
  match k with
  | .ratePd =>
    let rate := fmax x (pl.first.at y)
    (rate, fmax y (pl.second.at rate))
  | .ratePs =>
    let rate := fmax x (pl.first.at y)
    (rate, fmin y (pl.second.at rate))
  | .psPd =>
    let pd := fmax y (pl.first.at x)
    (fmin x (pl.second.at pd), pd)

/-- `get_max_rate` (compressor_model_sampled_2d.py:165-179, 263-264, 331-334). -/
def Plane.getMaxRate (pl : Plane) (pressure : ℚ) : Except SErr Fl :=
  match pl.maxRate with
  | none => .error .notImplemented
  | some c => .ok (c.at pressure)

/-- What the geometric library gives for rows of two variables and energy: the hull and the interpolated energy. -/
structure Geometry where
  hull : List (ℚ × ℚ × ℚ) → Except SErr Hull
  interp : List (ℚ × ℚ × ℚ) → ℚ × ℚ → Fl

/-- `evaluate` (compressor_model_sampled_2d.py:142-163, 255-261, 323-329). -/
def Geometry.evaluate (g : Geometry) (rows : List (ℚ × ℚ × ℚ)) (k : Kind) (pl : Plane) (x y : ℚ) : Fl :=
  g.interp rows (pl.project k x y)

/-- The two-dimensional interpolators in place of the parameter of `Model/Sampled.lean`. -/
def Geometry.engine (g : Geometry) (three : List (ℚ × ℚ × ℚ × ℚ) → Except SErr (ℚ → ℚ → ℚ → Fl)) : Engine :=
  { two := fun k rows => do
      let h ← g.hull rows
      let pl ← Plane.make k h
      return g.evaluate rows k pl
    three := three }

end Verif.Planar
