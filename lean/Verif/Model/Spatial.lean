import Verif.Model.Planar
import Verif.Model.Numbers

/-!
# Model of the three-dimensional sampled compressor

`src/libecalc/domain/process/compressor/core/sampled/convex_hull_common.py` (the halves of a hull in three dimensions,
`Simplex`, `LinearInterpolatorSimplicesDefined`) and `compressor_model_sampled_3d.py`.

The geometric library (`scipy.spatial.ConvexHull`, `Delaunay`, `scipy.interpolate.LinearNDInterpolator`) is a parameter
(`Geometry`). Arrays are treated one operating point at a time; every operation of the code is elementwise. An infinite
fill value is `none`: it is only compared with a finite pressure from below, where NaN has the same effect.

Not modelled: the neighbours of the simplices, which nothing uses; `_project_variables_for_evaluation` and the
`_project_on_…` functions, which nothing calls; a constructor with `rescale_rate=False`, which nothing calls.
-/

namespace Verif.Spatial

open Verif.Rates Verif.Sampled

/-- A point of the sampled space: rate, suction and discharge pressure (`variable_order_3d`,
compressor_model_sampled_3d.py:107-110). -/
structure P3 where
  r : ℚ
  s : ℚ
  d : ℚ
  deriving DecidableEq, Repr

/-- A coordinate of a point. -/
def P3.coord (p : P3) : Var → ℚ
  | .rate => p.r
  | .ps => p.s
  | .pd => p.d

/-- `eval_axes`, `variable_axes`: the other two axes in order (convex_hull_common.py:117,
compressor_model_sampled_3d.py:577, 655, 731). -/
def others : Var → Var × Var
  | .rate => (.ps, .pd)
  | .ps => (.rate, .pd)
  | .pd => (.rate, .ps)

/-- A point with its axes reordered: the two variables, then the function value (`HalfConvexHull.reorder_axes`,
convex_hull_common.py:55-64; the code puts the function value first). -/
def row (ax : Var) (p : P3) : ℚ × ℚ × ℚ := (p.coord (others ax).1, p.coord (others ax).2, p.coord ax)

/-- One facet of a `ConvexHull` in three dimensions: its three points and its equation `a r + b s + c d + e ≤ 0`. -/
structure Facet where
  i : Nat
  j : Nat
  k : Nat
  a : ℚ
  b : ℚ
  c : ℚ
  e : ℚ
  deriving DecidableEq, Repr

/-- `qh.equations[f, axis]`. -/
def Facet.normal (f : Facet) : Var → ℚ
  | .rate => f.a
  | .ps => f.b
  | .pd => f.c

/-- `scipy.spatial.ConvexHull`. -/
structure Hull where
  points : List P3
  facets : List Facet

/-- `qh.max_bound[axis]`. -/
def Hull.maxBound (h : Hull) (ax : Var) : ℚ :=
  (h.points.map (·.coord ax)).foldl max ((h.points.map (·.coord ax)).headD 0)

/-- `qh.min_bound[axis]`. -/
def Hull.minBound (h : Hull) (ax : Var) : ℚ :=
  (h.points.map (·.coord ax)).foldl min ((h.points.map (·.coord ax)).headD 0)

/-- `test_point[axis]` (convex_hull_common.py:110). -/
def Hull.centre (h : Hull) (ax : Var) : ℚ := (h.maxBound ax + h.minBound ax) / 2

/-- `test_values` of a facet that is not parallel to the axis (convex_hull_common.py:112-120). -/
def Hull.test (h : Hull) (ax : Var) (f : Facet) : ℚ :=
  -1 * (f.e / f.normal ax) - f.normal (others ax).1 / f.normal ax * h.centre (others ax).1
    - f.normal (others ax).2 / f.normal ax * h.centre (others ax).2

/-- `upper_simplices_indices` (convex_hull_common.py:112, 124). -/
def Hull.upper (h : Hull) (ax : Var) : List Facet :=
  h.facets.filter fun f => decide (f.normal ax ≠ 0) && decide (h.centre ax ≤ h.test ax f)

/-- `lower_simplices_indices` (convex_hull_common.py:112, 125). -/
def Hull.lower (h : Hull) (ax : Var) : List Facet :=
  h.facets.filter fun f => decide (f.normal ax ≠ 0) && decide (h.test ax f ≤ h.centre ax)

/-- `upper_monotonic_correct_simplices_indices` in three dimensions (convex_hull_common.py:175-188): the upper facets on
which the rate does not fall with the suction pressure and does not rise with the discharge pressure. -/
def Hull.upperMonotonic (h : Hull) : List Facet :=
  (h.upper .rate).filter fun f => decide (f.b / f.a ≤ 0) && decide (0 ≤ f.c / f.a)

/-- `np.unique(qh.simplices[facets])` (convex_hull_common.py:128-129, 189-191). -/
def Hull.indicesOf (h : Hull) (fs : List Facet) : List Nat :=
  (List.range h.points.length).filter fun n => fs.any fun f => f.i == n || f.j == n || f.k == n

/-- `qh.points[indices, :]` (convex_hull_common.py:132-133, 192). -/
def Hull.pointsOf (h : Hull) (fs : List Facet) : List P3 := (h.indicesOf fs).filterMap (h.points[·]?)

/-- A node of a simplex: its index is looked up among the indices of the half, and the result among the points of the
half (`_compute_simplices_in_new_pointset`, convex_hull_common.py:71-90, 394). -/
def Hull.node (h : Hull) (fs : List Facet) (n : Nat) : Option P3 :=
  ((h.indicesOf fs).idxOf? n).bind ((h.pointsOf fs)[·]?)

/-- A `Simplex` without rescaling: its nodes as `row`s and its equation `u x + v y + w value + e = 0`
(convex_hull_common.py:253-271). -/
structure Simplex where
  p : ℚ × ℚ × ℚ
  q : ℚ × ℚ × ℚ
  t : ℚ × ℚ × ℚ
  u : ℚ
  v : ℚ
  w : ℚ
  e : ℚ
  deriving DecidableEq, Repr

/-- `_setup_simplices_from_qhulltable` for a half of the hull with its axes reordered (convex_hull_common.py:55-64,
384-401). -/
def Hull.simplices (h : Hull) (ax : Var) (fs : List Facet) : List Simplex :=
  fs.filterMap fun f =>
    match h.node fs f.i, h.node fs f.j, h.node fs f.k with
    | some p, some q, some t =>
      some ⟨row ax p, row ax q, row ax t, f.normal (others ax).1, f.normal (others ax).2, f.normal ax, f.e⟩
    | _, _, _ => none

/-- `cross_2d` (convex_hull_common.py:444-445). -/
def cross (u v : ℚ × ℚ) : ℚ := u.1 * v.2 - u.2 * v.1

/-- `check_side` (convex_hull_common.py:447-453). -/
def checkSide (p v0 v1 ref : ℚ × ℚ) : ℚ := cross v0 (p.1 - ref.1, p.2 - ref.2) * cross v0 v1

/-- The difference of two points. -/
def diff (a b : ℚ × ℚ) : ℚ × ℚ := (a.1 - b.1, a.2 - b.2)

/-- `_is_inside` (convex_hull_common.py:426-460). -/
def isInside (p a b c : ℚ × ℚ) : Bool :=
  !(decide (checkSide p (diff c b) (diff a b) b < 0)) && !(decide (checkSide p (diff c a) (diff b a) a < 0)) &&
    !(decide (checkSide p (diff b a) (diff c a) a < 0))

/-- `Simplex.evaluate_surface` without rescaling (convex_hull_common.py:290-331). -/
def Simplex.at (x : Simplex) (z : ℚ × ℚ) : Fl :=
  if x.w = 0 then none
  else some (-1 * x.e / x.w + -1 * x.u / x.w * z.1 + -1 * x.v / x.w * z.2)

/-- The variables of a node. -/
def vars (p : ℚ × ℚ × ℚ) : ℚ × ℚ := (p.1, p.2.1)

/-- The loop over the simplices: a later simplex that contains the point replaces the value of an earlier one
(convex_hull_common.py:468-484). -/
def onSimplices (xs : List Simplex) (z : ℚ × ℚ) : Fl :=
  xs.foldl (fun acc x => if isInside z (vars x.p) (vars x.q) (vars x.t) then x.at z else acc) none

/-- `LinearInterpolatorSimplicesDefined`: the simplices, the points for the interpolation elsewhere, the fill value. -/
structure Surface where
  simplices : List Simplex
  rows : List (ℚ × ℚ × ℚ)
  fill : Fl
  deriving DecidableEq, Repr

/-- What the geometric library gives: the hulls and the interpolated values in two and three dimensions. -/
structure Geometry where
  plane : Planar.Geometry
  hull : List P3 → Except SErr Hull
  interp : List (P3 × ℚ) → P3 → Fl

/-- `LinearInterpolatorSimplicesDefined.evaluate` (convex_hull_common.py:462-496). -/
def Surface.at (g : Geometry) (x : Surface) (z : ℚ × ℚ) : Fl :=
  match onSimplices x.simplices z with
  | some v => some v
  | none => match g.plane.interp x.rows z with
    | some v => some v
    | none => x.fill

/-- The two variables of a function along an axis. -/
def kindOf : Var → Kind
  | .rate => .psPd
  | .ps => .ratePd
  | .pd => .ratePs

/-- The functions that move the two variables into the area (compressor_model_sampled_3d.py:582-615, 659-690, 735-767).
There is no maximum rate here. -/
def projection (k : Kind) (h : Planar.Hull) : Except SErr Planar.Plane :=
  match k with
  | .ratePd => do
    let minRate ← Planar.Curve.make (h.pointsOf (h.lower .zero)) .one
    let minPd ← Planar.Curve.make (h.pointsOf (h.lower .one)) .zero
    return ⟨minRate, minPd, none⟩
  | .ratePs => do
    let minRate ← Planar.Curve.make (h.pointsOf (h.lower .zero)) .one
    let maxPs ← Planar.Curve.make (h.pointsOf (h.upper .one)) .zero
    return ⟨minRate, maxPs, none⟩
  | .psPd => do
    let minPd ← Planar.Curve.make (h.pointsOf (h.lower .one)) .zero
    let maxPs ← Planar.Curve.make (h.pointsOf (h.upper .zero)) .one
    return ⟨minPd, maxPs, none⟩

/-- An `interp1d` whose points were sorted by the function value instead of the variable, so that the fill values are
the smallest and the largest value (compressor_model_sampled_3d.py:813-838). -/
def makeByValue (pts : List (ℚ × ℚ)) (x : Planar.Axis) : Except SErr Planar.Curve :=
  match firstLast (Planar.asRows pts x.other) with
  | none => .error .indexError
  | some (a, b) => .ok ⟨Planar.asRows pts x, some a.1, some b.1⟩

/-- The functions that move the pressures into the area of the maximum rate (compressor_model_sampled_3d.py:805-838). -/
def maxProjection (h : Planar.Hull) : Except SErr Planar.Plane := do
  let minPd ← makeByValue (h.pointsOf (h.lower .one)) .zero
  let maxPs ← makeByValue (h.pointsOf (h.upper .zero)) .one
  return ⟨minPd, maxPs, none⟩

/-- One limit of the sampled space: how its two variables are moved into the area, the limit, and the rows of variables
and energy of the points on it. -/
structure Side where
  plane : Planar.Plane
  limit : Surface
  energies : List (ℚ × ℚ × ℚ)
  deriving DecidableEq, Repr

/-- `qhull_points[indices][:, axes]` and `sampled_data[function_header][indices]` (compressor_model_sampled_3d.py:169-174,
187-196, 201-206, 222-227). -/
def energyRows (h : Hull) (energies : List ℚ) (ax : Var) (fs : List Facet) : List (ℚ × ℚ × ℚ) :=
  (h.indicesOf fs).filterMap fun n =>
    match h.points[n]?, energies[n]? with
    | some p, some e => some (p.coord (others ax).1, p.coord (others ax).2, e)
    | _, _ => none

/-- `_setup_minimum_rate_projection_functions`, `_setup_minimum_pd_projection_functions`,
`_setup_maximum_ps_projection_functions` (compressor_model_sampled_3d.py:559-778) with the energies on the limit. -/
def makeSide (g : Geometry) (h : Hull) (energies : List ℚ) (ax : Var) (fs : List Facet) (fill : Fl) : Except SErr Side := do
  let rows := (h.pointsOf fs).map (row ax)
  let pl ← projection (kindOf ax) (← g.plane.hull rows)
  return ⟨pl, ⟨h.simplices ax fs, rows, fill⟩, energyRows h energies ax fs⟩

/-- `_setup_maximum_rate_projection_functions` (compressor_model_sampled_3d.py:781-853). -/
def makeMax (g : Geometry) (h : Hull) (energies : List ℚ) : Except SErr Side := do
  let fs := h.upperMonotonic
  let rows := (h.pointsOf fs).map (row .rate)
  let pl ← maxProjection (← g.plane.hull rows)
  return ⟨pl, ⟨h.simplices .rate fs, rows, some 0⟩, energyRows h energies .rate fs⟩

/-- The fields of a `CompressorModelSampled3D`. -/
structure Space where
  scale : ℤ
  samples : List (P3 × ℚ)
  low : ℚ
  high : ℚ
  minRate : Side
  maxRate : Side
  minPd : Side
  maxPs : Side
  deriving DecidableEq, Repr

/-- `mean()` of a column. -/
def mean (l : List ℚ) : ℚ := l.sum / l.length

/-- `self._scale_factor_rate` (compressor_model_sampled_3d.py:124-126): the mean of nothing, and a quotient of zeros, is
NaN, which cannot be rounded. -/
def scaleFactor (rows : List (ℚ × ℚ × ℚ × ℚ)) : Except SErr ℤ :=
  let pressures := mean (rows.map (·.2.1)) + mean (rows.map (·.2.2.1))
  if rows = [] ∨ pressures = 0 then .error .valueError
  else .ok (Numbers.halfEven (2 * mean (rows.map (·.1)) / pressures))

/-- The sampled points with the rate divided by the scale factor (compressor_model_sampled_3d.py:121-132). -/
def scaled (k : ℤ) (rows : List (ℚ × ℚ × ℚ × ℚ)) : List (P3 × ℚ) := rows.map fun x => (⟨x.1 / k, x.2.1, x.2.2.1⟩, x.2.2.2)

/-- `CompressorModelSampled3D.__init__` (compressor_model_sampled_3d.py:113-238). With the scale factor zero the points
are not finite, which the geometric library rejects. -/
def create (g : Geometry) (rows : List (ℚ × ℚ × ℚ × ℚ)) : Except SErr Space := do
  let k ← scaleFactor rows
  if k = 0 then throw .hull
  let samples := scaled k rows
  let energies := samples.map (·.2)
  let h ← g.hull (samples.map (·.1))
  let minRate ← makeSide g h energies .rate (h.lower .rate) (some 0)
  let maxRate ← makeMax g h energies
  let minPd ← makeSide g h energies .pd (h.lower .pd) (some 0)
  let maxPs ← makeSide g h energies .ps (h.upper .ps) none
  return ⟨k, samples, h.minBound .rate, h.maxBound .rate, minRate, maxRate, minPd, maxPs⟩

/-- `numerical_uncertainty_factor` (compressor_model_sampled_3d.py:16, 348). -/
def Space.slack (x : Space) : ℚ := (x.high - x.low) * (1 / 10000)

/-- `_project_and_calculate_outsiders_rate` (compressor_model_sampled_3d.py:332-373, 442-467). -/
def Space.outsideRate (g : Geometry) (x : Space) (rate ps pd : ℚ) : Fl :=
  let low := x.minRate.plane.project .psPd ps pd
  let below := match x.minRate.limit.at g low with
    | some m => if rate ≤ m + x.slack then g.plane.interp x.minRate.energies low else none
    | none => none
  let high := x.maxRate.plane.project .psPd ps pd
  match x.maxRate.limit.at g high with
  | some m => if |rate - m| < x.slack then g.plane.interp x.maxRate.energies high else below
  | none => below

/-- `_project_and_calculate_outsiders_pd` (compressor_model_sampled_3d.py:375-398, 484-498). -/
def Space.outsidePd (g : Geometry) (x : Space) (rate ps pd : ℚ) : Fl :=
  let z := x.minPd.plane.project .ratePs rate ps
  match x.minPd.limit.at g z with
  | some m => if pd ≤ m then g.plane.interp x.minPd.energies z else none
  | none => none

/-- `_project_and_calculate_outsiders_ps` (compressor_model_sampled_3d.py:400-423, 470-481). -/
def Space.outsidePs (g : Geometry) (x : Space) (rate ps pd : ℚ) : Fl :=
  let z := x.maxPs.plane.project .ratePd rate pd
  match x.maxPs.limit.at g z with
  | some m => if m ≤ ps then g.plane.interp x.maxPs.energies z else none
  | none => none

/-- The first value that is not NaN. -/
def orElse (a b : Fl) : Fl := match a with
  | some v => some v
  | none => b

/-- `evaluate` (compressor_model_sampled_3d.py:257-291). -/
def Space.evaluate (g : Geometry) (x : Space) (rate ps pd : ℚ) : Fl :=
  let r := rate / x.scale
  orElse (g.interp x.samples ⟨r, ps, pd⟩)
    (orElse (x.outsideRate g r ps pd) (orElse (x.outsidePd g r ps pd) (x.outsidePs g r ps pd)))

/-- `get_max_rate` (compressor_model_sampled_3d.py:240-255). -/
def Space.getMaxRate (g : Geometry) (x : Space) (ps pd : ℚ) : Fl :=
  (x.maxRate.limit.at g (x.maxRate.plane.project .psPd ps pd)).map (· * x.scale)

/-- The two- and three-dimensional interpolators in place of the parameter of `Model/Sampled.lean`. -/
def Geometry.engine (g : Geometry) : Engine :=
  g.plane.engine fun rows => do
    let x ← create g rows
    return x.evaluate g

end Verif.Spatial
