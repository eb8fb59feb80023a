import Mathlib.Data.List.Dedup
import Verif.Model.Table

/-!
# Model of the compressor model made from sampled data

`src/libecalc/domain/process/compressor/core/sampled/`: `compressor_model_sampled.py` (validation, dropping of
constant variables, evaluation, the turbine that turns fuel into power) and `compressor_model_sampled_1d.py`. The
two- and three-dimensional interpolators are a parameter (`Engine`) here; the two-dimensional one is modelled in
`Model/Hull.lean`.

Simplified: sampled values and operating points are finite numbers; the arrays of an evaluation have the same length or
are rejected (numpy would stretch an array of length one); conversion of text to numbers is not modelled.
-/

namespace Verif.Sampled

open Verif.Rates Verif.Table

/-- The variables (constants.py:2-4). -/
inductive Var where
  | rate | ps | pd
  deriving DecidableEq, Repr

/-- The exceptions of the sampled model. `hull` is an error of the geometric library. -/
inductive SErr where
  | missingVariable | equalLength | negativeValue | notImplemented | typeError | valueError | indexError | hull
  deriving DecidableEq, Repr

/-- `EPSILON` (constants.py:1). -/
def epsilon : ℚ := 1 / 10 ^ 15

/-- The arguments of the constructor (compressor_model_sampled.py:56-64). -/
structure Data where
  isPower : Bool
  energy : List ℚ
  rate : Option (List ℚ) := none
  ps : Option (List ℚ) := none
  pd : Option (List ℚ) := none
  power : Option (List ℚ) := none

/-- A column of the data. -/
def Data.column (d : Data) : Var → Option (List ℚ)
  | .rate => d.rate
  | .ps => d.ps
  | .pd => d.pd

/-- `not values`: absent or empty. -/
def falsy : Option (List ℚ) → Bool
  | none => true
  | some l => l.isEmpty

/-- `validate_minimum_one_variable` (compressor_model_sampled.py:336-340). -/
def Data.validateVariables (d : Data) : Except SErr Unit :=
  if falsy d.rate && falsy d.ps && falsy d.pd then .error .missingVariable else .ok ()

/-- `validate_equal_list_lengths` (compressor_model_sampled.py:317-334). -/
def Data.validateLengths (d : Data) : Except SErr Unit :=
  if [d.rate, d.ps, d.pd, d.power].all fun c => c.all fun l => l.length == d.energy.length then .ok ()
  else .error .equalLength

/-- `validate_non_negative_values` (compressor_model_sampled.py:342-363). -/
def Data.validateSigns (d : Data) : Except SErr Unit :=
  if [some d.energy, d.rate, d.ps, d.pd, d.power].all fun c => c.all fun l => l.all fun x => decide (0 ≤ x) then .ok ()
  else .error .negativeValue

/-- `self.required_variables` (compressor_model_sampled.py:90-98). -/
def Data.required (d : Data) : List Var := [Var.rate, .ps, .pd].filter fun v => (d.column v).isSome

/-- `nunique() == 1` (compressor_model_sampled.py:411). -/
def constant (l : List ℚ) : Bool := l.dedup.length == 1

/-- `_non_degenerated_variables` (compressor_model_sampled.py:400-412). -/
def Data.varying (d : Data) : List Var := d.required.filter fun v => (d.column v).any fun l => !constant l

/-- `sampled_data[NAME][0] if NAME in degenerated_variables` (compressor_model_sampled.py:119-121); `none` stands for
the infinite value that every operating point passes. -/
def Data.fixed (d : Data) (v : Var) : Option ℚ :=
  if d.required.contains v && !d.varying.contains v then (d.column v).bind (·.head?) else none

/-- `interp1d(x, y, bounds_error=False, fill_value=(below, above))(x)` where a fill value may be NaN. -/
def lookupFl (rows : List (ℚ × ℚ)) (below above : Fl) (x : ℚ) : Fl :=
  match sortRows rows with
  | [] => none
  | a :: rest =>
    if x < a.1 then below
    else if ((a :: rest).getLast (by simp)).1 < x then above
    else some (segment a rest x)

/-- The kinds of `CompressorModelSampled2D…` (compressor_model_sampled_2d.py). -/
inductive Kind where
  | ratePd | ratePs | psPd
  deriving DecidableEq, Repr

/-- The two- and three-dimensional interpolators. Built from rows of variables and energy. -/
structure Engine where
  two : Kind → List (ℚ × ℚ × ℚ) → Except SErr (ℚ → ℚ → Fl)
  three : List (ℚ × ℚ × ℚ × ℚ) → Except SErr (ℚ → ℚ → ℚ → Fl)

/-- `self._qhull_sampled`. -/
inductive Inner where
  | one (x : Var) (rows : List (ℚ × ℚ))
  | two (k : Kind) (f : ℚ → ℚ → Fl)
  | three (f : ℚ → ℚ → ℚ → Fl)

/-- The sorted rows' first and last value (`iloc[0]`, `iloc[-1]`). -/
def firstLast (rows : List (ℚ × ℚ)) : Option ((ℚ × ℚ) × (ℚ × ℚ)) :=
  match sortRows rows with
  | [] => none
  | a :: rest => some (a, (a :: rest).getLast (by simp))

/-- `_get_extrapolation_values` (compressor_model_sampled_1d.py:16-37). -/
def fills (x : Var) (rows : List (ℚ × ℚ)) : Fl × Fl :=
  if x = .ps then (none, (firstLast rows).map (·.2.2)) else ((firstLast rows).map (·.1.2), none)

/-- `CompressorModelSampled1D.__init__` (compressor_model_sampled_1d.py:82-119). The message about repeated values joins
numbers as if they were texts (line 109), which is a TypeError. -/
def makeOne (x : Var) (rows : List (ℚ × ℚ)) : Except SErr Inner :=
  if (rows.map (·.1)).dedup.length = rows.length then .ok (.one x rows) else .error .typeError

/-- `CompressorModelSampled1D.evaluate` (compressor_model_sampled_1d.py:125-140) at one operating point; an array that
was not given is empty and does not fit the result (compressor_model_sampled.py:241). -/
def evalOne (x : Var) (rows : List (ℚ × ℚ)) (v : Option ℚ) : Except SErr Fl :=
  match v with
  | none => .error .valueError
  | some v => .ok (lookupFl rows (fills x rows).1 (fills x rows).2 v)

/-- One operating point; an input that is not given is `none`. -/
structure Point where
  rate : Option ℚ
  ps : Option ℚ
  pd : Option ℚ
  deriving DecidableEq, Repr

/-- A coordinate of an operating point. -/
def Point.get (p : Point) : Var → Option ℚ
  | .rate => p.rate
  | .ps => p.ps
  | .pd => p.pd

/-- `self._qhull_sampled.evaluate` at one operating point. -/
def Inner.eval (i : Inner) (p : Point) : Except SErr Fl :=
  match i with
  | .one x rows => evalOne x rows (p.get x)
  | .two k f =>
    let ab := match k with
      | .ratePd => (p.rate, p.pd)
      | .ratePs => (p.rate, p.ps)
      | .psPd => (p.ps, p.pd)
    match ab with
    | (some a, some b) => .ok (f a b)
    | _ => .error .valueError
  | .three f =>
    match p.rate, p.ps, p.pd with
    | some r, some s, some d => .ok (f r s d)
    | _, _, _ => .error .valueError

/-- The rows of the data for the given columns (compressor_model_sampled.py:101-102, 130). -/
def Data.rows1 (d : Data) (x : Var) : List (ℚ × ℚ) := ((d.column x).getD []).zip d.energy

@[inherit_doc Data.rows1] def Data.rows2 (d : Data) (x y : Var) : List (ℚ × ℚ × ℚ) :=
  ((d.column x).getD []).zip (((d.column y).getD []).zip d.energy)

@[inherit_doc Data.rows1] def Data.rows3 (d : Data) : List (ℚ × ℚ × ℚ × ℚ) :=
  ((d.column .rate).getD []).zip (((d.column .ps).getD []).zip (((d.column .pd).getD []).zip d.energy))

/-- `_get_compressor_model` and the construction of the chosen class (compressor_model_sampled.py:129-134,
376-398). -/
def Data.inner (eng : Engine) (d : Data) : Except SErr Inner :=
  match d.varying with
  | [x] => makeOne x (d.rows1 x)
  | [.ps, .pd] => do return .two .psPd (← eng.two .psPd (d.rows2 .ps .pd))
  | [.rate, .pd] => do return .two .ratePd (← eng.two .ratePd (d.rows2 .rate .pd))
  | [.rate, .ps] => do return .two .ratePs (← eng.two .ratePs (d.rows2 .rate .ps))
  | [.rate, .ps, .pd] => do return .three (← eng.three d.rows3)
  | _ => .error .notImplemented

/-- `CompressorModelSampled`. -/
structure Model where
  data : Data
  inner : Inner

/-- `CompressorModelSampled.__init__` (compressor_model_sampled.py:56-134). -/
def Data.create (eng : Engine) (d : Data) : Except SErr Model := do
  d.validateVariables
  d.validateLengths
  d.validateSigns
  return ⟨d, ← d.inner eng⟩

/-- `self._qhull_sampled.get_max_rate()` (compressor_model_sampled.py:152-156): only the one-dimensional model has a
method without arguments. -/
def Inner.maxRate : Inner → Except SErr Fl
  | .one x rows => .ok (if x = .rate then (firstLast rows).map (·.2.1) else none)
  | _ => .error .typeError

/-- `support_max_rate` of the classes (compressor_model_sampled_1d.py:121-123, compressor_model_sampled_2d.py:43, 206,
275, compressor_model_sampled_3d.py:112). -/
def Inner.supportsMaxRate : Inner → Bool
  | .one x _ => x == .rate
  | .two k _ => k != .psPd
  | .three _ => true

/-- `get_max_standard_rate` for one operating point (compressor_model_sampled.py:139-160); `none` is an infinite or
missing maximum. -/
def Model.maxRate (m : Model) : Except SErr Fl :=
  if m.data.required.contains .rate then
    if m.inner.supportsMaxRate then m.inner.maxRate else .ok (m.data.fixed .rate)
  else .ok none

/-- `np.where(rate > 0, rate - EPSILON, rate)` (compressor_model_sampled.py:200). -/
def lowered (r : ℚ) : ℚ := if 0 < r then r - epsilon else r

/-- The operating point as it is evaluated. -/
def Point.adjusted (p : Point) : Point := { p with rate := p.rate.map lowered }

/-- `rate <= 0` (compressor_model_sampled.py:221). -/
def Point.isOff (p : Point) : Bool := p.rate.any fun r => decide (r ≤ 0)

/-- The comparisons with the constant variables (compressor_model_sampled.py:229-232). -/
def Model.withinFixed (m : Model) (p : Point) : Bool :=
  (p.rate.all fun r => (m.data.fixed .rate).all fun c => decide (r ≤ c)) &&
  (p.ps.all fun s => (m.data.fixed .ps).all fun c => decide (c ≤ s)) &&
  (p.pd.all fun s => (m.data.fixed .pd).all fun c => decide (s ≤ c))

/-- The energy at one operating point (compressor_model_sampled.py:214-248). -/
def Model.energyAt (m : Model) (p : Point) : Except SErr Fl :=
  let q := p.adjusted
  if q.isOff then .ok (some 0)
  else if m.withinFixed q then m.inner.eval q
  else .ok none

/-- `fuel_to_power_function` (compressor_model_sampled.py:85-88, 250-255, 425-440): present for fuel with power values. -/
def Data.turbine (d : Data) : Option (List (ℚ × ℚ)) :=
  if !d.isPower && !falsy d.power then some (d.energy.zip (d.power.getD [])) else none

/-- `fuel_to_power_function(fuel)` (compressor_model_sampled.py:434-439, 444). -/
def powerOf (table : List (ℚ × ℚ)) (fuel : Fl) : Fl := fuel.bind fun x => lookupFl table (some 0) none x

/-- What is reported for one operating point. -/
structure Outcome where
  energy : Fl
  power : Option Fl
  valid : Bool
  rate : Fl
  deriving DecidableEq, Repr

/-- Power and validity from the energy (compressor_model_sampled.py:250-300, results/compressor.py:254-281). -/
def Model.report (m : Model) (p : Point) (e : Fl) : Outcome :=
  { energy := e
    power := if m.data.isPower then some e else m.data.turbine.map fun t => powerOf t e
    valid := e.isSome && (m.data.turbine.map fun t => (powerOf t e).isSome).getD true
    rate := p.adjusted.rate }

/-- The operating points of the arrays given to `set_evaluation_input` (compressor_model_sampled.py:162-175, 207-213). -/
def points (rate ps pd : Option (List ℚ)) : Except SErr (List Point) :=
  match (rate.orElse fun _ => ps.orElse fun _ => pd).map (·.length) with
  | none => .error .valueError
  | some n =>
    if [rate, ps, pd].all fun c => c.all fun l => l.length == n then
      .ok ((List.range n).map fun i => ⟨rate.bind (·[i]?), ps.bind (·[i]?), pd.bind (·[i]?)⟩)
    else .error .valueError

/-- `set_evaluation_input` followed by `evaluate` (compressor_model_sampled.py:162-315). -/
def Model.evaluate (m : Model) (rate ps pd : Option (List ℚ)) : Except SErr (List Outcome) := do
  let pts ← points rate ps pd
  pts.mapM fun p => do return m.report p (← m.energyAt p)

end Verif.Sampled
