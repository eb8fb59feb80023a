import Verif.Model.Time
import Mathlib.Algebra.Order.Field.Rat
import Mathlib.Data.Rat.Defs

/-!
# Model of the numerical searches

`libecalc/process/process_solver/search_strategies.py` (bisection) and `libecalc/common/numeric_methods.py` (adaptive
damping, secant fallback, boolean maximisation). Numbers are exact; `scipy.optimize.root_scalar` is not modelled.
-/

namespace Verif.Search
open Verif.Time

/-- `BisectResult` (search_strategies.py:12-14). -/
structure Probe where
  higher : Bool
  accepted : Bool
  deriving DecidableEq, Repr

/-- What `_bisect` holds when it stops. Only `last` is returned by the code; the bracket and the probes (latest
first) are kept here so that they can be talked about. -/
structure BisectState where
  lo : ℚ
  hi : ℚ
  last : Option ℚ
  probes : List ℚ
  deriving DecidableEq

/-- `(x1 - x0) / max(abs(x0), abs(x1), 1.0)` (search_strategies.py:70). -/
def relDiff (x0 x1 : ℚ) : ℚ := (x1 - x0) / max (max |x0| |x1|) 1

/-- One pass of the loop body (search_strategies.py:62-69). -/
def bisectStep (probe : ℚ → Probe) (s : BisectState) : BisectState :=
  let x2 := (s.lo + s.hi) / 2
  let r := probe x2
  { lo := if r.higher then x2 else s.lo
    hi := if r.higher then s.hi else x2
    last := if r.accepted then some x2 else s.last
    probes := x2 :: s.probes }

/-- The loop with its early exit (search_strategies.py:61-72); the number is `max_iterations`. -/
def bisectLoop (tol : ℚ) (probe : ℚ → Probe) : Nat → BisectState → BisectState
  | 0, s => s
  | n + 1, s =>
    let s' := bisectStep probe s
    if relDiff s'.lo s'.hi < tol then s' else bisectLoop tol probe n s'

/-- `Bisect._bisect` (search_strategies.py:53-73). -/
def bisect (tol : ℚ) (maxIter : Nat) (lo hi : ℚ) (probe : ℚ → Probe) : BisectState :=
  bisectLoop tol probe maxIter ⟨lo, hi, none, []⟩

/-- `Bisect.search` (search_strategies.py:75-93); `none` is DidNotConvergeError. -/
def search (tol : ℚ) (maxIter : Nat) (lo hi : ℚ) (func : ℚ → Probe) : Option ℚ := (bisect tol maxIter lo hi func).last

/-- `Bisect._first_true` (search_strategies.py:103-126). -/
def firstTrue (tol : ℚ) (maxIter : Nat) (lo hi : ℚ) (predicate : ℚ → Bool) (lowest : Bool) : Option ℚ :=
  let near := if lowest then lo else hi
  let far := if lowest then hi else lo
  if predicate near then some near
  else if !predicate far then none
  else
    let probe := fun x => let ok := predicate x; { higher := ok != lowest, accepted := ok : Probe }
    match (bisect tol maxIter lo hi probe).last with
    | some x => some x
    | none => some far

/-- `Bisect.lowest_true` (search_strategies.py:95-97). -/
def lowestTrue (tol : ℚ) (maxIter : Nat) (lo hi : ℚ) (predicate : ℚ → Bool) : Option ℚ :=
  firstTrue tol maxIter lo hi predicate true

/-- `Bisect.highest_true` (search_strategies.py:99-101). -/
def highestTrue (tol : ℚ) (maxIter : Nat) (lo hi : ℚ) (predicate : ℚ → Bool) : Option ℚ :=
  firstTrue tol maxIter lo hi predicate false

/-! ## `maximize_x_given_boolean_condition_function` -/

/-- `0 if x0 == x1 else abs(x1 - x0) / max(abs(x0), abs(x1))` (numeric_methods.py:214). -/
def relDiff' (x0 x1 : ℚ) : ℚ := if x0 = x1 then 0 else |x1 - x0| / max |x0| |x1|

/-- The while loop (numeric_methods.py:207-215) from the second pass on; the first number is the remaining passes
(`i <= maximum_number_of_iterations` allows one more than the maximum). Result: `x0`, `x1`. -/
def maximizeLoop (tol : ℚ) (f : ℚ → Bool) : Nat → ℚ → ℚ → ℚ → ℚ × ℚ
  | 0, _, x0, x1 => (x0, x1)
  | n + 1, rel, x0, x1 =>
    if |rel| > tol then
      let x2 := (x0 + x1) / 2
      let b := if f x2 then (x2, x1) else (x0, x2)
      maximizeLoop tol f n (relDiff' b.1 b.2) b.1 b.2
    else (x0, x1)

/-- `maximize_x_given_boolean_condition_function` (numeric_methods.py:186-224). -/
def maximizeX (tol : ℚ) (maxIter : Nat) (xMin xMax : ℚ) (f : ℚ → Bool) : ℚ :=
  (maximizeLoop tol f (maxIter + 1) 100 xMin xMax).1

/-! ## Adaptive damping -/

/-- `DampState` (numeric_methods.py:23-29). -/
structure DampState where
  beta : ℚ := 1
  deltaPrev : Option ℚ := none
  flips : Nat := 0
  stable : Nat := 0
  deriving DecidableEq, Repr

/-- `flip and large_step` (numeric_methods.py:42-44). -/
def oscillates (pPrev delta : ℚ) (deltaPrev : Option ℚ) : Bool :=
  match deltaPrev with
  | none => false
  | some d => decide (delta * d < 0) && decide (|delta| > 1 / 100 * pPrev)

/-- `adaptive_pressure_update` (numeric_methods.py:32-68). -/
def adaptiveUpdate (pPrev pRaw : ℚ) (s : DampState) : ℚ × DampState :=
  let delta := pRaw - pPrev
  let flips := if oscillates pPrev delta s.deltaPrev then s.flips + 1 else 0
  let (beta, stable) :=
    if flips ≥ 2 then (max (1 / 10) (s.beta * (1 / 2)), 0)
    else if s.stable + 1 ≥ 3 then (min 1 (s.beta * (3 / 2)), 0)
    else (s.beta, s.stable + 1)
  (pPrev + beta * delta, ⟨beta, some delta, flips, stable⟩)

/-! ## Secant fallback -/

/-- `limit_to_bounds` (numeric_methods.py:152-153), bounded version. -/
def limit (x lo hi : ℚ) : ℚ := max (min x hi) lo

/-- The loop (numeric_methods.py:163-172). State: `x0 x1`, last `x2` (none = NaN), `rel_diff`, and whether the last
`f0`, `f1` differ. The division by `f1 - f0 = 0` raises ZeroDivisionError for Python floats (for numpy
scalars it would give inf or NaN; not modelled). -/
def secantLoop (tol : ℚ) (f : ℚ → ℚ) (lo hi : ℚ) : Nat → ℚ → ℚ → Option ℚ → ℚ → Except Err (Option ℚ)
  | 0, _, _, x2, _ => .ok x2
  | n + 1, x0, x1, x2, rel =>
    if |rel| > tol then
      let f0 := f x0
      let f1 := f x1
      if f1 - f0 = 0 then .error .zeroDivision
      else
        let x := limit (x1 - f1 * (x1 - x0) / (f1 - f0)) lo hi
        let rel := if x1 = x then 0 else |x - x1| / max |x1| |x|
        secantLoop tol f lo hi n x1 x (some x) rel
    else .ok x2

/-- `secant_method` (numeric_methods.py:129-183), bounded to the interval. The loop condition `f1 != f0` is always
true when reached: equal values have raised before. -/
def secant (tol : ℚ) (maxIter : Nat) (f : ℚ → ℚ) (x0 x1 : ℚ) : Except Err (Option ℚ) :=
  secantLoop tol f (min x0 x1) (max x0 x1) (maxIter + 1) x0 x1 none 100

end Verif.Search
