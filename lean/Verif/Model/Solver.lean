import Verif.Model.Time
import Mathlib.Algebra.Order.Field.Rat
import Mathlib.Algebra.Order.Field.Basic
import Mathlib.Algebra.Order.Group.Abs

/-!
Model of small parts of `src/libecalc/process/process_solver/`.

* `configuration.py`: `merge_configurations`
* `solver.py`: `Solution.combine`, `Solution.get_configuration`
* `float_constraint.py`: `FloatConstraint`
-/

namespace Verif.Solver

open Verif.Time

variable {κ υ φ : Type} [DecidableEq κ]

/-- `Configuration` (configuration.py:15-18). -/
structure Configuration (κ υ : Type) where
  handler : κ
  value : υ
  deriving DecidableEq, Repr

/-- `{config.configuration_handler_id: config for config in configurations}` (configuration.py:63-64). -/
def byHandler (l : List (Configuration κ υ)) : List (κ × Configuration κ υ) :=
  l.foldl (fun d c => dictSet c.handler c d) []

/-- `merge_configurations` (configuration.py:58-65). -/
def mergeConfigurations (first second : List (Configuration κ υ)) : List (Configuration κ υ) :=
  ((byHandler second).foldl (fun d e => dictSet e.1 e.2 d) (byHandler first)).map (·.2)

/-- `Solution` (solver.py:177-184). -/
structure Solution (κ υ φ : Type) where
  configuration : List (Configuration κ υ)
  failure : Option φ
  deriving DecidableEq, Repr

/-- `Solution.success` (solver.py:182-184). -/
def Solution.success (s : Solution κ υ φ) : Bool := s.failure.isNone

/-- `Solution.get_configuration` (solver.py:216-224). -/
def Solution.getConfiguration (s : Solution κ υ φ) (id : κ) : Except Err υ :=
  match s.configuration.find? fun c => decide (c.handler = id) with
  | some c => .ok c.value
  | none => .error .valueError

/-- `Solution.combine` (solver.py:226-245). -/
def Solution.combine (self other : Solution κ υ φ) : Solution κ υ φ :=
  if !self.success then self
  else ⟨mergeConfigurations self.configuration other.configuration, other.failure⟩

/-! ### `FloatConstraint` -/

/-- A Python float, exact for finite values. -/
inductive F where
  | nan
  | ninf
  | pinf
  | fin (q : ℚ)
  deriving DecidableEq, Repr

/-- `a < b` on floats. -/
def F.lt : F → F → Bool
  | .fin a, .fin b => decide (a < b)
  | .ninf, .fin _ => true
  | .ninf, .pinf => true
  | .fin _, .pinf => true
  | _, _ => false

/-- `math.isclose(a, b, rel_tol=0, abs_tol=tol)`: negative tolerances are a `ValueError`; identical numbers are close;
otherwise an infinity is close to nothing; otherwise the difference is at most the tolerance. -/
def isclose (tol : F) (a b : F) : Except Err Bool :=
  if F.lt tol (.fin 0) then .error .valueError
  else match a, b, tol with
    | .pinf, .pinf, _ => .ok true
    | .ninf, .ninf, _ => .ok true
    | .fin x, .fin y, .fin t => .ok (decide (x = y) || decide (|y - x| ≤ t))
    | .fin _, .fin _, .pinf => .ok true
    | .fin x, .fin y, _ => .ok (decide (x = y))
    | _, _, _ => .ok false

/-- `FloatConstraint` (float_constraint.py:6-9). -/
structure FloatConstraint where
  value : F
  absTol : F

/-- Result of a rich comparison method. -/
inductive Cmp where
  | bool (b : Bool)
  | notImplemented
  deriving DecidableEq, Repr

/-- Truth value of a comparison result; `NotImplemented` is truthy (a deprecated use, an error from Python 3.14 on). -/
def Cmp.truthy : Cmp → Bool
  | .bool b => b
  | .notImplemented => true

/-- `FloatConstraint._is_close` (float_constraint.py:11-17). `other = none` stands for an object that `float` does not
accept. -/
def FloatConstraint.isClose (c : FloatConstraint) : Option F → Except Err Cmp
  | none => .ok .notImplemented
  | some o => do return .bool (← isclose c.absTol c.value o)

/-- `__eq__` (float_constraint.py:19-20). -/
def FloatConstraint.eq (c : FloatConstraint) (o : Option F) : Except Err Cmp := c.isClose o

/-- `__ne__` (float_constraint.py:22-23). -/
def FloatConstraint.ne (c : FloatConstraint) (o : Option F) : Except Err Cmp := do
  return .bool (!(← c.isClose o).truthy)

/-- `__lt__` (float_constraint.py:25-31). -/
def FloatConstraint.lt (c : FloatConstraint) : Option F → Except Err Cmp
  | none => .ok .notImplemented
  | some o => do return .bool (!(← c.isClose (some o)).truthy && F.lt c.value o)

/-- `__gt__` (float_constraint.py:42-48). -/
def FloatConstraint.gt (c : FloatConstraint) : Option F → Except Err Cmp
  | none => .ok .notImplemented
  | some o => do return .bool (!(← c.isClose (some o)).truthy && F.lt o c.value)

/-- `a or b` for comparison results. -/
def orElse (a : Cmp) (b : Except Err Cmp) : Except Err Cmp := if a.truthy then .ok a else b

/-- `__le__` (float_constraint.py:33-40). -/
def FloatConstraint.le (c : FloatConstraint) : Option F → Except Err Cmp
  | none => .ok .notImplemented
  | some o => do orElse (← c.lt (some o)) (c.isClose (some o))

/-- `__ge__` (float_constraint.py:50-57). -/
def FloatConstraint.ge (c : FloatConstraint) : Option F → Except Err Cmp
  | none => .ok .notImplemented
  | some o => do orElse (← c.gt (some o)) (c.isClose (some o))

end Verif.Solver
