import Mathlib.Algebra.Order.Field.Rat
import Verif.Model.Rates

/-!
# Model of one-dimensional table lookup

`scipy.interpolate.interp1d` with `bounds_error=False` and a pair of fill values, as it is used by
`libecalc/common/interpolation.py` (setup_interpolator_1d, lines 8-28) and
`libecalc/domain/infrastructure/energy_components/turbine/turbine.py` (lines 32-37). The rows are sorted by the
variable (stable), a variable outside the table gets the fill value, inside the table `numpy.interp` is used: the last
row whose variable is not above the argument starts the segment.
-/

namespace Verif.Table
open Verif.Time Verif.Rates

/-- Stable insertion of a row: before the first row with a larger variable. -/
def insertRow (r : ℚ × ℚ) : List (ℚ × ℚ) → List (ℚ × ℚ)
  | [] => [r]
  | s :: rest => if r.1 < s.1 then r :: s :: rest else s :: insertRow r rest

/-- `interp1d.__init__`: `argsort(x, kind="mergesort")`, a stable sort of the rows. -/
def sortRows (rows : List (ℚ × ℚ)) : List (ℚ × ℚ) := rows.foldl (fun acc r => insertRow r acc) []

/-- `numpy.interp` to the right of the row `a`. -/
def segment (a : ℚ × ℚ) : List (ℚ × ℚ) → ℚ → ℚ
  | [], _ => a.2
  | b :: rest, x =>
    if x < b.1 then
      if x = a.1 then a.2 else (b.2 - a.2) / (b.1 - a.1) * (x - a.1) + a.2
    else segment b rest x

/-- `interp1d(x, y, bounds_error=False, fill_value=(below, above))(x)`; an empty table is rejected with a ValueError. -/
def lookup (rows : List (ℚ × ℚ)) (below above x : ℚ) : Except Err ℚ :=
  match sortRows rows with
  | [] => .error .valueError
  | a :: rest =>
    if x < a.1 then .ok below
    else if ((a :: rest).getLast (by simp)).1 < x then .ok above
    else .ok (segment a rest x)

/-- `max(xs)`: ValueError for an empty sequence. -/
def pyMax : List ℚ → Except Err ℚ
  | [] => .error .valueError
  | x :: xs => .ok (xs.foldl max x)

/-- `min(xs)`: ValueError for an empty sequence. -/
def pyMin : List ℚ → Except Err ℚ
  | [] => .error .valueError
  | x :: xs => .ok (xs.foldl min x)

end Verif.Table
