import Mathlib.Algebra.Order.Field.Rat
import Verif.Model.Calendar

/-!
# Model of input time series

* `presentation/yaml/mappers/variables_mapper/get_global_time_vector.py`
* `presentation/yaml/domain/time_series.py`, `time_series_collections.py`

`scipy.interpolate.interp1d` is library code; its documented behaviour for sorted abscissae is written out
below (search for the position by counting, then previous / next / linear).
-/

namespace Verif.InputSeries
open Verif.Time

/-- `get_global_time_vector` (get_global_time_vector.py:34-67). `EcalcValidationException` is `valueError`,
`InvalidEndDate` is `invalidDate`. A datetime is always truthy, so `start or min(...)` is a default. -/
def getGlobalTimeVector (timeVector : List DateTime) (stop : DateTime) (start? : Option DateTime)
    (additional : List DateTime) : Except Err (List DateTime) :=
  match start?, timeVector.min? with
  | none, none => .error .valueError
  | some s, _ => go s
  | none, some m => go m
where
  /-- Lines 62-67, once the start is known. -/
  go (start : DateTime) : Except Err (List DateTime) :=
    if stop ≤ start then .error .invalidDate
    else .ok ((sortedSet (timeVector ++ [start, stop] ++ additional)).filter
      (fun d => decide (start ≤ d) && decide (d ≤ stop)))

/-- `TimeSeriesCollections.get_time_vector` (time_series_collections.py:39-44): union of the dates of the
collections flagged to influence the time vector. The set is a list here; only membership is used. -/
def collectionsTimeVector (collections : List (Bool × List DateTime)) : List DateTime :=
  collections.foldl (fun tv c => if c.1 then tv ++ c.2 else tv) []

/-- `InterpolationType` (dto/types.py:24-27). -/
inductive Interpolation where
  | left | right | linear
  deriving DecidableEq, Repr

/-- `class TimeSeries` (time_series.py:11-24). -/
structure Series where
  times : List DateTime
  series : List ℚ
  extrapolate : Bool
  interpolation : Interpolation
  deriving DecidableEq

/-- `np.searchsorted(xs, d, side="left")` for ascending `xs`: number of entries before `d`. -/
def countLt (xs : List DateTime) (d : DateTime) : Nat := (xs.filter (fun x => decide (x < d))).length

/-- `np.searchsorted(xs, d, side="right")` for ascending `xs`: number of entries not after `d`. -/
def countLe (xs : List DateTime) (d : DateTime) : Nat := (xs.filter (fun x => decide (x ≤ d))).length

/-- Reading an array element. -/
def at? {α : Type} (xs : List α) (i : Nat) : Except Err α :=
  match xs[i]? with
  | some x => .ok x
  | none => .error .indexError

/-- `interp1d(x, y, kind)(d)`: "previous" for RIGHT, "next" for LEFT, "linear" (time_series.py:27-35, 54-56).
Length mismatch and out-of-range arguments raise ValueError. Times are differences from the first date in
seconds in the code; only differences matter here. -/
def interp1d (xs : List DateTime) (ys : List ℚ) (kind : Interpolation) (d : DateTime) : Except Err ℚ :=
  if xs.length ≠ ys.length then .error .valueError
  else match xs.head?, xs.getLast? with
    | some x0, some xl =>
      if d < x0 ∨ xl < d then .error .valueError
      else match kind with
        | .right => at? ys (countLe xs d - 1)
        | .left => at? ys (countLt xs d)
        | .linear => do
          let hi := min (max (countLt xs d) 1) (xs.length - 1)
          let xLo ← at? xs (hi - 1)
          let xHi ← at? xs hi
          let yLo ← at? ys (hi - 1)
          let yHi ← at? ys hi
          return (yHi - yLo) / ((xHi - xLo : Int) : ℚ) * ((d - xLo : Int) : ℚ) + yLo
    | _, _ => .error .valueError

/-- `TimeSeries._interpolate` (time_series.py:37-56): a single date gets a dummy second one one second later
with the same value. -/
def Series.interpolate (s : Series) (target : List DateTime) : Except Err (List ℚ) :=
  match s.times with
  | [] => .error .indexError
  | [t] => target.mapM (interp1d [t, t + 1000000] (s.series ++ s.series) s.interpolation)
  | ts => target.mapM (interp1d ts s.series s.interpolation)

/-- `split_time_vector` (time_series.py:96-105). -/
def splitTimeVector (tv : List DateTime) (start stop : DateTime) : Nat × List DateTime × Nat :=
  ((tv.filter (fun d => decide (d < start))).length,
   tv.filter (fun d => decide (start ≤ d) && decide (d ≤ stop)),
   (tv.filter (fun d => decide (stop < d))).length)

/-- `TimeSeries.fit_to_time_vector` (time_series.py:58-84). -/
def Series.fit (s : Series) (tv : List DateTime) : Except Err Series :=
  match s.times.head?, s.times.getLast? with
  | some start, some stop => do
    let (nBefore, between, nAfter) := splitTimeVector tv start stop
    let after ← if s.extrapolate then
        (match s.series.getLast? with | some v => .ok v | none => .error .indexError)
      else .ok 0
    let mid ← s.interpolate between
    return ⟨tv, List.replicate nBefore 0 ++ mid ++ List.replicate nAfter after, s.extrapolate, s.interpolation⟩
  | _, _ => .error .indexError

/-- `TimeSeries.sort` (time_series.py:86-93): stable sort of the (date, value) rows by date; `transpose` zips,
so extra entries of the longer column are dropped. IndexError if there is no row. -/
def Series.sort (s : Series) : Except Err Series :=
  let rows := (s.times.zip s.series).mergeSort (fun a b => decide (a.1 ≤ b.1))
  if rows = [] then .error .indexError
  else .ok { s with times := rows.map (·.1), series := rows.map (·.2) }

end Verif.InputSeries
