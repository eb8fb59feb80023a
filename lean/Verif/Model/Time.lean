/-!
# Model of `libecalc/common/time_utils.py` (periods) and `libecalc/common/temporal_model.py`

`datetime` is modelled as the number of microseconds since 0001-01-01T00:00:00 (`Int`).
-/

namespace Verif.Time

/-- `datetime.datetime`: microseconds since `datetime.min`. Naive (no time zones), as in eCalc. -/
macro "DateTime" : term => `(Int)

/-- `datetime.min` (time_utils.py:28). -/
def dtMin : DateTime := 0

/-- `datetime.max.replace(microsecond=0)` = 9999-12-31T23:59:59 (time_utils.py:29, 403). -/
def dtMax : DateTime := (3652059 * 86400 - 1) * 1000000

/-- Python exceptions raised by the modelled functions. -/
inductive Err where
  | indexError
  | valueError
  | typeError
  | programmingError
  | invalidKeys
  | unsortedKeys
  | invalidDate
  | assertion
  | notImplemented
  | zeroDivision
  | keyError
  | validation
  | networkx
  | unfeasible
  deriving DecidableEq, Repr

/-- `class Period` (time_utils.py:24-29). `stop` is the field `end`. -/
structure Period where
  start : DateTime
  stop : DateTime
  deriving DecidableEq, Repr

namespace Period

/-- `Period.__contains__` for a datetime (time_utils.py:46-47). -/
def containsDate (p : Period) (d : DateTime) : Bool :=
  decide (p.start ≤ d) && decide (d < p.stop)

/-- `Period.__contains__` for a period (time_utils.py:48-49). -/
def containsPeriod (p q : Period) : Bool :=
  decide (p.start ≤ q.start) && decide (q.start < q.stop) && decide (q.stop ≤ p.stop)

/-- `Period.intersects` (time_utils.py:51-62). -/
def intersects (first second : Period) : Bool :=
  second.containsDate first.start || first.containsDate second.start

/-- `Period.intersection` (time_utils.py:64-78). -/
def intersection (first second : Period) : Option Period :=
  if !(intersects first second) then none
  else some ⟨max first.start second.start, min first.stop second.stop⟩

/-- Dataclass ordering of `Period` (`order=True`, time_utils.py:24): lexicographic on (start, end). -/
def le (p q : Period) : Bool :=
  decide (p.start < q.start) || (decide (p.start = q.start) && decide (p.stop ≤ q.stop))

/-- `Period.get_timesteps` (time_utils.py:102-109). -/
def getTimesteps (p : Period) (ts : List DateTime) : List DateTime :=
  ts.filter p.containsDate

/-- `Period.duration` (time_utils.py:125-127), in microseconds. -/
def duration (p : Period) : Int := p.stop - p.start

end Period

/-- `Periods` (time_utils.py:130-132) is its list of periods. -/
abbrev Periods := List Period

namespace Periods

/-- The list comprehension of consecutive pairs in `create_periods` (time_utils.py:157):
`[Period(times[i], times[i+1]) for i in range(len(times)-1)]`. -/
def pairs : List DateTime → List Period
  | [] => []
  | [_] => []
  | a :: b :: rest => ⟨a, b⟩ :: pairs (b :: rest)

/-- `Periods.create_periods` (time_utils.py:134-162). -/
def createPeriods (times : List DateTime) (includeBefore includeAfter : Bool) : Periods :=
  match times with
  | [] => []
  | t0 :: rest =>
    (if includeBefore then [⟨dtMin, t0⟩] else [])
      ++ pairs (t0 :: rest)
      ++ (if includeAfter then [⟨(t0 :: rest).getLast (by simp), dtMax⟩] else [])

/-- `Periods.get_period` (time_utils.py:167-172). -/
def getPeriod (ps : Periods) (q : Period) : Option Period :=
  ps.find? (fun p => p.containsPeriod q)

/-- `Periods.start_dates` (time_utils.py:178-180). -/
def startDates (ps : Periods) : List DateTime := ps.map (·.start)

/-- `Periods.end_dates` (time_utils.py:182-184). -/
def endDates (ps : Periods) : List DateTime := ps.map (·.stop)

/-- `Periods.all_dates` (time_utils.py:174-176): IndexError for an empty list. -/
def allDates (ps : Periods) : Except Err (List DateTime) :=
  match (endDates ps).getLast? with
  | none => .error .indexError
  | some e => .ok (startDates ps ++ [e])

/-- `Periods.period` (time_utils.py:211-213): IndexError for an empty list. -/
def period (ps : Periods) : Except Err Period :=
  match ps.head?, ps.getLast? with
  | some f, some l => .ok ⟨f.start, l.stop⟩
  | _, _ => .error .indexError

/-- Python slice `xs[i:j]` for non-negative `i`, `j`. -/
def slice {α : Type} (xs : List α) (i j : Nat) : List α := (xs.take j).drop i

/-- `list.index`, ValueError when absent. -/
def pyIndex (xs : List DateTime) (d : DateTime) : Except Err Nat :=
  match xs.idxOf? d with
  | some i => .ok i
  | none => .error .valueError

end Periods

namespace Period

/-- `Period.get_period_indices` (time_utils.py:80-100): IndexError / ValueError become ProgrammingError. -/
def getPeriodIndices (p : Period) (ps : Periods) : Except Err (Nat × Nat) :=
  match ps.head?, ps.getLast? with
  | some f, some l =>
    match Periods.pyIndex (Periods.startDates ps) (max p.start f.start) with
    | .error _ => .error .programmingError
    | .ok i =>
      match Periods.allDates ps with
      | .error _ => .error .programmingError
      | .ok ds =>
        match Periods.pyIndex ds (min p.stop l.stop) with
        | .error _ => .error .programmingError
        | .ok j => .ok (i, j)
  | _, _ => .error .programmingError

/-- `Period.get_periods` (time_utils.py:111-123). IndexError of `periods.period` on an empty list escapes. -/
def getPeriods (p : Period) (ps : Periods) : Except Err Periods := do
  let whole ← Periods.period ps
  if intersects whole p then
    let (i, j) ← getPeriodIndices p ps
    return Periods.slice ps i j
  else
    return []

end Period

/-! ## Temporal models -/

/-- A key of a user supplied dict: a date or a period (temporal_model.py:50, time_utils.py:338-383).
Date strings and unrelated string keys are not modelled. -/
inductive Key where
  | date (d : DateTime)
  | period (p : Period)
  deriving DecidableEq, Repr

def Key.isDate : Key → Bool
  | .date _ => true
  | .period _ => false

def Key.isPeriod : Key → Bool
  | .date _ => false
  | .period _ => true

/-- The dates of the keys that are dates. -/
def dateKeys {α : Type} : List (Key × α) → List (DateTime × α)
  | [] => []
  | (.date d, a) :: rest => (d, a) :: dateKeys rest
  | (.period _, _) :: rest => dateKeys rest

/-- The periods of the keys that are periods. -/
def periodKeys {α : Type} : List (Key × α) → List (Period × α)
  | [] => []
  | (.date _, _) :: rest => periodKeys rest
  | (.period p, a) :: rest => (p, a) :: periodKeys rest

/-- Conversion of date keys to periods: each date is in force until the next key, the last one until the
end of time (temporal_model.py:53-67 and time_utils.py:402-407, same loop). -/
def datesToPeriods {α : Type} : List (DateTime × α) → List (Period × α)
  | [] => []
  | [(d, a)] => [(⟨d, dtMax⟩, a)]
  | (d, a) :: (d', a') :: rest => (⟨d, d'⟩, a) :: datesToPeriods ((d', a') :: rest)

/-- `TemporalModel`: the list of (period, model) pairs (temporal_model.py:81-82). -/
abbrev TModel (α : Type) := List (Period × α)

namespace TModel

/-- `TemporalModel.__init__` (temporal_model.py:50-85). -/
def create {α : Type} (data : List (Key × α)) : Except Err (TModel α) :=
  let models : Except Err (List (Period × α)) :=
    if data.all (fun kv => kv.1.isDate) then .ok (datesToPeriods (dateKeys data))
    else if data.all (fun kv => kv.1.isPeriod) then .ok (periodKeys data)
    else .error .invalidKeys
  match models with
  | .error e => .error e
  | .ok ms =>
    let periods := ms.map (·.1)
    if periods = periods.mergeSort Period.le then .ok ms else .error .unsortedKeys

/-- `TemporalModel.get_model` for a datetime (temporal_model.py:103-108). -/
def getModel {α : Type} (m : TModel α) (d : DateTime) : Except Err α :=
  match m.find? (fun pm => pm.1.containsDate d) with
  | some pm => .ok pm.2
  | none => .error .valueError

/-- `TemporalModel.get_model` for a period (temporal_model.py:103-108). -/
def getModelForPeriod {α : Type} (m : TModel α) (q : Period) : Except Err α :=
  match m.find? (fun pm => pm.1.containsPeriod q) with
  | some pm => .ok pm.2
  | none => .error .valueError

/-- `TemporalModel.get_period` (temporal_model.py:91-95), IndexError when empty. -/
def getPeriod {α : Type} (m : TModel α) : Except Err Period :=
  Periods.period (m.map (·.1))

end TModel

/-- User data handed to `define_time_model_for_period`: absent, not time dependent, or a dict with
date / period keys. A dict with other keys counts as not time dependent (`is_temporal_model` is False). -/
inductive TimeData (α : Type) where
  | absent
  | plain (a : α)
  | dict (kvs : List (Key × α))

/-- `default_temporal_model` (time_utils.py:392-416) together with `is_temporal_model`
(time_utils.py:338-383): mixing date and period keys raises InvalidDateException.
The conversion `date → datetime` is the identity here (only datetimes are modelled). The empty dict
is "not temporal" in the code; it is represented by `plain`. -/
def defaultTemporalModel {α : Type} (data : TimeData α) (default : Period) :
    Except Err (Option (List (Period × α))) :=
  match data with
  | .absent => .ok none
  | .plain a => .ok (some [(default, a)])
  | .dict kvs =>
    if kvs.any (fun kv => kv.1.isDate) then
      if kvs.all (fun kv => kv.1.isDate) then .ok (some (datesToPeriods (dateKeys kvs)))
      else .error .invalidDate
    else .ok (some (periodKeys kvs))

/-- `d[k] = v` on an insertion ordered dict. -/
def dictSet {κ α : Type} [DecidableEq κ] (k : κ) (v : α) : List (κ × α) → List (κ × α)
  | [] => [(k, v)]
  | (k', v') :: rest => if k' = k then (k', v) :: rest else (k', v') :: dictSet k v rest

/-- Loop body of `define_time_model_for_period` (time_utils.py:237-240). -/
def clipStep {α : Type} (target : Period) (acc : List (Period × α)) (pm : Period × α) : List (Period × α) :=
  if Period.intersects pm.1 target then
    match Period.intersection pm.1 target with
    | some p => dictSet p pm.2 acc
    | none => acc  -- unreachable: `intersection` is None only when not intersecting
  else acc

/-- `define_time_model_for_period` (time_utils.py:216-242). -/
def defineTimeModelForPeriod {α : Type} (data : TimeData α) (target : Period) :
    Except Err (Option (List (Period × α))) :=
  match defaultTemporalModel data target with
  | .error e => .error e
  | .ok none => .ok none
  | .ok (some ms) => .ok (some (ms.foldl (clipStep target) []))

/-- `TemporalModel.create` (temporal_model.py:110-116). -/
def TModel.createFor {α : Type} (data : TimeData α) (target : Period) : Except Err (Option (TModel α)) :=
  match defineTimeModelForPeriod data target with
  | .error e => .error e
  | .ok none => .ok none
  | .ok (some ms) =>
    match TModel.create (ms.map (fun pm => (Key.period pm.1, pm.2))) with
    | .error e => .error e
    | .ok m => .ok (some m)

end Verif.Time
