import Verif.Model.Rates

/-!
# Model of the exporter

* `presentation/exporter/queries.py`
* `presentation/exporter/infrastructure.py` (how consumers become attributes)
* `presentation/exporter/appliers.py`, `aggregators.py`, `dto/dtos.py`

Not modelled: the text of the table (`formatters/`, `Numbers.format_to_precision`) and the handlers writing files.
-/

namespace Verif.Exporter
open Verif.Time Verif.Rates Verif.Units

/-- `AttributeMeta` (domain/exportable.py:19-24). -/
structure Meta where
  fuel : Option String
  consumer : Option String
  producer : Option String
  emission : Option String
  deriving DecidableEq, Repr

/-- `TimeSeriesAttribute` (infrastructure.py:26-35): the datapoints are the periods and values of its series. -/
structure Attribute where
  info : Meta
  points : List (Period × Fl)
  deriving DecidableEq

/-- The restrictions of a query. The classes of queries.py differ in which of them can be set: `FuelQuery` (57-65),
`StorageVolumeQuery` (107-113), `EmissionQuery` (148-158), `ElectricityGeneratedQuery` (202-204),
`MaxUsageFromShoreQuery` (241-243), `PowerConsumptionQuery` (281-289). -/
structure Filter where
  installation : Option String
  fuel : Option String
  consumers : Option (List String)
  producers : Option (List String)
  emission : Option String
  deriving DecidableEq, Repr

/-- `wanted is not None and actual != wanted` does not hold (queries.py:79, 172, 178). -/
def equalOr (wanted actual : Option String) : Bool :=
  match wanted with
  | none => true
  | some w => decide (actual = some w)

/-- `wanted is not None and actual not in wanted` does not hold (queries.py:82, 128, 175, 219, 258, 304, 307). -/
def memberOr (wanted : Option (List String)) (actual : Option String) : Bool :=
  match wanted with
  | none => true
  | some ws =>
    match actual with
    | none => false
    | some a => ws.contains a

/-- The attributes a query does not skip (queries.py:77-83, 125-129, 170-179, 216-220, 255-259, 301-308). -/
def keeps (f : Filter) (m : Meta) : Bool :=
  equalOr f.fuel m.fuel && memberOr f.consumers m.consumer && memberOr f.producers m.producer &&
    equalOr f.emission m.emission

/-- `aggregated_result[period] += value` on a `defaultdict(float)` (queries.py:86). -/
def addPoint (d : List (Period × Fl)) (pv : Period × Fl) : List (Period × Fl) :=
  dictSet pv.1 (Fl.add ((d.lookup pv.1).getD (some 0)) pv.2) d

/-- One attribute of the loop (queries.py:77-86). -/
def addAttribute (f : Filter) (d : List (Period × Fl)) (a : Attribute) : List (Period × Fl) :=
  if keeps f a.info then a.points.foldl addPoint d else d

/-- The loop over attributes (queries.py:76-86). -/
def aggregate (f : Filter) (attributes : List Attribute) : List (Period × Fl) :=
  attributes.foldl (addAttribute f) []

/-- Insertion into an ascending list of items. -/
def insertItem (x : Period × Fl) : List (Period × Fl) → List (Period × Fl)
  | [] => [x]
  | y :: ys => if Period.le x.1 y.1 then x :: y :: ys else y :: insertItem x ys

/-- `dict(sorted(items))` (queries.py:88-90): periods are distinct, so values are never compared. -/
def sortItems (d : List (Period × Fl)) : List (Period × Fl) := d.foldr insertItem []

/-- `{**dict.fromkeys(periods, 0.0), **sorted_result}` (queries.py:91-94). -/
def withZeros (ps : Periods) (d : List (Period × Fl)) : List (Period × Fl) :=
  d.foldl (fun acc pv => dictSet pv.1 pv.2 acc) (ps.foldl (fun acc p => dictSet p (some 0) acc) [])

/-- `{periods[i]: values[i] for i in range(len(result))}` (queries.py:101-103). -/
def toDict {α : Type} (items : List (Period × α)) : List (Period × α) :=
  items.foldl (fun acc pv => dictSet pv.1 pv.2 acc) []

/-- The installation seen by a query (domain/exportable.py:43-69). -/
structure Exportable where
  name : String
  category : Option String
  periods : Periods
  deriving DecidableEq

/-- Lines 73-74: the installation is not in the wanted category. -/
def wrongInstallation (f : Filter) (e : Exportable) : Bool := !equalOr f.installation e.category

/-- `query` of the five volume queries (queries.py:67-103, 115-144, 160-196, 206-235, 291-323); only `EmissionQuery`
goes through kilograms (`viaKilo`, lines 191-192). The dictionary is absent for another installation category. -/
def queryVolumes (f : Filter) (viaKilo : Bool) (unit : EUnit) (freq : Frequency) (e : Exportable)
    (attributes : List Attribute) : Except Err (Option (List (Period × Fl))) :=
  if wrongInstallation f e then .ok none
  else do
    let d := withZeros e.periods (sortItems (aggregate f attributes))
    let s ← TS.make (d.map (·.1)) (d.map (·.2)) unit
    let r ← volResample s freq true true
    let r ← if viaKilo then (r.toUnit .KILO).bind (·.toUnit unit) else .ok r
    .ok (some (toDict (r.periods.zip (r.values.map nanToNum))))

/-- Python's `max` of a list of floats: the first one, replaced whenever a later one is greater. -/
def maxFl : List Fl → Except Err Fl
  | [] => .error .valueError
  | v :: vs => .ok (vs.foldl (fun m x =>
      match m, x with
      | some a, some b => if a < b then some b else some a
      | _, _ => m) v)

/-- `MaxUsageFromShoreQuery.query` (queries.py:245-277). -/
def queryMax (f : Filter) (unit : EUnit) (freq : Frequency) (e : Exportable) (attributes : List Attribute) :
    Except Err (Option (List (Period × Fl))) :=
  if wrongInstallation f e then .ok none
  else do
    let d := withZeros e.periods (sortItems (aggregate f attributes))
    let nps ← resamplePeriods e.periods freq true true
    let items ← nps.mapM fun p => do
      let s ← TS.make (d.map (·.1)) (d.map (·.2)) unit
      let r ← TS.resample s freq true true
      let w ← TS.forPeriod r p
      let v ← maxFl (w.values.map (fun v => v.bind id))
      return (p, v)
    .ok (some (toDict items))

/-! ## From consumers to attributes -/

/-- `_get_category` (infrastructure.py:148-166): no value when there is no model or none in force. -/
def categoryFor {α : Type} (m : Option (TModel α)) (q : Period) : Option α :=
  match m with
  | none => none
  | some m =>
    match TModel.getModelForPeriod m q with
    | .ok c => some c
    | .error _ => none

/-- Start and end dates of a model's periods (infrastructure.py:141-144). -/
def datesOf {α : Type} : Option (TModel α) → List DateTime
  | none => []
  | some m => m.flatMap fun pm => [pm.1.start, pm.1.stop]

/-- `_combine_categories` (infrastructure.py:125-180). A fuel category may itself be None. -/
def combine (fuel : Option (TModel (Option String))) (consumer producer : Option (TModel String)) :
    Except Err (List (Period × Meta)) :=
  if fuel.isSome.toNat + consumer.isSome.toNat + producer.isSome.toNat < 2 then .error .programmingError
  else .ok ((Periods.createPeriods (sortedSet (datesOf fuel ++ datesOf consumer ++ datesOf producer)) false false).map
    fun q => (q, ⟨(categoryFor fuel q).bind id, categoryFor consumer q, categoryFor producer q, none⟩))

/-- The parts of a consumer that has one category model only (infrastructure.py:51, 235-238, 271-274). -/
def single (consumer : TModel String) : List (Period × Meta) :=
  consumer.map fun pm => (pm.1, ⟨none, some pm.2, none, none⟩)

/-- One attribute: `rate.for_period(period).to_volumes()`, converted when a unit is given (infrastructure.py:54, 209,
242, 277). -/
def makeAttribute (rate : RateTS) (unit : Option EUnit) (part : Period × Meta) : Except Err Attribute := do
  let r ← rate.forPeriod part.1
  let v ← r.toVolumes
  let w ← match unit with
    | none => .ok v
    | some u => v.toUnit u
  .ok ⟨part.2, w.periods.zip w.values⟩

/-- A consumer: its rate, and where it belongs to in which period. -/
structure Source where
  rate : RateTS
  parts : List (Period × Meta)
  deriving DecidableEq

/-- `get_fuel_consumption`, `get_power_consumption`, `get_emissions`, `get_electricity_production`
(infrastructure.py:47-66, 200-219, 221-256, 258-290): the attributes of all consumers. -/
def attributesOf (unit : Option EUnit) (sources : List Source) : Except Err (List Attribute) :=
  (sources.mapM fun (s : Source) => s.parts.mapM (makeAttribute s.rate unit)).map List.flatten

/-! ## Applying queries and laying out the table -/

/-- `Applier.apply` (appliers.py:88-103): no result for no dictionary or an empty one. The modifier is any function on
values. -/
def apply {β : Type} (modifier : Fl → β) (values : Option (List (Period × Fl))) : Option (List (Period × β)) :=
  match values with
  | none => none
  | some [] => none
  | some d => some (d.map fun pv => (pv.1, modifier pv.2))

/-- Insertion into an ascending list without repetition. -/
def insertPeriod (p : Period) : List Period → List Period
  | [] => [p]
  | q :: qs => if p = q then q :: qs else if Period.le p q then p :: q :: qs else q :: insertPeriod p qs

/-- `sorted(set(periods))` (dtos.py:63-70). -/
def sortedPeriods (ps : List Period) : List Period := ps.foldr insertPeriod []

/-- `FormattableGroupedQuery.__post_init__` (dtos.py:60-70): the rows of the table. -/
def rows {β : Type} (results : List (String × List (Period × β))) : Except Err (List Period) :=
  match results with
  | [] => .ok []
  | r :: rest =>
    if rest.all fun r' => decide (sortedPeriods (r.2.map (·.1)) = sortedPeriods (r'.2.map (·.1))) then
      .ok (sortedPeriods (r.2.map (·.1)))
    else .error .assertion

/-- `get_value` (dtos.py:80-88). -/
def cell {β : Type} (results : List (String × List (Period × β))) (row : Period) (column : String) : Except Err β :=
  match results.find? fun r => decide (r.1 = column) with
  | none => .error .keyError
  | some r =>
    match r.2.lookup row with
    | some v => .ok v
    | none => .error .keyError

end Verif.Exporter
