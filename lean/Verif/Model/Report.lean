import Verif.Model.Rates
import Verif.Model.CompressorChart

/-!
# What is reported about compressors

* results of single time steps (`domain/process/compressor/core/results.py:17-343`),
* time series for trains and stages (`domain/process/core/results/compressor.py:46-306`, `.../train/base.py:214-249`),
* requested pressures of compressors in systems (`presentation/json_result/mapper.py:604-663, 1420-1427`).

Lists that are created with NaN and then filled in are made in one go. `none` is NaN, and `None` for streams. The failure
status of a single time step is part of `Model/Train`; here it is given.
-/

namespace Verif.Report
open Verif.Time Verif.Rates Verif.Charts

/-- The properties of a `FluidStream` that are reported. -/
structure Stream where
  pressure : ℚ
  temperature : ℚ
  density : ℚ
  kappa : ℚ
  z : ℚ
  mass : ℚ
  volume : ℚ
  standard : ℚ
deriving DecidableEq, Repr

/-- `CompressorTrainStageResultSingleTimeStep` (results.py:18-61). No area is NOT_CALCULATED. -/
structure StageOne where
  inlet : Option Stream
  outlet : Option Stream
  inletAsv : Option Stream
  outletAsv : Option Stream
  head : Fl
  efficiency : Fl
  change : Fl
  changeBefore : Fl
  power : Fl
  area : Option Area
  pointValid : Bool
  recirculates : Option Bool
  rateExceeds : Option Bool
  choked : Option Bool
  headExceeds : Option Bool
deriving DecidableEq, Repr

/-- `create_empty` (results.py:63-81). -/
def StageOne.empty : StageOne :=
  ⟨none, none, none, none, some 0, some 1, some 0, some 0, some 0, none, true, some false, some false, some false, some false⟩

/-- The rates are zero where there is no stream (results.py:83-137). -/
def orZero (f : Stream → ℚ) : Option Stream → ℚ
  | none => 0
  | some s => f s

/-- `within_capacity` (results.py:139-145). -/
def StageOne.within (s : StageOne) : Bool := decide (s.area = some .internal) || s.pointValid

/-- `asv_recirculation_loss_mw` (results.py:155-167). -/
def StageOne.loss (s : StageOne) : Fl :=
  Fl.mul (Fl.mul (some (orZero (·.mass) s.inletAsv - orZero (·.mass) s.inlet)) s.change) (some (1 / (60 * 60 * 1000)))

/-- `CompressorTrainResultSingleTimeStep` (results.py:170-193), with its failure status (`true` for NO_FAILURE). -/
structure TrainOne where
  inlet : Option Stream
  outlet : Option Stream
  speed : Fl
  stages : List StageOne
  noFailure : Bool
deriving DecidableEq, Repr

/-- `create_empty` (results.py:562-570). -/
def TrainOne.empty (n : ℕ) : TrainOne := ⟨none, none, none, List.replicate n .empty, true⟩

/-- Sums of floats are NaN as soon as one of them is. -/
def flSum : List Fl → Fl
  | [] => some 0
  | x :: xs => Fl.add x (flSum xs)

/-- `power_megawatt` (results.py:409-411). -/
def TrainOne.power (r : TrainOne) : Fl := flSum (r.stages.map (·.power))

/-- `is_valid` (results.py:396-403). -/
def TrainOne.isValid (r : TrainOne) : Bool := r.noFailure && r.stages.all (·.within)

/-- `CompressorStreamCondition` (core/results/compressor.py:46-81). -/
structure Cond where
  pressure : List Fl
  actual : List Fl
  actualBefore : List Fl
  standard : List Fl
  standardBefore : List Fl
  density : List Fl
  kappa : List Fl
  z : List Fl
  temperature : List Fl
deriving DecidableEq, Repr

/-- `CompressorStageResult` (core/results/compressor.py:84-186); units and charts are left out. -/
structure StageSeries where
  energyUsage : List Fl
  power : List Fl
  mass : List Fl
  massBefore : List Fl
  inlet : Cond
  outlet : Cond
  change : List Fl
  head : List Fl
  efficiency : List Fl
  changeBefore : List Fl
  speed : List Fl
  loss : List Fl
  valid : List Bool
  area : List (Option Area)
  recirculates : List Bool
  rateExceeds : List Bool
  choked : List Bool
  headExceeds : List Bool
deriving DecidableEq, Repr

/-- `get_or_fill` (results.py:202-206). -/
def orNan (f : Stream → ℚ) (s : Option Stream) : Fl := s.map f

/-- One stage over time (results.py:210-301): the time steps with the stage in each. -/
def stageSeries (xs : List (TrainOne × StageOne)) : StageSeries where
  energyUsage := xs.map fun x => x.2.power
  power := xs.map fun x => x.2.power
  mass := xs.map fun x => some (orZero (·.mass) x.2.inletAsv)
  massBefore := xs.map fun x => some (orZero (·.mass) x.2.inlet)
  inlet :=
    { pressure := xs.map fun x => orNan (·.pressure) x.2.inlet
      actual := xs.map fun x => some (orZero (·.volume) x.2.inletAsv)
      actualBefore := xs.map fun x => some (orZero (·.volume) x.2.inlet)
      standard := xs.map fun x => some (orZero (·.standard) x.2.inletAsv)
      standardBefore := xs.map fun x => some (orZero (·.standard) x.2.inlet)
      density := xs.map fun x => orNan (·.density) x.2.inlet
      kappa := xs.map fun x => orNan (·.kappa) x.2.inlet
      z := xs.map fun x => orNan (·.z) x.2.inlet
      temperature := xs.map fun x => orNan (·.temperature) x.2.inlet }
  outlet :=
    { pressure := xs.map fun x => orNan (·.pressure) x.2.outlet
      actual := xs.map fun x => some (orZero (·.volume) x.2.outletAsv)
      actualBefore := xs.map fun x => some (orZero (·.volume) x.2.outlet)
      standard := xs.map fun x => some (orZero (·.standard) x.2.inletAsv)
      standardBefore := xs.map fun x => some (orZero (·.standard) x.2.inlet)
      density := xs.map fun x => orNan (·.density) x.2.outlet
      kappa := xs.map fun x => orNan (·.kappa) x.2.outlet
      z := xs.map fun x => orNan (·.z) x.2.outlet
      temperature := xs.map fun x => orNan (·.temperature) x.2.outlet }
  change := xs.map fun x => x.2.change
  head := xs.map fun x => x.2.head
  efficiency := xs.map fun x => x.2.efficiency
  changeBefore := xs.map fun x => x.2.changeBefore
  speed := xs.map fun x => x.1.speed
  loss := xs.map fun x => x.2.loss
  valid := xs.map fun x => x.2.within
  area := xs.map fun x => x.2.area
  recirculates := xs.map fun x => x.2.recirculates.getD false
  rateExceeds := xs.map fun x => x.2.rateExceeds.getD false
  choked := xs.map fun x => x.2.choked.getD false
  headExceeds := xs.map fun x => x.2.headExceeds.getD false

/-- `single_train_result.stage_results[i]` (results.py:216-217) in all time steps. -/
def pick (results : List TrainOne) (i : ℕ) : Except Err (List (TrainOne × StageOne)) :=
  results.mapM fun r =>
    match r.stages[i]? with
    | none => .error .indexError
    | some s => .ok (r, s)

/-- The series of all stages (results.py:200-301). -/
def allStages (results : List TrainOne) : Except Err (List StageSeries) :=
  match results.map (·.stages.length) with
  | [] => .error .valueError
  | n :: ns => (List.range (ns.foldl max n)).mapM fun i => (pick results i).map stageSeries

/-- `inlet_actual_rate` (results.py:431-433). -/
def TrainOne.inletActual (r : TrainOne) : Except Err Fl :=
  match r.stages.head? with
  | none => .error .indexError
  | some s => .ok (some (orZero (·.volume) s.inlet))

/-- `outlet_actual_rate` (results.py:470-472). -/
def TrainOne.outletActual (r : TrainOne) : Except Err Fl :=
  match r.stages.getLast? with
  | none => .error .indexError
  | some s => .ok (some (orZero (·.volume) s.outlet))

/-- The inlet of the train (results.py:303-324, 338-339). -/
def trainInlet (results : List TrainOne) (first : StageSeries) : Except Err Cond := do
  let actual ← results.mapM (·.inletActual)
  return { pressure := results.map fun r => orNan (·.pressure) r.inlet
           actual := actual
           actualBefore := results.map fun _ => none
           standard := first.inlet.standardBefore
           standardBefore := results.map fun _ => none
           density := results.map fun r => orNan (·.density) r.inlet
           kappa := results.map fun r => orNan (·.kappa) r.inlet
           z := results.map fun r => orNan (·.z) r.inlet
           temperature := results.map fun r => orNan (·.temperature) r.inlet }

/-- The outlet of the train (results.py:326-341). -/
def trainOutlet (results : List TrainOne) (last : StageSeries) : Except Err Cond := do
  let actual ← results.mapM (·.outletActual)
  return { pressure := results.map fun r => orNan (·.pressure) r.outlet
           actual := actual
           actualBefore := results.map fun _ => none
           standard := last.outlet.standardBefore
           standardBefore := results.map fun _ => none
           density := results.map fun r => orNan (·.density) r.outlet
           kappa := results.map fun r => orNan (·.kappa) r.outlet
           z := results.map fun r => orNan (·.z) r.outlet
           temperature := results.map fun r => orNan (·.temperature) r.outlet }

/-- `from_result_list_to_dto` (results.py:195-343). -/
def fromResults (results : List TrainOne) : Except Err (Cond × Cond × List StageSeries) := do
  let stages ← allStages results
  match stages.head?, stages.getLast? with
  | some first, some last =>
    let i ← trainInlet results first
    let o ← trainOutlet results last
    return (i, o, stages)
  | _, _ => .error .indexError

/-- `CompressorTrainResult` (core/results/compressor.py:189-230) without turbine. -/
structure TrainSeries where
  inlet : Cond
  outlet : Cond
  energyUsage : List Fl
  power : List Fl
  stages : List StageSeries
  noFailure : List Bool
deriving DecidableEq, Repr

/-- The adjustment of the power (base.py:214-219): not where it is zero, negative or NaN. -/
def adjusted (factor constant : ℚ) : Fl → Fl
  | none => none
  | some p => if p > 0 then some (p * factor + constant) else some p

/-- The end of `evaluate` (base.py:214-249). -/
def trainSeries (factor constant : ℚ) (results : List TrainOne) : Except Err TrainSeries := do
  let (i, o, stages) ← fromResults results
  let power := results.map fun r => adjusted factor constant r.power
  return ⟨i, o, power, power, stages, results.map (·.noFailure)⟩

/-- Element-wise `and` of vectors of the same length, `numpy.all(..., axis=0)`. -/
def allOf (n : ℕ) (vs : List (List Bool)) : List Bool := vs.foldl (List.zipWith and) (List.replicate n true)

/-- Element-wise `or`, `numpy.any(..., axis=0)`. -/
def anyOf (n : ℕ) (vs : List (List Bool)) : List Bool := vs.foldl (List.zipWith or) (List.replicate n false)

/-- `_is_valid` without turbine (core/results/compressor.py:254-281). -/
def TrainSeries.isValid (r : TrainSeries) : List Bool :=
  List.zipWith and r.noFailure (allOf r.noFailure.length (r.stages.map (·.valid)))

/-- `recirculation_loss` (core/results/compressor.py:300-302, list_utils.py:65-81): NaN counts as zero. -/
def TrainSeries.loss (r : TrainSeries) : List ℚ :=
  (r.stages.map fun s => s.loss.map fun x => x.getD 0).foldl (List.zipWith (· + ·)) (List.replicate r.noFailure.length 0)

/-- `rate_exceeds_maximum` and `pressure_is_choked` (core/results/compressor.py:296-298, 304-306). -/
def TrainSeries.rateExceeds (r : TrainSeries) : List Bool := anyOf r.noFailure.length (r.stages.map (·.rateExceeds))

@[inherit_doc TrainSeries.rateExceeds]
def TrainSeries.choked (r : TrainSeries) : List Bool := anyOf r.noFailure.length (r.stages.map (·.choked))

/-! ## Requested pressures in a system -/

/-- Pressures of an operational setting, one per consumer, by period; absent for pumps without. -/
abbrev Pressures := Option (List (Period × Fl))

/-- An operational setting (operational_setting.py:28-42): suction and discharge pressures of the consumers. -/
structure Setting where
  suction : List Pressures
  discharge : List Pressures
deriving DecidableEq, Repr

/-- A system: the names of its consumers and its operational settings. -/
structure Sys where
  names : List String
  settings : List Setting
deriving DecidableEq, Repr

/-- `get_operational_setting_used_id` (mapper.py:1420-1427): numbers start at one. -/
def usedId (used : List (Period × ℤ)) (p : Period) : Except Err ℤ :=
  match used.find? (fun x => x.1 = p) with
  | none => .error .valueError
  | some x => .ok (x.2 - 1)

/-- Python's `l[i]` with negative indices from the end. -/
def pyGet {α : Type} (l : List α) (i : ℤ) : Except Err α :=
  let j := if i < 0 then i + l.length else i
  if j < 0 then .error .indexError
  else match l[j.toNat]? with
    | none => .error .indexError
    | some x => .ok x

/-- The pressure of a consumer in a period (mapper.py:634-656). -/
def requestedIn (suction : Bool) (used : List (Period × ℤ)) (sys : Sys) (k : ℕ) (p : Period) : Except Err Fl := do
  let id ← usedId used p
  let setting ← pyGet sys.settings id
  match (if suction then setting.suction else setting.discharge)[k]? with
  | none => .error .indexError
  | some none => return none
  | some (some series) =>
    match series.find? (fun x => x.1 = p) with
    | none => return none
    | some x => return x.2

/-- `get_requested_compressor_pressures` (mapper.py:604-663). The inner loop goes over all consumers with the name, and
takes the number of the first. -/
def requested (suction : Bool) (name : String) (models : List (Period × Sys)) (modelPeriods : List Period)
    (used : List (Period × ℤ)) : Except Err (List (Period × Fl)) := do
  let parts ← models.mapM fun m => do
    let inside ← Period.getPeriods m.1 modelPeriods
    let vs ← inside.mapM fun p =>
      (m.2.names.filter (· = name)).mapM fun _ => do
        let v ← requestedIn suction used m.2 (m.2.names.idxOf name) p
        return (p, v)
    return vs.flatten
  return parts.flatten

end Verif.Report
