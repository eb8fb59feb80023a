import Verif.Model.Rates

/-!
# Model of installation and asset totals
(`libecalc/presentation/json_result/mapper.py`: `InstallationMapper`, `get_asset_result`;
`libecalc/domain/infrastructure/energy_components/installation/installation.py`;
`libecalc/presentation/yaml/model.py`: `get_validity`)

The components' own results (fuel rate, power, emissions, validity) are the input. The result objects are
reduced to the totals; identifiers, names and levels are not modelled.
-/

namespace Verif.Totals
open Verif.Time Verif.Units Verif.Rates

/-- An emitter's `get_emissions()`: a dict from emission name to rate (mapper.py:1384). -/
abbrev Emissions := List (String × RateTS)

/-- A consumer of a generator set: its `get_power_consumption()` (electricity_consumer.py:86-90) and validity. -/
structure Electrical where
  power : Option RateTS
  valid : TS Bool

/-- The two kinds of members of `fuel_consumers` (installation.py:57): a generator set with its consumers and a
fuel consumer with its `get_power_consumption()` (fuel_consumer.py:108-123). -/
inductive FuelConsumer where
  | genset (fuel : RateTS) (emissions : Emissions) (consumers : List Electrical) (valid : TS Bool)
  | direct (fuel : RateTS) (emissions : Emissions) (power : Option RateTS) (valid : TS Bool)

namespace FuelConsumer

/-- `get_fuel_consumption().rate` (generator_set_component.py:260-265, fuel_consumer.py:101-106). -/
def fuel : FuelConsumer → RateTS
  | .genset f _ _ _ => f
  | .direct f _ _ _ => f

/-- `get_emissions()` (generator_set_component.py:270, fuel_consumer.py:128). -/
def emissions : FuelConsumer → Emissions
  | .genset _ e _ _ => e
  | .direct _ e _ _ => e

/-- Own validity followed by that of the consumers behind it (`_consumer_results`, model.py:501-502). -/
def validities : FuelConsumer → List (TS Bool)
  | .genset _ _ cs v => v :: cs.map (·.valid)
  | .direct _ _ _ v => [v]

/-- Contribution to `get_electrical_power_consumers` (installation.py:139-150). -/
def electrical : FuelConsumer → List RateTS
  | .genset _ _ cs _ => cs.filterMap (·.power)
  | .direct _ _ _ _ => []

/-- Contribution to `get_mechanical_power_consumers` (installation.py:119-134). -/
def mechanical : FuelConsumer → List RateTS
  | .genset _ _ _ _ => []
  | .direct _ _ p _ => p.toList

end FuelConsumer

/-- `InstallationComponent` (installation.py:51-75): of a venting emitter only the emissions matter. -/
structure Installation where
  fuelConsumers : List FuelConsumer
  venting : List Emissions
  hcExport : RateTS

namespace Installation

/-- `get_electrical_power_consumers` (installation.py:137-154). -/
def electrical (i : Installation) : List RateTS := i.fuelConsumers.flatMap (·.electrical)

/-- `get_mechanical_power_consumers` (installation.py:117-135). -/
def mechanical (i : Installation) : List RateTS := i.fuelConsumers.flatMap (·.mechanical)

/-- `get_emitters` (installation.py:159-160). -/
def emitters (i : Installation) : List Emissions := i.fuelConsumers.map (·.emissions) ++ i.venting

end Installation

/-- `TimeSeriesRate.to_unit` (rates.py:326-329). -/
def toUnit (s : RateTS) (u : EUnit) : Except Err RateTS :=
  if u = s.unit then .ok s
  else match EUnit.to s.unit u with
    | .error _ => if s.values = [] then .ok { s with unit := u } else .error .notImplemented
    | .ok f => .ok { s with values := s.values.map (fun v => v.map f), unit := u }

/-- `reduce(operator.add, ...)` (mapper.py:1400, 1411, 1467); TypeError for an empty list. -/
def reduceAdd : List RateTS → Except Err RateTS
  | [] => .error .typeError
  | s :: ss => ss.foldlM RateTS.add s

/-- `aggregate_power_consumption` (mapper.py:1392-1402). -/
def aggregatePower (l : List RateTS) : Except Err (Option RateTS) :=
  if l = [] then .ok none
  else do
    let l ← l.mapM (toUnit · .MEGA_WATT)
    let r ← reduceAdd l
    return some r

/-- `get_zero_fuel_consumption_rate` (mapper.py:1024-1033). -/
def zeroFuel (ps : Periods) : Except Err RateTS :=
  RateTS.make ps (List.replicate ps.length (some 0)) .STANDARD_CUBIC_METER_PER_DAY .calendarDay
    (List.replicate ps.length (some 1))

/-- `aggregate_fuel_consumption` (mapper.py:1404-1417). -/
def aggregateFuel (ps : Periods) (l : List RateTS) : Except Err RateTS :=
  if l = [] then zeroFuel ps
  else do
    let l ← l.mapM fun s => do
      let s ← toUnit s .STANDARD_CUBIC_METER_PER_DAY
      s.toCalendarDay
    reduceAdd l

/-- Loop body of `aggregate_emissions` (mapper.py:1385-1389). -/
def emissionStep (acc : Emissions) (e : String × RateTS) : Except Err Emissions := do
  let c ← e.2.toCalendarDay
  match acc.lookup e.1 with
  | none => return dictSet e.1 c acc
  | some a => do
    let s ← a.add c
    return dictSet e.1 s acc

/-- `aggregate_emissions` (mapper.py:1380-1390). -/
def aggregateEmissions (emitters : List Emissions) : Except Err Emissions :=
  emitters.foldlM (fun acc e => e.foldlM emissionStep acc) []

/-- `bool(series)` is `len(series) > 0`, and None is false. -/
def truthy : Option RateTS → Bool
  | none => false
  | some s => decide (s.values ≠ [])

/-- `a + b if a and b else (mechanical or electrical)` (mapper.py:1237-1241, 1478-1482): `sum` is the addition in
the order written there. -/
def combine (electrical mechanical : Option RateTS) (sum : RateTS → RateTS → Except Err RateTS) :
    Except Err (Option RateTS) :=
  match electrical, mechanical with
  | some e, some m =>
    if truthy (some e) && truthy (some m) then (sum e m).map some
    else if truthy (some m) then .ok (some m) else .ok (some e)
  | e, m => if truthy m then .ok m else .ok e

/-- `x.to_volumes().to_unit(GIGA_WATT_HOURS).cumulative() if x else None` (mapper.py:1253, 974-978). -/
def energyGWh (x : Option RateTS) : Except Err (Option (TS Fl)) :=
  match x with
  | none => .ok none
  | some s =>
    if truthy (some s) then do
      let v ← s.toVolumes
      let g ← v.toUnit .GIGA_WATT_HOURS
      let c ← Rates.cumulative g
      return some c
    else .ok none

/-- The totals of `InstallationResult` and `AssetResult` (results.py:60-84). -/
structure Result where
  power : Option RateTS
  powerCumulative : Option (TS Fl)
  electrical : Option RateTS
  electricalCumulative : Option (TS Fl)
  mechanical : Option RateTS
  mechanicalCumulative : Option (TS Fl)
  fuel : RateTS
  fuelCumulative : TS Fl
  hcExport : RateTS
  emissions : Emissions

/-- The part common to `map_installation` (mapper.py:1226-1268) and `get_asset_result` (mapper.py:1472-1518):
totals over lists of consumers. -/
def totals (ps : Periods) (electrical mechanical fuels : List RateTS) (emitters : List Emissions) (hc : RateTS)
    (sum : RateTS → RateTS → Except Err RateTS) : Except Err Result := do
  let e ← aggregatePower electrical
  let m ← aggregatePower mechanical
  let p ← combine e m sum
  let pc ← energyGWh p
  let ec ← energyGWh e
  let mc ← energyGWh m
  let f ← aggregateFuel ps fuels
  let fv ← f.toVolumes
  let fc ← Rates.cumulative fv
  let em ← aggregateEmissions emitters
  return ⟨p, pc, e, ec, m, mc, f, fc, hc, em⟩

/-- `map_installation` (mapper.py:1226-1268): electrical plus mechanical power. -/
def installation (ps : Periods) (i : Installation) : Except Err Result :=
  totals ps i.electrical i.mechanical (i.fuelConsumers.map (·.fuel)) i.emitters i.hcExport RateTS.add

/-- `get_asset_result` (mapper.py:1430-1527): mechanical plus electrical power. -/
def asset (ps : Periods) (is : List Installation) : Except Err Result := do
  let hc ← reduceAdd (is.map (·.hcExport))
  totals ps (is.flatMap (·.electrical)) (is.flatMap (·.mechanical))
    (is.flatMap fun i => i.fuelConsumers.map (·.fuel)) (is.flatMap (·.emitters)) hc (fun e m => m.add e)

/-! ## Validity -/

/-- `TimeSeriesBoolean.__mul__` (rates.py:456-466). -/
def mulBool (s o : TS Bool) : Except Err (TS Bool) :=
  TS.make s.periods (List.zipWith (· && ·) s.values o.values) s.unit

/-- Validity of a venting emitter (model.py:503-506). -/
def allTrue (ps : Periods) : TS Bool := ⟨ps, List.replicate ps.length true, .NONE⟩

/-- Aggregation over the children (model.py:495-499); `assert len(children) > 0`. -/
def validity : List (TS Bool) → Except Err (TS Bool)
  | [] => .error .assertion
  | v :: vs => vs.foldlM mulBool v

/-- Validities of everything inside an installation (`get_all_children`, model.py:494). networkx returns the
descendants as a set, so their order is unknown: properties must hold for every permutation of this list. -/
def Installation.children (ps : Periods) (i : Installation) : List (TS Bool) :=
  i.fuelConsumers.flatMap (·.validities) ++ i.venting.map fun _ => allTrue ps

end Verif.Totals
