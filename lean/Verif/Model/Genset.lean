import Verif.Model.Table
import Verif.Model.Variables

/-!
# Model of `libecalc/domain/infrastructure/energy_components/generator_set/`

Tables are given as parsed numbers: the header check and the parsing of the columns are not modelled.
-/

namespace Verif.Genset
open Verif.Time Verif.Rates Verif.Units Verif.Expression Verif.Variables Verif.Table

/-- `GeneratorSetModel` (generator_set_model.py:19-38): rows of power and fuel. -/
structure Model where
  rows : List (ℚ × ℚ)
  minFuel : ℚ
  maxFuel : ℚ
  maxCapacity : ℚ

/-- `GeneratorSetModel.__init__` (generator_set_model.py:19-54) with the length check of
generator_set_validator.py:42-49; `max_capacity` is the largest power of the table. -/
def Model.make (powers fuels : List ℚ) : Except Err Model := do
  if powers.length ≠ fuels.length then .error .validation
  else
    let lo ← pyMin fuels
    let hi ← pyMax fuels
    let cap ← pyMax powers
    return ⟨powers.zip fuels, lo, hi, cap⟩

/-- `evaluate_fuel_usage` (generator_set_model.py:65-67); `nan > 0` is False. -/
def Model.fuelUsage (m : Model) (power : Fl) : Except Err Fl :=
  match power with
  | none => .ok (some 0)
  | some p => if 0 < p then (lookup m.rows m.minFuel m.maxFuel p).map some else .ok (some 0)

/-- `evaluate_power_capacity_margin` (generator_set_model.py:69-71). -/
def Model.margin (m : Model) (power : Fl) : Except Err Fl := .ok (power.map (fun p => m.maxCapacity - p))

/-- Assignment `result[k] = f(values[k])` (generator_set_component.py:192, 212). -/
def fillStep (f : Fl → Except Err Fl) (values : List Fl) (acc : List Fl) (k : Nat) : Except Err (List Fl) :=
  match values[k]? with
  | none => .error .indexError
  | some v => do
    let x ← f v
    if k < acc.length then return acc.set k x else .error .indexError

/-- Inner loop of `_evaluate_fuel_rate` and `_evaluate_power_capacity_margin` (generator_set_component.py:191-192,
211-212): `for i in range(start_index, end_index)`. -/
def fillRange (f : Fl → Except Err Fl) (values : List Fl) (result : List Fl) (i j : Nat) : Except Err (List Fl) :=
  (List.range' i (j - i)).foldlM (fillStep f values) result

/-- One model of the loops over `temporal_generator_set_model` (generator_set_component.py:185-192, 205-212). -/
def overStep (f : Model → Fl → Except Err Fl) (ev : VarMap) (values acc : List Fl) (pm : Period × Model) :
    Except Err (List Fl) := do
  let own ← ev.period
  if Period.intersects pm.1 own then
    let (i, j) ← Period.getPeriodIndices pm.1 ev.periods
    fillRange (f pm.2) values acc i j
  else return acc

/-- `_evaluate_fuel_rate` (generator_set_component.py:174-193) and `_evaluate_power_capacity_margin` (195-213):
the initial array differs, and the function of the model. -/
def overModels (f : Model → Fl → Except Err Fl) (ev : VarMap) (models : TModel Model) (values init : List Fl) :
    Except Err (List Fl) :=
  models.foldlM (overStep f ev values) init

/-- pandas `Series.ffill` (nan_handling.py:23). -/
def forwardFill (prev : Fl) : List Fl → List Fl
  | [] => []
  | v :: vs => let w := if v.isSome then v else prev; w :: forwardFill w vs

/-- `clean_nan_values` (nan_handling.py:6-26). -/
def cleanNan (vs : List Fl) : List Fl := (forwardFill none vs).map nanToNum

/-- `GeneratorSetResult` (core/result/results.py): validity, margin, power and fuel. -/
structure Result where
  valid : List Bool
  margin : List Fl
  power : List Fl
  fuel : List Fl
  deriving DecidableEq

/-- `x >= 0` for a float; False for NaN. -/
def nonNegative : Fl → Bool
  | none => false
  | some x => decide (0 ≤ x)

/-- `GeneratorSetEnergyComponent.evaluate_process_model` (generator_set_component.py:101-165). -/
def evaluate (ev : VarMap) (models : TModel Model) (power : Option (TS Fl)) : Except Err Result :=
  match power with
  | none => .error .validation
  | some req =>
    if req.unit ≠ .MEGA_WATT then .error .assertion
    else if req.values.length ≠ ev.periods.length then .error .programmingError
    else do
      let fuel ← overModels Model.fuelUsage ev models req.values (List.replicate req.values.length none)
      let margin ← overModels Model.margin ev models req.values (List.replicate req.values.length (some 0))
      return ⟨List.zipWith (fun f m => f.isSome && nonNegative m) fuel margin, margin, req.values, cleanNan fuel⟩

/-- Check of `GeneratorSetEnergyComponent.__init__` (generator_set_component.py:61-65). -/
def fuelCovers {α : Type} (models : TModel Model) (fuel : TModel α) : Except Err Unit := do
  let g ← models.getPeriod
  let f ← fuel.getPeriod
  if f.containsPeriod g then return () else .error .validation

/-- `get_power_production` (generator_set_component.py:215-230): power produced to deliver the requirement through the
cable. -/
def powerProduction (power : List Fl) (cableLoss : Option (List Fl)) : Except Err (List Fl) :=
  match cableLoss with
  | none => .ok power
  | some loss => npOp (fun p l => Fl.mul p (Fl.add (some 1) l)) power loss

end Verif.Genset
