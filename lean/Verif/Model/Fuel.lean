import Mathlib.Data.List.Dedup
import Verif.Model.Inputs
import Verif.Model.Names

/-!
# Model of `libecalc/domain/infrastructure/energy_components/fuel_model/fuel_model.py`
-/

namespace Verif.Fuel
open Verif.Time Verif.Rates Verif.Units Verif.Expression Verif.Variables Verif.Inputs

/-- `FuelType` (dto/fuel_type.py:18-28): the emissions with their factors. -/
abbrev FuelType := List (String × Expr)

/-- Names in insertion order without repetitions (the set comprehension of fuel_model.py:51-53; a Python set has no
defined order, the result is sorted at the end). -/
def names (models : TModel FuelType) : List String := (models.flatMap (fun pm => pm.2.map (·.1))).dedup

/-- Loop body of the innermost loop (fuel_model.py:73-76): the element must still be zero. -/
def addStep (start : Nat) (acc : List Fl) (ti : Fl × Nat) : Except Err (List Fl) :=
  match acc[ti.2 + start]? with
  | none => .error .indexError
  | some old => if old = some 0 then .ok (acc.set (ti.2 + start) (Fl.add old ti.1)) else .error .assertion

/-- Innermost loop (fuel_model.py:72-76). -/
def addAt (start : Nat) (tons : List Fl) (values : List Fl) : Except Err (List Fl) :=
  tons.zipIdx.foldlM (addStep start) values

/-- Loop over the emissions of one fuel (fuel_model.py:64-76). -/
def emissionStep (pow : Fl → Fl → Fl) (sub : VarMap) (rate : List Fl) (start : Nat) (acc : List (String × List Fl))
    (e : String × Expr) : Except Err (List (String × List Fl)) := do
  let factor ← sub.evaluate pow e.2
  let kilos ← npOp Fl.mul rate factor
  let tons ← convertValues .KILO_PER_DAY .TONS_PER_DAY kilos
  match acc.lookup e.1 with
  | none => .error .keyError
  | some values => do
    let values ← addAt start tons values
    return dictSet e.1 values acc

/-- Loop over the fuels in time (fuel_model.py:56-76). -/
def fuelStep (pow : Fl → Fl → Fl) (ev : VarMap) (rate : List Fl) (acc : List (String × List Fl))
    (pm : Period × FuelType) : Except Err (List (String × List Fl)) := do
  let own ← ev.period
  if Period.intersects pm.1 own then
    let (i, j) ← Period.getPeriodIndices pm.1 ev.periods
    let sub ← ev.getSubset i j
    pm.2.foldlM (emissionStep pow sub (Periods.slice rate i j) i) acc
  else return acc

/-- `FuelModel.evaluate_emissions` (fuel_model.py:23-78). The final sorting of the dict by name only affects the order
in which the emissions are listed and is left out. -/
def evaluateEmissions (pow : Fl → Fl → Fl) (ev : VarMap) (models : TModel FuelType) (rate : List Fl) :
    Except Err (List (String × List Fl)) :=
  models.foldlM (fuelStep pow ev rate)
    ((names models).map (fun n => (n, List.replicate ev.periods.length (some 0))))

/-- `YamlFuelType.ensure_unique_emission_names` (yaml_fuel_type.py:40-52). -/
def uniqueNames (ns : List String) : Except Err (List String) :=
  if Names.getDuplicates ns = [] then .ok ns else .error .validation

/-- `Emission.convert_name` (dto/emission.py:22-25), applied when the fuel is mapped. -/
def lowerNames (fuel : FuelType) : FuelType := fuel.map (fun ne => (ne.1.toLower, ne.2))

end Verif.Fuel
