import Mathlib.Data.List.Dedup
import Verif.Model.Inputs
import Verif.Model.Table

/-!
# Model of the consumers of an energy component

* `domain/process/core/results/generic.py`
* `domain/infrastructure/energy_components/legacy_consumer/consumer_function/*.py`
* `domain/infrastructure/energy_components/legacy_consumer/tabulated/*.py`
* `core/result/results.py` (`ConcatenatedProperty` and the result classes using it)

Not modelled: tables of several variables (`scipy.interpolate.LinearNDInterpolator`), values that are not numbers in a
table (`float(value)` failing), log messages.
-/

namespace Verif.Consumer
open Verif.Time Verif.Units Verif.Rates Verif.Inputs

/-! ## Consumer functions -/

/-- `EnergyFunctionGenericResult._is_valid` (generic.py:39-47): NaN is invalid, and so is a negative usage unless it is
allowed. -/
def genericValid (allowNegative : Bool) (usage : List Fl) : List Bool :=
  usage.map fun
    | none => false
    | some v => allowNegative || !decide (v < 0)

/-- `ConsumerFunctionResult` (consumer_function/results.py:13-22) over an `EnergyFunctionGenericResult`
(generic.py:10-22). The loss factor is its evaluated expression. -/
structure FunctionResult where
  periods : Periods
  usage : List Fl
  usageUnit : EUnit
  power : Option (List Fl)
  allowNegative : Bool
  loss : Option (List Fl)
  deriving DecidableEq

/-- `is_valid` (consumer_function/results.py:28-30): judged before the loss factor. -/
def FunctionResult.valid (r : FunctionResult) : List Bool := genericValid r.allowNegative r.usage

/-- `energy_usage` (consumer_function/results.py:54-58). -/
def FunctionResult.energyUsage (r : FunctionResult) : Except Err (List Fl) :=
  match r.loss with
  | none => .ok r.usage
  | some f => lossApply (some f) r.usage.length r.usage

/-- `power` (consumer_function/results.py:40-48). -/
def FunctionResult.powerAfterLoss (r : FunctionResult) : Except Err (Option (List Fl)) :=
  match r.power, r.loss with
  | none, _ => .ok none
  | some p, none => .ok (some p)
  | some p, some f => (lossApply (some f) p.length p).map some

/-- `EnergyUsageType` (common/energy_usage_type.py). -/
inductive UsageType where
  | fuel | power
  deriving DecidableEq

/-- `energy_usage_unit` (direct_consumer_function.py:34-41, tabular_consumer_function.py:114-116). -/
def UsageType.unit : UsageType → EUnit
  | .fuel => .STANDARD_CUBIC_METER_PER_DAY
  | .power => .MEGA_WATT

/-- `DirectConsumerFunction` with `evaluate` (direct_consumer_function.py:14-61), given the stream day values of the fuel
rate or load; AttributeError when the wanted one is missing (here a TypeError). -/
def direct (kind : UsageType) (fuelRate load : Option (Periods × List Fl)) (loss : Option (List Fl)) :
    Except Err FunctionResult :=
  match (match kind with | .fuel => fuelRate | .power => load) with
  | none => .error .typeError
  | some (ps, vs) => .ok {
      periods := ps
      usage := vs
      usageUnit := kind.unit
      power := match kind with | .power => some vs | .fuel => none
      allowNegative := match kind with | .power => true | .fuel => false
      loss := loss }

/-! ## Tabulated consumers -/

/-- `self.data[self.headers.index(header)]` (tabular_energy_function.py:67-68). -/
def column (headers : List String) (data : List (List ℚ)) (h : String) : Except Err (List ℚ) :=
  match headers.findIdx? (· == h) with
  | none => .error .valueError
  | some i => match data[i]? with
    | some c => .ok c
    | none => .error .indexError

/-- `get_energy_usage_type` (tabular_energy_function.py:70-71): POWER if there is such a column. -/
def usageType (headers : List String) : UsageType := if "POWER" ∈ headers then .power else .fuel

/-- `EnergyUsageType.value`. -/
def UsageType.header : UsageType → String
  | .fuel => "FUEL"
  | .power => "POWER"

/-- `required_variables` (tabular_energy_function.py:51-53, 79-81): the keys of a dict over the other headers. -/
def requiredVariables (headers : List String) : List String :=
  headers.foldl (fun acc h => if h = (usageType headers).header ∨ h ∈ acc then acc else acc ++ [h]) []

/-- `interp1d` with `fill_value=nan`, `bounds_error=False` (interpolation.py:8-28) for one argument. -/
def lookupNan (rows : List (ℚ × ℚ)) (x : Fl) : Except Err Fl :=
  match Table.sortRows rows, x with
  | [], _ => .error .valueError
  | _, none => .ok none
  | a :: rest, some x =>
    if x < a.1 then .ok none
    else if ((a :: rest).getLast (by simp)).1 < x then .ok none
    else .ok (some (Table.segment a rest x))

/-- `TabularEnergyFunction` (tabular_energy_function.py:38-55), for a table with one variable. -/
structure EnergyTable where
  kind : UsageType
  name : String
  rows : List (ℚ × ℚ)
  deriving DecidableEq

/-- `TabularEnergyFunction.__init__` with its validators (tabular_energy_function.py:38-55, 83-131), for one variable;
`notImplemented` stands for the part left out. An index outside `data` is an IndexError in `validate_data`. -/
def EnergyTable.make (headers : List String) (data : List (List ℚ)) : Except Err EnergyTable :=
  if !(decide ("FUEL" ∈ headers) || decide ("POWER" ∈ headers)) then .error .validation
  else if (data.map List.length).dedup.length > 1 then .error .validation
  else if data.length < headers.length then .error .indexError
  else match requiredVariables headers with
    | [v] => do
      let xs ← column headers data v
      let ys ← column headers data (usageType headers).header
      if xs = [] then .error .valueError else return ⟨usageType headers, v, xs.zip ys⟩
    | _ => .error .notImplemented

/-- `ExpressionTimeSeriesVariable.get_values` (expression_time_series_variable.py:36-48), from the evaluated values, the
mask of the condition and the regularity. -/
def variableValues (isRate : Bool) (mask : Option (List Fl)) (values regularity : List Fl) : Except Err (List Fl) := do
  let vs ← maskApply mask values
  if isRate then Rates.toStreamDay vs regularity else return vs

/-- `TabularConsumerFunction.evaluate` (tabular_consumer_function.py:60-126); the variables by name, in a dict. An
IllegalStateException when the names differ from the required ones. -/
def EnergyTable.evaluate (t : EnergyTable) (ps : Periods) (vars : List (String × List Fl)) (loss : Option (List Fl)) :
    Except Err FunctionResult :=
  if !(vars.all fun nv => nv.1 = t.name) ∨ vars = [] then .error .programmingError
  else match (vars.foldl (fun d nv => dictSet nv.1 nv.2 d) []).lookup t.name with
    | none => .error .programmingError
    | some xs => do
      let usage ← xs.mapM (lookupNan t.rows)
      return {
        periods := ps
        usage := usage
        usageUnit := t.kind.unit
        power := match t.kind with | .power => some usage | .fuel => none
        allowNegative := false
        loss := loss }

/-! ## Concatenation over the temporal model -/

/-- What a `ConcatenatedProperty` reads from one result: its periods, the attribute and the unit. -/
structure Part (α : Type) where
  periods : Periods
  values : Option (List α)
  unit : Option EUnit
  deriving DecidableEq

/-- The loop of `ConcatenatedProperty.__get__` (results.py:108-127); the outer option is the early `return None`. -/
def series {α : Type} (fill : α) (allowNone : Bool) : List (Part α) → Except Err (Option (List (TS α)))
  | [] => .ok (some [])
  | r :: rs =>
    if r.values.isNone && allowNone then .ok none
    else match r.unit with
      | none => .error .assertion
      | some u => do
        let s ← TS.make r.periods (r.values.getD (List.replicate r.periods.length fill)) u
        let rest ← series fill allowNone rs
        return rest.map (s :: ·)

/-- `reduce(lambda x, y: x.extend(y), ...)` from a first series. -/
def extendAll {α : Type} (s : TS α) : List (TS α) → Except Err (TS α)
  | [] => .ok s
  | o :: os => do
    let e ← s.extend o
    extendAll e os

/-- `ConcatenatedProperty.__get__` (results.py:92-139) without the post processor. -/
def concatenated {α : Type} (fill : α) (allowNone : Bool) (periods : Periods) (results : List (Part α)) :
    Except Err (Option (TS α)) := do
  match ← series fill allowNone results with
  | none => return none
  | some [] => .error .assertion
  | some (s :: ss) =>
    if (ss.all fun o => o.unit = s.unit) then do
      let e ← extendAll s ss
      return some (← e.fillValuesForNewPeriods periods fill)
    else .error .assertion

/-- `convert_to_one_based_index` (results.py:162-164). -/
def oneBased (s : TS Int) : TS Int := { s with values := s.values.map (· + 1) }

/-- `ConsumerSystemResult.operational_settings_used` (results.py:171-177). -/
def settingsUsed (periods : Periods) (results : List (Part Int)) : Except Err (Option (TS Int)) := do
  return (← concatenated (-1) false periods results).map oneBased

/-- `energy_usage`, `power` and `is_valid` of `GenericComponentResult` (results.py:142-145). -/
structure ComponentResult where
  usage : TS Fl
  power : Option (TS Fl)
  valid : TS Bool
  deriving DecidableEq

/-- A property without `allow_none` never answers `None`. -/
def present {α : Type} : Option α → Except Err α
  | some a => .ok a
  | none => .error .typeError

/-- The properties of `GenericComponentResult` (results.py:142-145) for the results of the models in force. -/
def component (periods : Periods) (results : List FunctionResult) : Except Err ComponentResult := do
  let us ← results.mapM fun r => do return (⟨r.periods, some (← r.energyUsage), some r.usageUnit⟩ : Part Fl)
  let ps ← results.mapM fun r => do return (⟨r.periods, ← r.powerAfterLoss, some .MEGA_WATT⟩ : Part Fl)
  let usage ← present (← concatenated (some 0) false periods us)
  let power ← concatenated (some 0) true periods ps
  let valid ← present (← concatenated true false periods
    (results.map fun r => (⟨r.periods, some r.valid, some .NONE⟩ : Part Bool)))
  return ⟨usage, power, valid⟩

end Verif.Consumer
