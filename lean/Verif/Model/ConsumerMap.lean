import Verif.Model.SystemMap
import Verif.Model.Consumer

/-!
# Model of how the energy usage model of one consumer is read

* `presentation/yaml/mappers/consumer_function_mapper.py` (`_map_condition`, `validate_pressures`, `_map_direct`,
  `_map_tabular`, `_map_pump`, `_map_multiple_streams_compressor`, `_map_compressor`, `from_yaml_to_dto`)
* `presentation/yaml/yaml_types/components/legacy/energy_usage_model/*.py` (fields and defaults)
* `presentation/yaml/domain/*.py` for the values of the fields

Not modelled: units other than the default ones (there are none), systems (`Verif/Model/SystemMap.lean`), what a
reference stands for (a parameter here, see `Verif/Model/References.lean`), the log, the texts of errors.
-/

namespace Verif.ConsumerMap
open Verif.Time Verif.Rates Verif.Expression Verif.Variables Verif.Inputs Verif.SystemMap Verif.Consumer

/-- `EnergyUsageModelCommon` (energy_usage_model/common.py:9-25). -/
structure Common where
  condition : Option Field := none
  conditions : Option (List Field) := none
  loss : Option Field := none

/-- `check_mutually_exclusive_condition` (energy_usage_model/common.py:27-31), when the file is read. -/
def Common.check (c : Common) : Except Err Unit :=
  if c.conditions.isSome ∧ c.condition.isSome then .error .valueError else .ok ()

/-- Python truth value of a field. -/
def truthy : Field → Bool
  | .number v => v ≠ 0
  | .text s => s ≠ []

section
variable (parse : List Char → Option ℚ) (fmt : ℚ → List Char)

/-- `" {*} ".join(f"({condition})" ...)` (consumer_function_mapper.py:170-172). -/
def joinText : List Field → List Char
  | [] => []
  | [c] => '(' :: c.show fmt ++ [')']
  | c :: d :: cs => '(' :: c.show fmt ++ ')' :: ' ' :: '{' :: '*' :: '}' :: ' ' :: joinText (d :: cs)

/-- `_map_condition` (consumer_function_mapper.py:180-187): both fields are tested for truth. -/
def Common.field (c : Common) : Option Field :=
  match c.condition with
  | some f => if truthy f then some f else viaList c.conditions
  | none => viaList c.conditions
where
  /-- The second branch (consumer_function_mapper.py:184-187). -/
  viaList : Option (List Field) → Option Field
    | some (f :: fs) => some (.text (joinText fmt (f :: fs)))
    | _ => none

/-- `convert_expression(condition)` (time_series_expression.py:36). -/
def Common.input (c : Common) : Except Err (Option ExprInput) :=
  match c.field fmt with
  | none => .ok none
  | some f => (f.input parse).map some

/-- The energy usage models of single consumers
(yaml_energy_usage_model_direct.py, _tabulated.py, _pump.py, _compressor.py, _compressor_train_multiple_streams.py). -/
inductive Usage where
  | directFuel (rateType : Option RateType) (rate : Field)
  | directElectricity (rateType : Option RateType) (load : Field)
  | tabular (table : String) (inputs : List (String × Field))
  | pump (pump : String) (rate suction discharge : Option Field) (density : Field)
  | compressor (compressor : String) (rate : Field) (suction discharge : Option Field)
  | streams (train : String) (rates : List Field) (suction discharge : Field) (interstage : Option Field)

/-- A compressor model made from a reference: the energy it consumes, whether it is sampled
(`_is_sampled_compressor`, consumer_function_mapper.py:194-199), whether there are fluid models. -/
structure Made where
  kind : Kind
  sampled : Bool
  fluid : Bool

/-- What references stand for. A simplified train is made from the rates and pressures
(consumer_function_mapper.py:1308-1322). -/
structure Library where
  table : String → Except Err (List String × List (List ℚ))
  pump : String → Except Err Unit
  compressor : String → Option (List Fl × Option (List Fl) × Option (List Fl)) → Except Err Made

/-- What is evaluated: a consumer function or a model with its evaluation input
(consumer_function_mapper.py:1023-1047, 1084-1089, 1142-1148, 1227-1235, 1333-1358). -/
inductive Target where
  | direct (kind : UsageType) (values : List Fl)
  | table (headers : List String) (data : List (List ℚ)) (inputs : List (String × List Fl))
  | pump (rate suction discharge density : List Fl)
  | sampled (rate : List Fl) (suction discharge : Option (List Fl))
  | train (rates : List (List Fl)) (suction discharge : List Fl) (interstage : Option (List Fl))
  deriving DecidableEq

/-- The target and the power loss factor, which is evaluated with the results
(`ExpressionTimeSeriesPowerLossFactor`); `none` when the file has none. -/
structure Mapped where
  target : Target
  loss : Option TSE

variable (pow : Fl → Fl → Fl) (ev : VarMap) (reg : Reg) (lib : Library)

/-- `TimeSeriesExpression(expression=model.power_loss_factor)` (consumer_function_mapper.py:1005-1008, 1269-1278). -/
def lossOf (loss : Option Field) : Except Err (Option TSE) :=
  match loss with
  | none => .ok none
  | some f => do
    let e ← f.input parse
    let t ← TSE.make e ev none
    return some t

/-- `ConsumptionType` of an `EnergyUsageType` (consumer_function_mapper.py:1056-1058). -/
def kindOf : UsageType → Kind
  | .power => .electricity
  | .fuel => .fuel

/-- `if consumes != actual: raise InvalidConsumptionType`, wrapped like a validation error
(consumer_function_mapper.py:1013-1014, 1035-1036, 1060-1061, 1104-1105, 1208-1209, 1325-1327). -/
def expectKind (consumes actual : Kind) : Except Err Unit :=
  if consumes = actual then .ok () else .error .validation

/-- `TimeSeriesExpression(expression, condition)` of a field. -/
def seriesOf (cond : Option ExprInput) (f : Field) : Except Err TSE := do
  let e ← f.input parse
  TSE.make e ev cond

/-- `_map_direct` (consumer_function_mapper.py:998-1047). The load is evaluated with the results
(expression_time_series_power.py:33-52), here at once. -/
def mapDirect (consumes actual : Kind) (c : Common) (rateType : Option RateType) (f : Field) : Except Err Mapped := do
  let loss ← lossOf parse ev c.loss
  let rt := rateType.getD .streamDay
  expectKind consumes actual
  let cond ← c.input parse fmt
  let t ← seriesOf parse ev cond f
  match actual with
  | .fuel => do
    let vs ← flowRate pow t rt reg
    return ⟨.direct .fuel vs, loss⟩
  | .electricity => do
    let vs ← streamDayValues pow t rt reg
    return ⟨.direct .power vs, loss⟩

/-- One variable of a table (consumer_function_mapper.py:1068-1081, expression_time_series_variable.py:36-48), evaluated
with the results in the code. -/
def variableOf (cond : Option ExprInput) (v : String × Field) : Except Err (String × List Fl) := do
  let t ← seriesOf parse ev cond v.2
  let vs ← streamDayValues pow t (if v.1.toLower = "rate" then .calendarDay else .streamDay) reg
  return (v.1, vs)

/-- `_map_tabular` (consumer_function_mapper.py:1049-1089). -/
def mapTabular (consumes : Kind) (c : Common) (table : String) (inputs : List (String × Field)) :
    Except Err Mapped := do
  let (headers, data) ← lib.table table
  expectKind consumes (kindOf (usageType headers))
  let loss ← lossOf parse ev c.loss
  let cond ← c.input parse fmt
  let vs ← inputs.mapM (variableOf parse pow ev reg cond)
  return ⟨.table headers data vs, loss⟩

/-- `np.where(mask, nan, 0)` for a rate that is not given, and the conversion to stream days
(time_series_expression.py:59-70, time_series_mask.py:21-34, rates.py:34-46): without a condition the single NaN does
not fit the regularities (ValueError). -/
def absentRate (cond : Option ExprInput) : Except Err (List Fl) := do
  match cond with
  | none => .error .valueError
  | some c => do
    let x ← c.setup
    let m ← ev.evaluate pow x
    let rs ← reg.values pow
    Rates.toStreamDay (m.map fun v => if v ≠ some 0 then none else some 0) rs

/-- The rate of a pump (consumer_function_mapper.py:1112-1118). -/
def pumpRate (cond : Option ExprInput) (rate : Option Field) : Except Err (List Fl) :=
  match rate with
  | none => absentRate pow ev reg cond
  | some f => rateOf parse pow ev reg cond f

/-- A pressure that must be given: iterating over `None` is a TypeError (expression_time_series_pressure.py:40). -/
def neededPressure (f : Option Field) (mask : List Bool) : Except Err (List Fl) :=
  match f with
  | none => .error .typeError
  | some f => pressureOf parse pow ev f (some mask)

/-- `_map_pump` (consumer_function_mapper.py:1091-1158). -/
def mapPump (consumes : Kind) (c : Common) (pump : String) (rate suction discharge : Option Field) (density : Field) :
    Except Err Mapped := do
  lib.pump pump
  expectKind consumes .electricity
  let loss ← lossOf parse ev c.loss
  let cond ← c.input parse fmt
  let r ← pumpRate parse pow ev reg cond rate
  let d ← densityOf parse pow ev density
  let regs ← reg.values pow
  let mask := pressureMask r regs
  let sp ← neededPressure parse pow ev suction mask
  let dp ← neededPressure parse pow ev discharge mask
  validatePressures mask sp dp
  return ⟨.pump r sp dp d, loss⟩

/-- One period of `validate_pressures` with an intermediate pressure (consumer_function_mapper.py:243-266). -/
def checkThree (should : Bool) (sp ip dp : Fl) : Except Err Unit :=
  if should then
    if flLe sp (some 0) then .error .validation
    else if flLe dp (some 0) then .error .validation
    else if flLe ip (some 0) then .error .validation
    else if !(flLe sp ip && flLe ip dp) then .error .validation
    else .ok ()
  else .ok ()

/-- `validate_pressures` with an intermediate pressure (consumer_function_mapper.py:224-272). -/
def validateThree (mask : List Bool) (sp ip dp : List Fl) : Except Err Unit :=
  (List.range sp.length).forM fun i =>
    match mask[i]?, sp[i]?, ip[i]?, dp[i]? with
    | some m, some s, some p, some d => checkThree m s p d
    | _, _, _, _ => .error .indexError

/-- `[sum(values) for values in zip(*rates)]` (consumer_function_mapper.py:1222-1223). -/
def sumRates : List (List Fl) → List Fl
  | [] => []
  | [r] => r
  | r :: s :: rs => List.zipWith Fl.add r (sumRates (s :: rs))

/-- A pressure that may be missing. -/
def optionalPressure (f : Option Field) (mask : List Bool) : Except Err (Option (List Fl)) :=
  match f with
  | none => .ok none
  | some f => (pressureOf parse pow ev f (some mask)).map some

/-- `_map_multiple_streams_compressor` (consumer_function_mapper.py:1160-1255); at least one rate is required when the
file is read (yaml_energy_usage_model_compressor_train_multiple_streams.py:31-33). -/
def mapStreams (consumes : Kind) (c : Common) (train : String) (rates : List Field) (suction discharge : Field)
    (interstage : Option Field) : Except Err Mapped := do
  let m ← lib.compressor train none
  expectKind consumes m.kind
  let loss ← lossOf parse ev c.loss
  let cond ← c.input parse fmt
  let rs ← rates.mapM (rateOf parse pow ev reg cond)
  let regs ← reg.values pow
  let mask := pressureMask (sumRates rs) regs
  let sp ← pressureOf parse pow ev suction (some mask)
  let dp ← pressureOf parse pow ev discharge (some mask)
  let ip ← optionalPressure parse pow ev interstage mask
  match ip with
  | none => validatePressures mask sp dp
  | some ip => validateThree mask sp ip dp
  if m.fluid ∧ ¬ m.sampled then return ⟨.train rs sp dp ip, loss⟩ else .error .assertion

/-- `_map_compressor` (consumer_function_mapper.py:1257-1366). -/
def mapCompressor (consumes : Kind) (c : Common) (compressor : String) (rate : Field)
    (suction discharge : Option Field) : Except Err Mapped := do
  let loss ← lossOf parse ev c.loss
  let cond ← c.input parse fmt
  let r ← rateOf parse pow ev reg cond rate
  let regs ← reg.values pow
  let mask := pressureMask r regs
  let sp ← optionalPressure parse pow ev suction mask
  let dp ← optionalPressure parse pow ev discharge mask
  match sp, dp with
  | some s, some d => validatePressures mask s d
  | _, _ => .ok ()
  let m ← lib.compressor compressor (some (r, sp, dp))
  expectKind consumes m.kind
  if m.sampled then return ⟨.sampled r sp dp, loss⟩
  else
    match sp, dp with
    | some s, some d => if m.fluid then return ⟨.train [r] s d none, loss⟩ else .error .assertion
    | _, _ => .error .assertion

/-- The errors that are reported as an invalid energy usage model (consumer_function_mapper.py:1687-1692). -/
def report {α : Type} : Except Err α → Except Err α
  | .error .valueError => .error .validation
  | x => x

/-- One round of `from_yaml_to_dto` (consumer_function_mapper.py:1656-1702). -/
def mapUsage (consumes : Kind) (c : Common) (u : Usage) : Except Err Mapped :=
  report (match u with
    | .directFuel rt f => mapDirect parse fmt pow ev reg consumes .fuel c rt f
    | .directElectricity rt f => mapDirect parse fmt pow ev reg consumes .electricity c rt f
    | .tabular t vs => mapTabular parse fmt pow ev reg lib consumes c t vs
    | .pump p r s d rho => mapPump parse fmt pow ev reg lib consumes c p r s d rho
    | .compressor m r s d => mapCompressor parse fmt pow ev reg lib consumes c m r s d
    | .streams t rs s d i => mapStreams parse fmt pow ev reg lib consumes c t rs s d i)

/-- The result of a direct consumer (direct_consumer_function.py:43-61) from what was mapped; other targets are
evaluated elsewhere. -/
def Mapped.direct (m : Mapped) : Except Err FunctionResult :=
  match m.target with
  | .direct k vs => do
    let loss ← match m.loss with
      | none => .ok none
      | some t => (t.evaluated pow).map some
    Consumer.direct k (some (ev.periods, vs)) (some (ev.periods, vs)) loss
  | _ => .error .notImplemented

end

end Verif.ConsumerMap
