import Verif.Model.Variables

/-!
# Model of the time series built from user expressions

`libecalc/domain/regularity.py`, `libecalc/expression/temporal_expression.py`,
`libecalc/presentation/yaml/domain/{time_series_expression,time_series_mask,expression_time_series_*}.py`,
the condition handling of the YAML mappers and `libecalc/domain/infrastructure/emitters/venting_emitter.py`.
-/

namespace Verif.Inputs
open Verif.Time Verif.Units Verif.Rates Verif.Expression Verif.Variables

/-- `ExpressionType` (expression.py:20): a number, or a text, already split into tokens. Simplified: the empty token
list stands for the empty string (a text of blanks only is not distinguished from it). -/
inductive ExprInput where
  | number (v : ℚ)
  | text (ts : List Token)
  deriving DecidableEq

/-- Python truth value of a number or string. -/
def ExprInput.truthy : ExprInput → Bool
  | .number v => v ≠ 0
  | .text ts => ts ≠ []

/-- `Expression.validate` (expression.py:84-97): a number is one numeric token. -/
def ExprInput.tokens : ExprInput → List Token
  | .number v => [.num v]
  | .text ts => ts

/-- `Expression.setup_from_expression` (expression.py:48-54). -/
def ExprInput.setup (i : ExprInput) : Except Err Expr := Expr.make i.tokens

/-! ## Regularity -/

/-- `expression_input` of `Regularity` (regularity.py:24-29). -/
inductive RegInput where
  | absent
  | plain (e : ExprInput)
  | dict (kvs : List (Key × ExprInput))

/-- `expression_input or self.default_expression_value()` (regularity.py:34, 60-65). An empty dict is not temporal
(it would be rejected) but is falsy, so it never gets further. -/
def RegInput.orDefault : RegInput → RegInput
  | .absent => .plain (.number 1)
  | .plain e => if e.truthy then .plain e else .plain (.number 1)
  | .dict [] => .plain (.number 1)
  | .dict kvs => .dict kvs

/-- Apply `Expression.setup_from_expression` to the values of a dict (temporal_expression.py:36-39). -/
def setupValues (kvs : List (Period × ExprInput)) : Except Err (List (Period × Expr)) :=
  kvs.mapM (fun pe => do
    let e ← pe.2.setup
    return (pe.1, e))

/-- `TemporalExpression._normalize_expression` (temporal_expression.py:31-49). -/
def normalize (input : RegInput) (target : Period) : Except Err (TModel Expr) :=
  match input with
  | .absent => .error .valueError
  | .plain i => do
    let e ← i.setup
    match ← defineTimeModelForPeriod (.plain e) target with
    | none => .error .typeError
    | some ms => TModel.create (ms.map (fun pm => (Key.period pm.1, pm.2)))
  | .dict kvs => do
    match ← defineTimeModelForPeriod (.dict kvs) target with
    | none => .error .typeError
    | some ms => do
      let es ← setupValues ms
      TModel.create (es.map (fun pm => (Key.period pm.1, pm.2)))

/-- `Regularity` (regularity.py:24-42): target period, evaluator and normalised expression. -/
structure Reg where
  target : Period
  evaluator : VarMap
  model : TModel Expr

/-- `Regularity.values` (regularity.py:44-58). -/
def Reg.values (pow : Fl → Fl → Fl) (r : Reg) : Except Err (List Fl) := r.evaluator.evaluateTemporal pow r.model

/-- `0 <= value <= 1`, false for NaN (regularity.py:79). -/
def isFraction : Fl → Bool
  | none => false
  | some v => 0 ≤ v ∧ v ≤ 1

/-- `Regularity.validate` (regularity.py:67-83). -/
def Reg.validate (pow : Fl → Fl → Fl) (r : Reg) : Except Err Reg := do
  let vs ← r.values pow
  if vs.any (fun v => !isFraction v) then .error .validation else return r

/-- ValueError / InvalidExpressionError during normalisation become InvalidRegularity (regularity.py:38-39). -/
def toInvalid {β : Type} : Except Err β → Except Err β
  | .error .valueError => .error .validation
  | x => x

/-- `Regularity.__init__` (regularity.py:24-42). -/
def Reg.make (pow : Fl → Fl → Fl) (ev : VarMap) (target : Period) (input : RegInput) : Except Err Reg := do
  let m ← toInvalid (normalize input.orDefault target)
  Reg.validate pow ⟨target, ev, m⟩

/-! ## Masks and conditions -/

/-- `TimeSeriesMask.from_array(mask).apply(array)` (time_series_mask.py:21-47): `np.where(mask != 0, array, 0)` with
numpy broadcasting; NaN is different from zero. -/
def maskApply (mask : Option (List Fl)) (xs : List Fl) : Except Err (List Fl) :=
  match mask with
  | none => .ok xs
  | some m => npOp (fun c x => if c ≠ some 0 then x else some 0) m xs

/-- `TimeSeriesExpression` (time_series_expression.py:15-36) after conversion of the expressions. -/
structure TSE where
  expr : Expr
  evaluator : VarMap
  condition : Option Expr

/-- `TimeSeriesExpression.__init__` (time_series_expression.py:15-36). -/
def TSE.make (e : ExprInput) (ev : VarMap) (c : Option ExprInput) : Except Err TSE := do
  let x ← e.setup
  match c with
  | none => return ⟨x, ev, none⟩
  | some c => do
    let y ← c.setup
    return ⟨x, ev, some y⟩

/-- `get_evaluated_expression` (time_series_expression.py:42-57); `np.atleast_1d(arr[0])` of a one-element array is
that array, an empty array raises nothing. -/
def TSE.evaluated (pow : Fl → Fl → Fl) (t : TSE) : Except Err (List Fl) := t.evaluator.evaluate pow t.expr

/-- `get_masked_values` (time_series_expression.py:59-70). -/
def TSE.masked (pow : Fl → Fl → Fl) (t : TSE) : Except Err (List Fl) := do
  let vs ← t.evaluated pow
  match t.condition with
  | none => maskApply none vs
  | some c => do
    let m ← t.evaluator.evaluate pow c
    maskApply (some m) vs

/-- `f"({condition})"` read back as tokens (consumer_function_mapper.py:171). A negative number is printed with a
minus sign, which the lexer rejects. Simplified: other numbers are read back as themselves. -/
def condTokens : ExprInput → Except Err (List Token)
  | .number v => if v < 0 then .error .valueError else .ok [.lpar, .num v, .rpar]
  | .text ts => .ok ([.lpar] ++ ts ++ [.rpar])

/-- `" {*} ".join(...)`. -/
def joinConditions : List (List Token) → List Token
  | [] => []
  | [c] => c
  | c :: cs => c ++ [.op .mul] ++ joinConditions cs

/-- `handle_condition_list` (consumer_function_mapper.py:170-172). -/
def handleConditionList (cs : List ExprInput) : Except Err ExprInput := do
  let ts ← cs.mapM condTokens
  return .text (joinConditions ts)

/-- `_map_condition` (consumer_function_mapper.py:180-187): both fields are tested for truth. -/
def mapCondition (condition : Option ExprInput) (conditions : Option (List ExprInput)) :
    Except Err (Option ExprInput) :=
  match condition with
  | some c => if c.truthy then .ok (some c) else viaList conditions
  | none => viaList conditions
where
  viaList : Option (List ExprInput) → Except Err (Option ExprInput)
    | some (c :: cs) => (handleConditionList (c :: cs)).map some
    | _ => .ok none

/-- `_map_conditions` with its call site (process_simulation_mapper.py:194-202, 217-219): tested with `is None`. -/
def mapConditions (condition : Option ExprInput) (conditions : Option (List ExprInput)) :
    Except Err (Option ExprInput) :=
  match conditions with
  | some cs => (handleConditionList cs).map some
  | none => .ok condition

/-- The condition handed to the rate of a venting emitter (component_mapper.py:569-573, 598-602). -/
def ventingCondition (condition : Option ExprInput) (_conditions : Option (List ExprInput)) :
    Except Err (Option ExprInput) := .ok condition

/-! ## Power loss factor -/

/-- `np.any`: NaN counts as true. -/
def npAny (xs : List Fl) : Bool := xs.any (fun x => x ≠ some 0)

/-- `get_values` (expression_time_series_power_loss_factor.py:17-25); `factor` is the evaluated expression, `none`
when there is none. -/
def lossValues (factor : Option (List Fl)) (n : Nat) : List Fl :=
  match factor with
  | none => List.replicate n (some 0)
  | some [] => List.replicate n (some 0)
  | some fs => fs

/-- `apply` (expression_time_series_power_loss_factor.py:27-48). -/
def lossApply (factor : Option (List Fl)) (n : Nat) (usage : List Fl) : Except Err (List Fl) :=
  let fs := lossValues factor n
  if !npAny fs then .ok usage
  else npOp Fl.div usage (fs.map (fun f => Fl.sub (some 1) f))

/-! ## Rates, powers, pressures and cable loss -/

/-- `_get_stream_day_values` (expression_time_series_flow_rate.py:58-77, expression_time_series_power.py:33-52,
venting_emitter.py:35-54): masked values, converted when given per calendar day. -/
def streamDayValues (pow : Fl → Fl → Fl) (t : TSE) (rt : RateType) (reg : Reg) : Except Err (List Fl) := do
  let vs ← t.masked pow
  match rt with
  | .streamDay => return vs
  | .calendarDay => do
    let rs ← reg.values pow
    Rates.toStreamDay vs rs

/-- `rate < 0`, false for NaN. -/
def isNegative : Fl → Bool
  | none => false
  | some v => v < 0

/-- `ExpressionTimeSeriesFlowRate.__init__` with `_validate` (expression_time_series_flow_rate.py:32-53). -/
def flowRate (pow : Fl → Fl → Fl) (t : TSE) (rt : RateType) (reg : Reg) : Except Err (List Fl) := do
  let vs ← streamDayValues pow t rt reg
  if vs.any isNegative then .error .validation else return vs

/-- `pressure_validation_mask` (consumer_function_mapper.py:1117-1121). -/
def pressureMask (rates regs : List Fl) : List Bool :=
  List.zipWith (fun r g => match Fl.mul r g with
    | some v => decide (v > 0)
    | none => false) rates regs

/-- `ExpressionTimeSeriesPressure.__init__` with `_validate` (expression_time_series_pressure.py:25-47). -/
def pressure (pow : Fl → Fl → Fl) (t : TSE) (mask : Option (List Bool)) : Except Err (List Fl) := do
  let vs ← t.evaluated pow
  let m := mask.getD (List.replicate vs.length true)
  if (vs.zip m).any (fun pv => pv.2 && isNegative pv.1) then .error .validation else return vs

/-- `ExpressionTimeSeriesCableLoss.get_values` (expression_time_series_cable_loss.py:22-40); `shore` says whether the
category is POWER_FROM_SHORE. -/
def cableLoss (pow : Fl → Fl → Fl) (t : TSE) (category : TModel Bool) : Except Err (List Fl) := do
  let vs ← t.evaluated pow
  return List.zipWith (fun p v =>
    match TModel.getModelForPeriod category p with
    | .ok true => v
    | _ => some 0) t.evaluator.periods vs

/-! ## Venting emitters -/

/-- `VentingEmission` with its `EmissionRate` (venting_emitter.py:25-33, 66-69). -/
structure VentEmission where
  name : String
  rate : TSE
  unit : EUnit
  rateType : RateType

/-- `unit.to(Unit.TONS_PER_DAY)(values)`; NaN stays NaN. -/
def convertValues (u v : EUnit) (xs : List Fl) : Except Err (List Fl) := do
  let f ← RateTS.liftU (u.to v)
  return xs.map (fun x => x.map f)

/-- Loop body of `DirectVentingEmitter._get_emissions` (venting_emitter.py:181-189): assignment in a dict. -/
def ventStep (pow : Fl → Fl → Fl) (reg : Reg) (acc : List (String × TS Fl)) (e : VentEmission) :
    Except Err (List (String × TS Fl)) := do
  let vs ← streamDayValues pow e.rate e.rateType reg
  let vs ← convertValues e.unit .TONS_PER_DAY vs
  let ts ← TS.make e.rate.evaluator.periods vs .TONS_PER_DAY
  return dictSet e.name ts acc

/-- `DirectVentingEmitter._get_emissions` (venting_emitter.py:179-190). -/
def directEmissions (pow : Fl → Fl → Fl) (reg : Reg) (es : List VentEmission) :
    Except Err (List (String × TS Fl)) := es.foldlM (ventStep pow reg) []

/-- `TimeSeriesRate.from_timeseries_stream_day_rate` (rates.py:1042-1057). -/
def fromStreamDay (s : TS Fl) (regularity : TS Fl) : Except Err RateTS := do
  let r ← regularity.forPeriods s.periods
  RateTS.make s.periods s.values s.unit .streamDay r.values

/-- `Regularity.time_series` (regularity.py:49-58). -/
def Reg.timeSeries (pow : Fl → Fl → Fl) (r : Reg) : Except Err (TS Fl) := do
  let vs ← r.values pow
  TS.make r.evaluator.periods vs .NONE

/-- `VentingEmitter.get_emissions` (venting_emitter.py:151-155) over the dict of a subclass. -/
def getEmissions (pow : Fl → Fl → Fl) (reg : Reg) (es : List (String × TS Fl)) :
    Except Err (List (String × RateTS)) :=
  es.mapM (fun ne => do
    let r ← reg.timeSeries pow
    let s ← fromStreamDay ne.2 r
    return (ne.1, s))

/-- `VentingVolume` (venting_emitter.py:73-123): the oil rate and the emissions with their factor. -/
structure VentVolume where
  rate : TSE
  unit : EUnit
  rateType : RateType
  emissions : List (String × ExprInput)

/-- `OilVentingEmitter.get_oil_rates` (venting_emitter.py:217-222). -/
def oilRates (pow : Fl → Fl → Fl) (reg : Reg) (v : VentVolume) : Except Err (List Fl) := do
  let vs ← streamDayValues pow v.rate v.rateType reg
  convertValues v.unit .STANDARD_CUBIC_METER_PER_DAY vs

/-- Loop body of `OilVentingEmitter._get_emissions` (venting_emitter.py:203-214). -/
def oilStep (pow : Fl → Fl → Fl) (v : VentVolume) (oil : List Fl) (acc : List (String × TS Fl))
    (e : String × ExprInput) : Except Err (List (String × TS Fl)) := do
  let x ← e.2.setup
  let fs ← v.rate.evaluator.evaluate pow x
  let vs ← convertValues .KILO_PER_DAY .TONS_PER_DAY (List.zipWith Fl.mul oil fs)
  let ts ← TS.make v.rate.evaluator.periods vs .TONS_PER_DAY
  return dictSet e.1 ts acc

/-- `OilVentingEmitter._get_emissions` (venting_emitter.py:199-215). -/
def oilEmissions (pow : Fl → Fl → Fl) (reg : Reg) (v : VentVolume) : Except Err (List (String × TS Fl)) := do
  let oil ← oilRates pow reg v
  v.emissions.foldlM (oilStep pow v oil) []

end Verif.Inputs
