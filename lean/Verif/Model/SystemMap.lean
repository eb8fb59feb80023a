import Verif.Model.Inputs
import Verif.Model.Lexer

/-!
# Model of how a consumer system of the YAML file becomes operational settings

Sources: `libecalc/presentation/yaml/mappers/consumer_function_mapper.py` (validate_pressures, _map_compressor_system,
_map_pump_system), `libecalc/presentation/yaml/yaml_types/components/legacy/energy_usage_model/`
`yaml_energy_usage_model_consumer_system.py` (validators) and
`libecalc/domain/infrastructure/energy_components/legacy_consumer/system/operational_setting.py`.

Simplifications:
* Python's `float(text)` and `str(number)` are parameters `parse` and `fmt`, as in the model of the lexer; numbers are
  finite;
* a numeric token that is no number, such as `1.2.3`, is refused when read, not when evaluated;
* the model of each compressor or pump is already created; only the kind of energy it consumes is kept;
* `_map_condition` is in `Verif/Model/Inputs.lean`; the condition given here is its result.
-/

namespace Verif.SystemMap
open Verif.Time Verif.Rates Verif.Expression Verif.Variables Verif.Inputs Verif.Lexer

/-- A value of `YamlExpressionType` (yaml_expression_type.py:56-60): a number or a text. -/
inductive Field where
  | number (v : ℚ)
  | text (s : List Char)
  deriving DecidableEq

/-- The operator of a text, `OPERATORS` (expression_tree.py:149-161). -/
def operatorToken (s : List Char) : Token :=
  if s = ['('] then .lpar
  else if s = [')'] then .rpar
  else if s = ['{', '^', '}'] then .op .pow
  else if s = ['{', '*', '}'] then .op .mul
  else if s = ['{', '/', '}'] then .op .div
  else if s = ['{', '+', '}'] then .op .add
  else if s = ['{', '-', '}'] then .op .sub
  else if s = ['=', '='] then .op .eq
  else if s = ['!', '='] then .op .ne
  else if s = ['<'] then .op .lt
  else if s = ['>'] then .op .gt
  else if s = ['<', '='] then .op .le
  else if s = ['>', '='] then .op .ge
  else .other (String.ofList s)

/-- The token the parser sees (expression_evaluator.py:103-119, expression_tree.py:102-119). -/
def classify : Tok ℚ → Except Err Token
  | ⟨.operator, .text s⟩ => .ok (operatorToken s)
  | ⟨.numeric, .num v⟩ => .ok (.num v)
  | ⟨.reference, .text s⟩ => .ok (.ref (String.ofList s))
  | _ => .error .assertion

section
variable (parse : List Char → Option ℚ) (fmt : ℚ → List Char)

/-- `str(field)`, as in an f-string. -/
def Field.show : Field → List Char
  | .number v => fmt v
  | .text s => s

/-- `Expression.validate` (expression.py:84-97): KeyError of the lexer becomes InvalidExpressionError. -/
def tokensOf (s : List Char) : Except Err (List Token) :=
  match Lexer.read parse s with
  | .ok ts => ts.mapM classify
  | .error _ => .error .valueError

/-- The argument of `TimeSeriesExpression`. -/
def Field.input : Field → Except Err ExprInput
  | .number v => .ok (.number v)
  | .text s => (tokensOf parse s).map .text

/-- `f"({model.total_system_rate}) {{*}} ({rate_fraction})"` (consumer_function_mapper.py:1379, 1542). -/
def composed (total fraction : Field) : Field :=
  .text (['('] ++ total.show fmt ++ [')', ' ', '{', '*', '}', ' ', '('] ++ fraction.show fmt ++ [')'])

/-- `YamlCompressorSystemOperationalSetting` and `YamlPumpSystemOperationalSettings`
(yaml_energy_usage_model_consumer_system.py:34-98). -/
structure SettingIn where
  crossover : Option (List Int) := none
  rates : Option (List Field) := none
  rateFractions : Option (List Field) := none
  suctionPressure : Option Field := none
  suctionPressures : Option (List Field) := none
  dischargePressure : Option Field := none
  dischargePressures : Option (List Field) := none
  fluidDensities : Option (List Field) := none

/-- `ConsumerSystemOperationalSettingExpressions` (operational_setting.py:30-45) with the values of its series. -/
structure Setting where
  rates : List (List Fl)
  suctions : List (List Fl)
  discharges : List (List Fl)
  crossOvers : Option (List Int)
  densities : Option (List (List Fl))
  deriving DecidableEq

/-- Exactly one of the two ways of giving a pressure (yaml_energy_usage_model_consumer_system.py:72-91). -/
def oneOf (single : Option Field) (several : Option (List Field)) : Except Err Unit :=
  if single.isNone ∧ several.isNone then .error .valueError
  else if single.isSome ∧ several.isSome then .error .valueError
  else .ok ()

/-- A list must have one entry per consumer (yaml_energy_usage_model_consumer_system.py:176-207, 271-310). -/
def lengthIs (n : Nat) (l : Option (List Field)) : Except Err Unit :=
  match l with
  | none => .ok ()
  | some fs => if fs.length ≠ n then .error .valueError else .ok ()

/-- The validators of a setting when the file is read (yaml_energy_usage_model_consumer_system.py:72-91, 163-209,
259-312); compressor systems have no fluid densities. -/
def checkYaml (n : Nat) (s : SettingIn) : Except Err Unit := do
  oneOf s.dischargePressure s.dischargePressures
  oneOf s.suctionPressure s.suctionPressures
  lengthIs n s.rates
  lengthIs n s.rateFractions
  lengthIs n s.suctionPressures
  lengthIs n s.dischargePressures
  lengthIs n s.fluidDensities

/-- The expressions of the rates (consumer_function_mapper.py:1376-1381, 1394-1405; 1539-1544, 1557-1568): iterating
over `None` raises TypeError. -/
def rateFields (total : Option Field) (s : SettingIn) : Except Err (List Field) :=
  match s.rateFractions with
  | some fs =>
    match total with
    | none => .error .assertion
    | some t => .ok (fs.map (composed fmt t))
  | none =>
    match s.rates with
    | none => .error .typeError
    | some rs => .ok rs

variable (pow : Fl → Fl → Fl) (ev : VarMap) (reg : Reg)

/-- `ExpressionTimeSeriesFlowRate(TimeSeriesExpression(...), regularity)` (consumer_function_mapper.py:1383-1393). -/
def rateOf (cond : Option ExprInput) (f : Field) : Except Err (List Fl) := do
  let e ← f.input parse
  let t ← TSE.make e ev cond
  flowRate pow t .calendarDay reg

/-- `ExpressionTimeSeriesPressure(TimeSeriesExpression(...), mask)` (consumer_function_mapper.py:1418-1424). -/
def pressureOf (f : Field) (mask : Option (List Bool)) : Except Err (List Fl) := do
  let e ← f.input parse
  let t ← TSE.make e ev none
  pressure pow t mask

/-- `ExpressionTimeSeriesFluidDensity(...)` (consumer_function_mapper.py:1613-1617) and its values. -/
def densityOf (f : Field) : Except Err (List Fl) := do
  let e ← f.input parse
  let t ← TSE.make e ev none
  t.evaluated pow

/-- The pressures of one side of a compressor system (consumer_function_mapper.py:1416-1440, 1442-1466). -/
def compressorPressures (single : Option Field) (several : Option (List Field)) (masks : List (List Bool)) :
    Except Err (List (List Fl)) :=
  match single with
  | some f => masks.mapM fun m => pressureOf parse pow ev f (some m)
  | none =>
    match several with
    | none => .error .assertion
    | some fs => (fs.zip masks).mapM fun p => pressureOf parse pow ev p.1 (some p.2)

/-- The pressures of one side of a pump system (consumer_function_mapper.py:1572-1589, 1591-1609): validated in all
periods. -/
def pumpPressures (single : Option Field) (several : Option (List Field)) (n : Nat) :
    Except Err (List (List Fl)) :=
  match single with
  | some f => do
    let p ← pressureOf parse pow ev f none
    return List.replicate n p
  | none =>
    match several with
    | none => .error .assertion
    | some fs => fs.mapM fun f => pressureOf parse pow ev f none

/-- `x <= y` of floats; false for NaN. -/
def flLe : Fl → Fl → Bool
  | some x, some y => decide (x ≤ y)
  | _, _ => false

/-- One period of the loop of `validate_pressures` without an intermediate pressure
(consumer_function_mapper.py:243-272). -/
def checkPressures (should : Bool) (sp dp : Fl) : Except Err Unit :=
  if should then
    if flLe sp (some 0) then .error .validation
    else if flLe dp (some 0) then .error .validation
    else if !flLe sp dp then .error .validation
    else .ok ()
  else .ok ()

/-- `validate_pressures` (consumer_function_mapper.py:224-272): both pressures have the same mask. -/
def validatePressures (mask : List Bool) (sp dp : List Fl) : Except Err Unit :=
  (List.range sp.length).forM fun i => do
    match mask[i]?, sp[i]?, dp[i]? with
    | some m, some s, some d => checkPressures m s d
    | _, _, _ => .error .indexError

/-- `check_list_length` (operational_setting.py:78-100). -/
def checkLengths (s : Setting) : Except Err Setting :=
  if s.suctions.length ≠ s.rates.length then .error .validation
  else if s.discharges.length ≠ s.rates.length then .error .validation
  else
    match s.crossOvers with
    | some (x :: xs) => if (x :: xs).length ≠ s.rates.length then .error .validation else .ok s
    | _ => .ok s

/-- One round of the loop of `_map_compressor_system` (consumer_function_mapper.py:1375-1480). -/
def compressorSetting (total : Option Field) (cond : Option ExprInput) (s : SettingIn) : Except Err Setting := do
  let fields ← rateFields fmt total s
  let rates ← fields.mapM (rateOf parse pow ev reg cond)
  let regs ← reg.values pow
  let masks := rates.map fun r => pressureMask r regs
  let sps ← compressorPressures parse pow ev s.suctionPressure s.suctionPressures masks
  let dps ← compressorPressures parse pow ev s.dischargePressure s.dischargePressures masks
  ((sps.zip dps).zip masks).forM fun p => validatePressures p.2 p.1.1 p.1.2
  checkLengths ⟨rates, sps, dps, s.crossover, none⟩

/-- The fluid densities of the pumps (consumer_function_mapper.py:1611-1628): those of the setting when there are any,
else the density of the system for all. Simplified: evaluated here, in the code when the system is evaluated. -/
def pumpDensities (n : Nat) (density : Option Field) (several : Option (List Field)) : Except Err (List (List Fl)) :=
  match several with
  | some (f :: fs) => (f :: fs).mapM (densityOf parse pow ev)
  | _ =>
    match density with
    | none => .error .assertion
    | some f => do
      let d ← densityOf parse pow ev f
      return List.replicate n d

/-- One round of the loop of `_map_pump_system` (consumer_function_mapper.py:1538-1643) for `n` pumps. -/
def pumpSetting (n : Nat) (total density : Option Field) (cond : Option ExprInput) (s : SettingIn) :
    Except Err Setting := do
  let fields ← rateFields fmt total s
  let rates ← fields.mapM (rateOf parse pow ev reg cond)
  let sps ← pumpPressures parse pow ev s.suctionPressure s.suctionPressures n
  let dps ← pumpPressures parse pow ev s.dischargePressure s.dischargePressures n
  let densities ← pumpDensities parse pow ev n density s.fluidDensities
  (sps.zip dps).forM fun p => validatePressures (List.replicate p.1.length true) p.1 p.2
  checkLengths ⟨rates, sps, dps, s.crossover, some densities⟩

end

/-- `ConsumptionType` (consumption_type.py:4-6). -/
inductive Kind where
  | electricity | fuel
  deriving DecidableEq

/-- The kind of energy of a compressor system (consumer_function_mapper.py:1482-1512). -/
def systemKind (kinds : List Kind) (consumes : Kind) : Except Err Unit :=
  match kinds with
  | [] => if consumes ≠ .electricity then .error .validation else .ok ()
  | k :: ks =>
    if ks.any (· ≠ k) then .error .validation
    else if consumes ≠ k then .error .validation
    else .ok ()

end Verif.SystemMap
