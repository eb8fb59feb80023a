import Verif.Model.Chart
import Verif.Model.Resource
import Verif.Model.Units

/-!
# Model of the charts given by the user and of the charts in the results

* `presentation/yaml/mappers/charts/user_defined_chart_data.py` (`UserDefinedChartData`)
* `domain/resource.py` (`Resource.get_float_column`)
* `presentation/yaml/mappers/utils.py` (conversion of units)
* `presentation/json_result/serializable_chart.py` (`ChartDTO`)

Simplifications:
* `float` of a text is a parameter and gives a number or fails; infinite values and NaN are not modelled (files with NaN
  are refused before, `Verif.Resource.validateNotNan`);
* the columns of a file are taken to be of equal length, as `MemoryResource.from_string` makes them; the longer one is
  cut here where pandas would fill up with NaN;
* two columns with the very same header are not modelled (pandas renames them when the file is read): the first one counts;
* the order of `groupby(...).groups` is the order of appearance; log messages are dropped.
-/

namespace Verif.ChartFile
open Verif.Charts Verif.Resource Verif.Units

/-- What reading a chart can raise. -/
inductive CErr where
  /-- an `InvalidResourceException` of the resource itself (exceptions.py:76-134) -/
  | resource (e : RErr)
  /-- `InvalidColumnException` raised here (user_defined_chart_data.py:66-69, 91-92, resource.py:22-28) -/
  | column (header : String)
  /-- `EcalcValidationException` of a curve (base.py:37-46) -/
  | validation
  /-- `KeyError` of pandas for a column that is not there -/
  | keyError (header : String)
  deriving DecidableEq, Repr

/-- `YamlHeadUnits` (yaml_compressor_chart.py:26-29). -/
inductive HeadUnit where
  | m | kjPerKg | joulePerKg
  deriving DecidableEq, Repr

/-- `YamlEfficiencyUnits` (yaml_compressor_chart.py:32-34). -/
inductive EffUnit where
  | fraction | percentage
  deriving DecidableEq, Repr

/-- `YamlUnits` (yaml_compressor_chart.py:37-52); the only unit for rates is am3/h. -/
structure ChartUnits where
  head : HeadUnit
  eff : EffUnit
  deriving DecidableEq, Repr

/-- `convert_rate_to_am3_per_hour` (utils.py:21-31) for the only unit there is. -/
def convertRate (xs : List ℚ) : List ℚ := xs

/-- `convert_head_to_joule_per_kg` (utils.py:34-50) with the registered conversions (units.py:122-125). -/
def convertHead (u : ChartUnits) (xs : List ℚ) : List ℚ :=
  match u.head with
  | .kjPerKg => xs.map fun h => h * 1000
  | .joulePerKg => xs
  | .m => xs.map fun h => h * earthGravity

/-- `convert_efficiency_to_fraction` (utils.py:84-93). -/
def convertEff (u : ChartUnits) (xs : List ℚ) : List ℚ :=
  match u.eff with
  | .fraction => xs
  | .percentage => xs.map fun e => e / 100

/-- `float(value)` (resource.py:22); texts are read by `parse`. -/
def number (parse : String → Option ℚ) : Cell → Option ℚ
  | .int n => some n
  | .float x => x
  | .text s => parse s

/-- How headers are compared and texts are read. -/
structure Reader where
  lower : String → String
  parse : String → Option ℚ

/-- All cells as numbers. -/
def numbers (parse : String → Option ℚ) : List Cell → Option (List ℚ)
  | [] => some []
  | c :: cs =>
    match number parse c, numbers parse cs with
    | some x, some xs => some (x :: xs)
    | _, _ => none

/-- `get_float_column` (resource.py:19-28). -/
def floatColumn (r : Reader) (m : Memory) (header : String) : Except CErr (List ℚ) :=
  match getColumn r.lower m header with
  | .error e => .error (.resource e)
  | .ok cells =>
    match numbers r.parse cells with
    | some xs => .ok xs
    | none => .error (.column header)

/-- One `ChartCurve` with converted units (user_defined_chart_data.py:80-85, 96-108, 133-138). -/
def makeCurve (u : ChartUnits) (speed : ℚ) (rates heads effs : List ℚ) : Except CErr Curve :=
  match Curve.make (convertRate rates) (convertHead u heads) (convertEff u effs) speed with
  | .ok c => .ok c
  | .error _ => .error .validation

/-- `UserDefinedChartData` (user_defined_chart_data.py:27-31). -/
structure Data where
  curves : List Curve
  margin : Option ℚ
  deriving DecidableEq, Repr

/-- `UserDefinedChartData.__init__` (user_defined_chart_data.py:28-31): sorted by speed, `sorted` is stable. -/
def Data.make (curves : List Curve) (margin : Option ℚ) : Data :=
  ⟨curves.insertionSort (fun a b => a.speed ≤ b.speed), margin⟩

/-- `get_adjusted_curves` (user_defined_chart_data.py:41-43, 52-53). -/
def Data.adjusted (d : Data) : List Curve := d.curves.map (·.adjust d.margin)

/-- The speed of a single speed chart (user_defined_chart_data.py:62-75). -/
def singleSpeed (r : Reader) (m : Memory) : Except CErr ℚ :=
  match floatColumn r m "SPEED" with
  | .error (.resource (.headerNotFound _)) => .ok 1
  | .error e => .error e
  | .ok [] => .error (.column "SPEED")
  | .ok (s :: ss) => if ∀ x ∈ ss, x = s then .ok s else .error (.column "SPEED")

/-- `from_resource` with `is_single_speed` (user_defined_chart_data.py:55-86, 117). -/
def readSingle (r : Reader) (u : ChartUnits) (m : Memory) (margin : Option ℚ) : Except CErr Data := do
  let speed ← singleSpeed r m
  let effs ← floatColumn r m "EFFICIENCY"
  let rates ← floatColumn r m "RATE"
  let heads ← floatColumn r m "HEAD"
  let c ← makeCurve u speed rates heads effs
  .ok (Data.make [c] margin)

/-- All columns of the frame (user_defined_chart_data.py:94-98). -/
def readFrame (r : Reader) (m : Memory) : List String → Except CErr (List (String × List ℚ))
  | [] => .ok []
  | h :: hs =>
    match floatColumn r m h with
    | .error e => .error e
    | .ok xs =>
      match readFrame r m hs with
      | .error e => .error e
      | .ok rest => .ok ((h, xs) :: rest)

/-- `frame[label]`: labels are compared exactly. -/
def column (frame : List (String × List ℚ)) (label : String) : Except CErr (List ℚ) :=
  match frame.find? fun p => decide (p.1 = label) with
  | some p => .ok p.2
  | none => .error (.keyError label)

/-- The values of a column in the rows of one speed (`get_group(group)[label]`). -/
def inGroup (speeds values : List ℚ) (s : ℚ) : List ℚ :=
  ((speeds.zip values).filter fun p => decide (p.1 = s)).map (·.2)

/-- The different speeds in the order of appearance (`groups` of `groupby(..., sort=False)`,
user_defined_chart_data.py:99, 111). -/
def groups (speeds : List ℚ) : List ℚ := speeds.reverse.dedup.reverse

/-- The curve of one group (user_defined_chart_data.py:101-110). -/
def groupCurve (u : ChartUnits) (frame : List (String × List ℚ)) (speeds : List ℚ) (s : ℚ) : Except CErr Curve := do
  let rates ← column frame "RATE"
  let heads ← column frame "HEAD"
  let effs ← column frame "EFFICIENCY"
  makeCurve u s (inGroup speeds rates s) (inGroup speeds heads s) (inGroup speeds effs s)

/-- `from_resource` for several speeds (user_defined_chart_data.py:87-117). -/
def readVariable (r : Reader) (u : ChartUnits) (m : Memory) (margin : Option ℚ) : Except CErr Data := do
  if "SPEED" ∈ m.headers then
    let frame ← readFrame r m m.headers
    let speeds ← column frame "SPEED"
    let curves ← (groups speeds).mapM (groupCurve u frame speeds)
    .ok (Data.make curves margin)
  else .error (.column "SPEED")

/-- `YamlCurve` (yaml_compressor_chart.py:15-19). -/
structure YamlCurve where
  speed : ℚ
  rate : List ℚ
  head : List ℚ
  eff : List ℚ
  deriving DecidableEq, Repr

/-- `from_yaml_curves` (user_defined_chart_data.py:119-142). -/
def readYaml (u : ChartUnits) (curves : List YamlCurve) (margin : Option ℚ) : Except CErr Data := do
  let cs ← curves.mapM fun c => makeCurve u c.speed c.rate c.head c.eff
  .ok (Data.make cs margin)

/-! ## The chart in the results -/

/-- A chart of the domain as the results see it: given by the user, or generic with its design point
(serializable_chart.py:109-117). -/
inductive Domain where
  | user (d : Data)
  | generic (designRate designHead : ℚ) (curves : List Curve)
  deriving DecidableEq, Repr

/-- `get_original_curves`. -/
def Domain.curves : Domain → List Curve
  | .user d => d.curves
  | .generic _ _ cs => cs

/-- `ChartCurveDTO` (serializable_chart.py:31-35), its three lists as one list of points. -/
structure CurveDTO where
  speed : ℚ
  pts : List Pt
  deriving DecidableEq, Repr

/-- The constraints on the fields of a point (serializable_chart.py:25-28, 33-35). -/
def fieldsOk (p : Pt) : Bool := decide (0 ≤ p.rate) && decide (0 ≤ p.head) && (decide (0 < p.eff) && decide (p.eff ≤ 1))

/-- `ChartCurveDTO.from_domain` with its validation and sorting (serializable_chart.py:31-70, 88-95); `none` is pydantic's
`ValidationError`. -/
def curveDTO (c : Curve) : Option CurveDTO :=
  if 0 ≤ c.speed ∧ c.pts.all fieldsOk = true ∧ 1 < c.pts.length then
    some ⟨c.speed, c.pts.insertionSort (fun a b => a.rate ≤ b.rate)⟩
  else none

/-- `OperationalPointDTO` (serializable_chart.py:25-28). -/
def pointDTO (p : Pt) : Option Pt := if fieldsOk p = true then some p else none

/-- `ChartDTO` (serializable_chart.py:98-103). -/
structure ChartDTO where
  curves : List CurveDTO
  line : Option (List Pt)
  margin : Option ℚ
  designRate : Option ℚ
  designHead : Option ℚ
  deriving DecidableEq, Repr

/-- `f` of every element, or the first failure. -/
def every {α β : Type} (f : α → Option β) : List α → Option (List β)
  | [] => some []
  | a :: as =>
    match f a with
    | none => none
    | some b =>
      match every f as with
      | none => none
      | some bs => some (b :: bs)

/-- The control margin and its line (serializable_chart.py:113-128). -/
def marginLine : Domain → Option (Option ℚ × List Pt)
  | .generic _ _ _ => some (none, [])
  | .user d =>
    match d.margin with
    | none => some (none, [])
    | some k =>
      if 0 < k then
        match every (fun c : Curve => pointDTO c.first) d.adjusted with
        | some line => some (some k, line)
        | none => none
      else some (some k, [])

/-- The design point (serializable_chart.py:107-111) with the constraints of the fields (102-103). -/
def designPoint : Domain → Option (Option ℚ × Option ℚ)
  | .user _ => some (none, none)
  | .generic rate head _ => if 0 ≤ rate ∧ 0 ≤ head then some (some rate, some head) else none

/-- `ChartDTO.from_domain` (serializable_chart.py:105-136). An empty line is left out. -/
def chartDTO (d : Domain) : Option ChartDTO :=
  match marginLine d with
  | none => none
  | some (margin, line) =>
    match every curveDTO d.curves with
    | none => none
    | some curves =>
      match designPoint d with
      | none => none
      | some (rate, head) => some ⟨curves, if line = [] then none else some line, margin, rate, head⟩

end Verif.ChartFile
