import Verif.Model.Coarse

/-!
# Model of the tables of results

`TabularTimeSeries.to_dataframe` and `resample` (`presentation/json_result/result/tabular_time_series.py`), the
order of the components and `EcalcModelResult.resample` (`presentation/json_result/result/results.py`), and the
CSV branch of `get_result_output` (`infrastructure/file_utils.py`).

Result objects are nested: a component has emissions, a compressor model has stages, and a stage has stream
conditions. `Tab β` is an object whose nested objects are of type `β`, and `Level n` is an object with at most
`n` levels, so any depth is covered.
-/

namespace Verif.ResultTable
open Verif.Time Verif.Units Verif.Rates Verif.Coarse

/-- The texts of the units (units.py:49-88; `StrEnum`). -/
def unitText : EUnit → String
  | .NONE => "N/A" | .KG_BOE => "kg/BOE" | .KG_SM3 => "kg/Sm3" | .KG_M3 => "kg/m3"
  | .STANDARD_CUBIC_METER => "Sm3" | .BOE => "BOE" | .TONS_PER_DAY => "t/d" | .TONS => "t"
  | .KILO_PER_DAY => "kg/d" | .KILO_PER_HOUR => "kg/h" | .KILO => "kg"
  | .LITRES_PER_DAY => "L/d" | .LITRES => "L" | .MEGA_WATT_DAYS => "MWd" | .GIGA_WATT_HOURS => "GWh"
  | .MEGA_WATT => "MW" | .YEAR => "Y" | .BARA => "bara" | .KILO_PASCAL => "kPa" | .PASCAL => "Pa"
  | .CELSIUS => "C" | .KELVIN => "K" | .FRACTION => "frac" | .PERCENTAGE => "%"
  | .POLYTROPIC_HEAD_KILO_JOULE_PER_KG => "kJ/kg" | .POLYTROPIC_HEAD_JOULE_PER_KG => "J/kg"
  | .POLYTROPIC_HEAD_METER_LIQUID_COLUMN => "N.m/kg"
  | .ACTUAL_VOLUMETRIC_M3_PER_HOUR => "Am3/h" | .STANDARD_CUBIC_METER_PER_DAY => "Sm3/d"
  | .SPEED_RPM => "RPM"

/-- A time series of a result object (rates.py:415-747). Whole numbers and strings are left out: the only
such series, `operational_settings_used`, is treated like floats. -/
inductive Series where
  | float (s : TS Fl)
  | bool (s : TS Bool)
  | rate (s : RateTS)
  | volumes (s : TS Fl)
  | cumulative (s : TS Fl)

/-- The periods of a series. -/
def Series.periods : Series → Periods
  | .float s => s.periods | .bool s => s.periods | .rate s => s.periods
  | .volumes s => s.periods | .cumulative s => s.periods

/-- The unit of a series. -/
def Series.unit : Series → EUnit
  | .float s => s.unit | .bool s => s.unit | .rate s => s.unit
  | .volumes s => s.unit | .cumulative s => s.unit

/-- The values as they are put into the table: booleans become ints (tabular_time_series.py:76-79). -/
def Series.cells : Series → List Fl
  | .float s => s.values
  | .bool s => s.values.map fun b => some (if b then 1 else 0)
  | .rate s => s.values
  | .volumes s => s.values
  | .cumulative s => s.values

/-- `unit_value.replace("/d", f"/{unit_extension}")` (tabular_time_series.py:70). -/
def replaceDay (ext : List Char) : List Char → List Char
  | [] => []
  | [c] => [c]
  | a :: b :: rest =>
    if a = '/' ∧ b = 'd' then '/' :: ext ++ replaceDay ext rest else a :: replaceDay ext (b :: rest)

/-- `unit_extension` (tabular_time_series.py:66). -/
def extension (rt : RateType) : String := if rt = .streamDay then "sd" else "cd"

/-- `unit_value` of a column (tabular_time_series.py:64-72). Replacing a text by something in itself puts the
extension behind it. -/
def unitValue : Series → String
  | .rate s =>
    if s.unit = .MEGA_WATT then unitText .MEGA_WATT ++ " (" ++ extension s.rateType ++ ")"
    else String.ofList (replaceDay (extension s.rateType).toList (unitText s.unit).toList)
  | .cumulative s => unitText s.unit ++ " (cd)"
  | s => unitText s.unit

/-- `column_name` (tabular_time_series.py:74). -/
def columnName (name : String) (s : Series) : String := name ++ "[" ++ unitValue s ++ "]"

/-- A data frame of floats with dates as its index. -/
structure Frame where
  index : List DateTime
  columns : List (String × List Fl)
  deriving DecidableEq

/-- The cell of a column at a date, NaN if the index does not have the date.
(Simplification: pandas repeats rows for a date that occurs twice; the model takes the first. Periods of
results have distinct start dates.) -/
def cellAt (index : List DateTime) (cells : List Fl) (d : DateTime) : Fl := valueAt (index.zip cells) d

/-- `df.join(other)` (tabular_time_series.py:82, 87, 96; file_utils.py:123): the rows of the left frame, with
the columns of the right one looked up. ValueError if a column occurs in both. -/
def join (l r : Frame) : Except Err Frame :=
  if r.columns.any (fun c => decide (c.1 ∈ l.columns.map (·.1))) then .error .valueError
  else .ok ⟨l.index, l.columns ++ r.columns.map fun c => (c.1, l.index.map (cellAt r.index c.2))⟩

/-- `df.add_prefix(prefix=f"{prefix}.")` (tabular_time_series.py:98-99). -/
def addPrefix (pre : Option String) (f : Frame) : Frame :=
  match pre with
  | none => f
  | some p => ⟨f.index, f.columns.map fun c => (p ++ "." ++ c.1, c.2)⟩

/-- An attribute of a result object: a series, a nested result object, a list of them, a dict of them, or
anything else. (Lists and dicts with other members are `other`.) -/
inductive Attr (β : Type) where
  | series (s : Series)
  | nested (t : β)
  | list (ts : List β)
  | dict (ts : List (String × β))
  | other

/-- A result object (`TabularTimeSeries`, tabular_time_series.py:40-42) with its attributes in order. -/
structure Tab (β : Type) where
  name : String
  periods : Periods
  attributes : List (String × Attr β)

/-- Joining the tables of a list of nested objects, each with its name as prefix
(tabular_time_series.py:83-96). -/
def joinAll {β : Type} (child : β → Except Err Frame) (ts : List β) (df : Frame) : Except Err Frame :=
  ts.foldlM (fun df t => do join df (← child t)) df

/-- One round of the loop over the attributes (tabular_time_series.py:62-96). -/
def addAttribute {β : Type} (child : β → Except Err Frame) (df : Frame) (a : String × Attr β) :
    Except Err Frame :=
  match a.2 with
  | .series s => join df ⟨Periods.startDates s.periods, [(columnName a.1 s, s.cells)]⟩
  | .list ts => joinAll child ts df
  | .dict ts => joinAll child (ts.map (·.2)) df
  | .nested _ => .ok df
  | .other => .ok df

/-- `TabularTimeSeries.to_dataframe` (tabular_time_series.py:44-101). -/
def toFrame {β : Type} (child : β → Except Err Frame) (t : Tab β) (pre : Option String) : Except Err Frame := do
  let df ← t.attributes.foldlM (addAttribute child) ⟨Periods.startDates t.periods, []⟩
  return addPrefix pre df

/-- Result objects with at most `n` levels. -/
def Level : Nat → Type
  | 0 => Empty
  | n + 1 => Tab (Level n)

/-- The name of a result object. -/
def nameOf : (n : Nat) → Level n → String
  | 0, e => nomatch e
  | _ + 1, (t : Tab _) => t.name

/-- `to_dataframe` of a result object. -/
def table : (n : Nat) → Level n → Option String → Except Err Frame
  | 0, e, _ => nomatch e
  | n + 1, (t : Tab (Level n)), pre => toFrame (fun c => table n c (some (nameOf n c))) t pre

/-- Adding one component to the table of all results (file_utils.py:118-129): its own table must succeed; if a
column of it is there already, both are kept side by side. (Simplification: `pd.concat` would also add rows
for dates the frame does not have; components have the periods of the model.) -/
def addComponent (n : Nat) (df : Frame) (c : Level n) : Except Err Frame := do
  let f ← table n c (some (nameOf n c))
  match join df f with
  | .ok df' => return df'
  | .error _ => return ⟨df.index, df.columns ++ f.columns.map fun c => (c.1, df.index.map (cellAt f.index c.2))⟩

/-- The data frame behind the CSV file (file_utils.py:117-129). `fillna("nan")` and the formatting of numbers
and dates are not modelled. -/
def csvFrame (n : Nat) (periods : Periods) (components : List (Level n)) : Except Err Frame :=
  components.foldlM (addComponent n) ⟨Periods.startDates periods, []⟩

/-! ## The order of components -/

/-- `class ComponentType` (component_type.py:4-14). -/
inductive CType where
  | asset | installation | generatorSet | compressorSystem | pumpSystem | compressor | pump | generic
  | ventingEmitter
  deriving DecidableEq, Repr

/-- Iterating over the members, in the order of the class (component_type.py:4-14). -/
def CType.members : List CType :=
  [.asset, .installation, .generatorSet, .compressorSystem, .pumpSystem, .compressor, .pump, .generic,
    .ventingEmitter]

/-- `ComponentType.__lt__` (component_type.py:16-24). -/
def CType.before (a b : CType) : Bool :=
  if a = b then false
  else match CType.members.find? (fun e => decide (a = e) || decide (b = e)) with
    | some e => decide (a = e)
    | none => false

/-- Comparison of the keys `(componentType, name)`: the first parts that differ decide. -/
def keyBefore (a b : CType × String) : Bool :=
  if a.1 = b.1 then decide (a.2 < b.2) else a.1.before b.1

/-- `sorted(..., key=attrgetter("componentType", "name"))` (results.py:306-314), a stable sort. -/
def sortResults {β : Type} (key : β → CType × String) (l : List β) : List β :=
  l.mergeSort fun x y => !keyBefore (key y) (key x)

/-! ## Resampling -/

/-- `values.resample(freq=freq)` for a series (rates.py:181-208, 422-454, 490-539, 588-603, 927-985). -/
def Series.resample (freq : Frequency) : Series → Except Err Series
  | .float s => (floatResample s freq true true).map .float
  | .bool s => (boolResample s freq true true).map .bool
  | .rate s => (s.resample freq true true).map .rate
  | .volumes s => (volResample s freq true true).map .volumes
  | .cumulative s => (cumResample s freq true true).map .cumulative

/-- One round of the loop over the attributes (tabular_time_series.py:119-136). -/
def resampleAttribute {β : Type} (child : β → Except Err β) (freq : Frequency) (a : String × Attr β) :
    Except Err (String × Attr β) :=
  match a.2 with
  | .series s => do return (a.1, .series (← s.resample freq))
  | .nested t => do return (a.1, .nested (← child t))
  | .list ts => do return (a.1, .list (← ts.mapM child))
  | .dict ts => do return (a.1, .dict (← ts.mapM fun kt => do return (kt.1, ← child kt.2)))
  | .other => .ok (a.1, .other)

/-- `TabularTimeSeries.resample` (tabular_time_series.py:103-139). -/
def resampleTab {β : Type} (child : β → Except Err β) (freq : Frequency) (t : Tab β) : Except Err (Tab β) :=
  if freq = .none then .ok t
  else do
    let attributes ← t.attributes.mapM (resampleAttribute child freq)
    let periods ← resamplePeriods t.periods freq true true
    return ⟨t.name, periods, attributes⟩

/-- `resample` of a result object. -/
def resample : (n : Nat) → Frequency → Level n → Except Err (Level n)
  | 0, _, e => nomatch e
  | n + 1, freq, (t : Tab (Level n)) => resampleTab (resample n freq) freq t

end Verif.ResultTable
