import Verif.Model.InputSeries
import Verif.Model.Variables

/-!
# Model of how dates written in the YAML file split a run

* `presentation/yaml/yaml_models/pyyaml_yaml_model.py`: `find_date_keys_in_yaml`
* `presentation/yaml/model.py`: `period`, `_get_periods`
* `presentation/yaml/mappers/consumer_function_mapper.py`: `ConsumerFunctionMapper.__init__`
-/

namespace Verif.Slices
open Verif.Time Verif.InputSeries Verif.Variables

/-- A key of a mapping of a loaded YAML file: a date (YAML dates become `datetime.date` or `datetime.datetime`,
both converted to midnight / themselves by `convert_date_to_datetime`), or anything else, such as text. A date written
with quotes is text. -/
inductive YKey where
  | date (d : DateTime)
  | other (s : String)
  deriving DecidableEq

/-- A loaded YAML file: scalars, lists and mappings. -/
inductive Node where
  | scalar
  | list (xs : List Node)
  | dict (kvs : List (YKey × Node))

/-- Lines 685-688: add the date of the key unless this call has added it already. -/
def noteKey (k : YKey) (out : List DateTime) : List DateTime :=
  match k with
  | .date d => if d ∈ out then out else out ++ [d]
  | .other _ => out

mutual

/-- `find_date_keys_in_yaml` (pyyaml_yaml_model.py:661-693). A scalar is never searched; it adds nothing. -/
def findDateKeys : Node → List DateTime
  | .scalar => []
  | .list xs => findInList xs []
  | .dict kvs => findInDict kvs []

/-- The loop of lines 683-691 over a list. -/
def findInList : List Node → List DateTime → List DateTime
  | [], out => out
  | n :: rest, out => findInList rest (out ++ findDateKeys n)

/-- The loop of lines 683-691 over a mapping. -/
def findInDict : List (YKey × Node) → List DateTime → List DateTime
  | [], out => out
  | (k, n) :: rest, out => findInDict rest (noteKey k out ++ findDateKeys n)

end

/-- `DEFAULT_START_TIME` (model.py:82): 1900-01-01, 693595 days after 0001-01-01. -/
def defaultStart : DateTime := 693595 * 86400 * 1000000

/-- `YamlModel.period` (model.py:272-277) for a file with END (required, model.py:301). -/
def targetPeriod (start? : Option DateTime) (stop : DateTime) : Period :=
  ⟨start?.getD defaultStart, stop⟩

/-- `YamlModel._get_periods` (model.py:300-310): the dates found in the file are additional dates. -/
def globalPeriods (file : Node) (timeVector : List DateTime) (start? : Option DateTime) (stop : DateTime) :
    Except Err Periods :=
  match getGlobalTimeVector timeVector stop start? (findDateKeys file) with
  | .error e => .error e
  | .ok tv => .ok (Periods.createPeriods tv false false)

/-- The loop of `ConsumerFunctionMapper.__init__` (consumer_function_mapper.py:989-993): for every period of the
model, the part of the run it covers. Taking the part of the regularity (regularity.py:81-93) starts by taking the
same part of the run, so that it fails exactly when the part of the run cannot be made; what it evaluates is C37. -/
def cut {α : Type} (m : VarMap) : List (Period × α) → Except Err (List (Period × α × VarMap))
  | [] => .ok []
  | (p, a) :: rest =>
    match Period.getPeriodIndices p m.periods with
    | .error e => .error e
    | .ok (i, j) =>
      match m.getSubset i j with
      | .error e => .error e
      | .ok sub =>
        match cut m rest with
        | .error e => .error e
        | .ok r => .ok ((p, a, sub) :: r)

/-- `ConsumerFunctionMapper.__init__` (consumer_function_mapper.py:984-993): the model is restricted to the period
of the file and the run is cut accordingly. Iterating over an absent model is a TypeError. -/
def subsets {α : Type} (m : VarMap) (data : TimeData α) (target : Period) :
    Except Err (List (Period × α × VarMap)) :=
  match defineTimeModelForPeriod data target with
  | .error e => .error e
  | .ok none => .error .typeError
  | .ok (some ms) => cut m ms

end Verif.Slices
