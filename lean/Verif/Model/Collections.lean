import Verif.Model.InputSeries

/-!
# Model of the collections of input time series

* `presentation/yaml/domain/time_series_collection.py`, `time_series_collections.py`
* `presentation/yaml/mappers/variables_mapper/variables_mapper.py` (`map_yaml_to_variables`, up to the variables)

Simplifications:
* a resource is what `TimeSeriesResource` made of it (`Verif.Resource`): its dates, the headers of the series, and all its
  columns; the cells of columns are numbers;
* `str.lower` is a parameter; messages are dropped.
-/

namespace Verif.Collections
open Verif.Time Verif.InputSeries

/-- A text. -/
abbrev Text := List Char

/-- What can be raised. -/
inductive CErr where
  /-- `TimeSeriesNotFound` -/
  | notFound
  /-- raised by sorting or fitting a series -/
  | series (e : Err)
  deriving DecidableEq, Repr

/-- A `TimeSeriesResource` (time_series_resource.py:33-73). -/
structure File where
  times : List DateTime
  headers : List Text
  columns : List (Text × List ℚ)
  deriving DecidableEq, Repr

/-- `YamlTimeSeriesCollection` (yaml_time_series.py:11-69); the two kinds differ in `misc`. -/
structure Yaml where
  name : Text
  file : Text
  influence : Bool
  /-- interpolation and extrapolation of a `MISCELLANEOUS` collection; a `DEFAULT` collection has none -/
  misc : Option (Interpolation × Option Bool)
  deriving DecidableEq

/-- `TimeSeriesCollection` (time_series_collection.py:17-35). -/
structure Collection where
  name : Text
  file : File
  interpolation : Interpolation
  extrapolation : Bool
  influence : Bool
  deriving DecidableEq

/-- `from_yaml` (time_series_collection.py:60-76). -/
def fromYaml (f : File) (y : Yaml) : Collection :=
  match y.misc with
  | none => ⟨y.name, f, .right, false, y.influence⟩
  | some (i, e) => ⟨y.name, f, i, e.getD false, y.influence⟩

/-- The loop body of `create` (time_series_collections.py:55-63). -/
def createStep (resources : List (Text × File)) (acc : List (Text × Collection)) (y : Yaml) : List (Text × Collection) :=
  match resources.lookup y.file with
  | none => acc
  | some f => dictSet y.name (fromYaml f y) acc

/-- `create` (time_series_collections.py:46-65). -/
def create (ys : List Yaml) (resources : List (Text × File)) : List (Text × Collection) :=
  if resources.isEmpty then [] else ys.foldl (createStep resources) []

/-- `get_time_series_references` (time_series_collections.py:21-26). -/
def references (cs : List (Text × Collection)) : List Text :=
  cs.flatMap fun c => c.2.file.headers.map fun h => c.2.name ++ ';' :: h

/-- `get_column` (time_series_resource.py, yaml_entities.py:35-56): the first column whose header is equal up to case. -/
def column (lower : Text → Text) (f : File) (h : Text) : Option (List ℚ) :=
  (f.columns.find? fun c => lower c.1 = lower h).map (·.2)

/-- `TimeSeriesCollection.get_time_series` (time_series_collection.py:46-58), with the reference. -/
def Collection.get (lower : Text → Text) (c : Collection) (h : Text) : Except CErr (Text × Series) :=
  match column lower c.file h with
  | none => .error .notFound
  | some ys =>
    match Series.sort ⟨c.file.times, ys, c.extrapolation, c.interpolation⟩ with
    | .ok s => .ok (c.name ++ ';' :: h, s)
    | .error e => .error (.series e)

/-- `TimeSeriesCollections.get_time_series` (time_series_collections.py:28-37). -/
def get (lower : Text → Text) (cs : List (Text × Collection)) (ref : Text) : Except CErr (Text × Series) :=
  match ref.splitOn ';' with
  | [name, h] =>
    match cs.lookup name with
    | none => .error .notFound
    | some c => c.get lower h
  | _ => .error .notFound

/-- `TimeSeriesCollections.get_time_vector` (time_series_collections.py:39-44). -/
def timeVector (cs : List (Text × Collection)) : List DateTime :=
  collectionsTimeVector (cs.map fun c => (c.2.influence, c.2.file.times))

/-- Fitting one series (variables_mapper.py:113-115). -/
def fitOne (starts : List DateTime) (s : Text × Series) : Except CErr (Text × List ℚ) :=
  match s.2.fit starts with
  | .ok r => .ok (s.1, r.series)
  | .error e => .error (.series e)

/-- The variables of the series (variables_mapper.py:105-115). -/
def variablesOf (lower : Text → Text) (cs : List (Text × Collection)) (starts : List DateTime) :
    Except CErr (List (Text × List ℚ)) := do
  let list ← (references cs).mapM (get lower cs)
  let fits ← list.mapM (fitOne starts)
  return fits.foldl (fun acc e => dictSet e.1 e.2 acc) []

end Verif.Collections
