import Verif.Model.YamlRead

/-!
# The files a model needs, reading and renaming them

* `presentation/yaml/yaml_models/pyyaml_yaml_model.py`: `facility_resource_names`, `timeseries_resource_names`,
  `_find_file_references`
* `ecalc_cli/infrastructure/file_resource_service.py`: `FileResourceService`
* `presentation/yaml/model.py:365-388`: the names that count as found
* `presentation/yaml/yaml_models/yaml_model.py`: `update_resource_names`

A dict is a list of entries in which the first with a key counts (reading refuses repeated keys, C97). What a file contains is
given by the outcome of reading it (`MemoryResource.from_path` and `TimeSeriesResource.validate`). Parts of a document that are
shared by aliases, and so are changed together, are not modelled.
-/

namespace Verif.ModelFiles
open Verif.YamlRead

/-- Errors of Python. -/
inductive FErr where
  | attributeError
  | typeError
deriving DecidableEq, Repr

/-- `get` of a dict; anything else has no entries. -/
def look (k : String) : Val → Option Val
  | .map l => (l.find? fun e => e.1 = .str k).map (·.2)
  | _ => none

/-- Replacing the value of the first entry with a key. -/
def putList (k : String) (x : Val) : List (Sc × Val) → List (Sc × Val)
  | [] => []
  | (s, v) :: rest => if s = .str k then (s, x) :: rest else (s, v) :: putList k x rest

/-- `d[k] = x` for a key that is there. -/
def put (k : String) (x : Val) : Val → Val
  | .map l => .map (putList k x l)
  | v => v

/-- `isinstance(v, dict)`. -/
def isDict : Val → Bool
  | .map _ => true
  | _ => false

/-- `_get_yaml_list_or_empty` (pyyaml_yaml_model.py:283-305). -/
def listOrEmpty (k : String) (v : Val) : List Val :=
  match look k v with
  | some (.seq l) => l
  | _ => []

/-- `data.get("FILE")`, where `None` is left out (pyyaml_yaml_model.py:321-323, 342-344). -/
def fileOf (v : Val) : Except FErr (Option Val) :=
  if isDict v then
    match look "FILE" v with
    | some (.scalar .null) => .ok none
    | r => .ok r
  else .error .attributeError

mutual

/-- `_find_file_references` (pyyaml_yaml_model.py:694-712). -/
def refs : Val → List String
  | .scalar _ => []
  | .seq l => refsSeq l
  | .map l => refsMap l

/-- The loop over a list. -/
def refsSeq : List Val → List String
  | [] => []
  | v :: vs => refs v ++ refsSeq vs

/-- The loop over a dict. -/
def refsMap : List (Sc × Val) → List String
  | [] => []
  | (k, v) :: rest =>
    match k, v with
    | .str "FILE", .scalar (.str f) => f :: refsMap rest
    | _, _ => refs v ++ refsMap rest

end

/-- References of a section that need not be there. -/
def refsOf : Option Val → List String
  | some v => refs v
  | none => []

/-- The curves of a model (pyyaml_yaml_model.py:314-319). -/
def curves (m : Val) : Except FErr (List Val) :=
  if isDict m then .ok (["CURVES", "CURVE"].filterMap fun k => (look k m).filter isDict) else .error .attributeError

/-- The scalar of a value that is to be a key of a dict. -/
def hashable : Val → Except FErr Sc
  | .scalar s => .ok s
  | _ => .error .typeError

/-- `dict.fromkeys` (pyyaml_yaml_model.py:336): the first of equal keys stays. -/
def dedup : List Key → List Sc → List Sc
  | _, [] => []
  | seen, s :: rest =>
    match s.key with
    | none => dedup seen rest
    | some k => if k ∈ seen then dedup seen rest else s :: dedup (k :: seen) rest

/-- The references in the process units (pyyaml_yaml_model.py:326-331). -/
def unitRefs (v : Val) : List String :=
  match look "DEFINITIONS" v with
  | some (.map l) => refsOf (look "PROCESS_UNITS" (.map l))
  | _ => []

/-- The names before duplicates are removed (pyyaml_yaml_model.py:313-333). -/
def facilityVals (v : Val) : Except FErr (List Val) := do
  let cs ← (listOrEmpty "MODELS" v).mapM curves
  let fs ← (listOrEmpty "FACILITY_INPUTS" v ++ cs.flatten).mapM fileOf
  return fs.filterMap id ++ (unitRefs v ++ refsOf (look "PROCESS_PIPELINES" v)).map fun f => .scalar (.str f)

/-- `facility_resource_names` (pyyaml_yaml_model.py:311-336). -/
def facilityNames (v : Val) : Except FErr (List Sc) := do
  let fs ← facilityVals v
  let ss ← fs.mapM hashable
  return dedup [] ss

/-- `timeseries_resource_names` (pyyaml_yaml_model.py:338-345). -/
def seriesNames (v : Val) : Except FErr (List Val) := do
  let fs ← (listOrEmpty "TIME_SERIES" v).mapM fileOf
  return fs.filterMap id

/-- What is found under a name in the working directory: no file, an invalid one, or a table. -/
inductive File (α : Type) where
  | missing
  | invalid
  | table (t : α)

/-- `resources[name] = t`. -/
def setItem {α : Type} (n : String) (t : α) : List (String × α) → List (String × α)
  | [] => [(n, t)]
  | (m, u) :: rest => if m = n then (n, t) :: rest else (m, u) :: setItem n t rest

/-- The loops of `get_time_series_resources` and `get_facility_resources` (file_resource_service.py:17-44, 46-73): tables by
name, and the names of invalid files. -/
def readFiles {α : Type} (fs : String → File α) : List Val → List (String × α) → List String →
    Except FErr (List (String × α) × List String)
  | [], res, errs => .ok (res, errs)
  | .scalar (.str n) :: rest, res, errs =>
    match fs n with
    | .missing => readFiles fs rest res errs
    | .invalid => readFiles fs rest res (errs ++ [n])
    | .table t => readFiles fs rest (setItem n t res) errs
  | _ :: _, _, _ => .error .typeError

/-- The resources of a model: time series and facility files (model.py:369-370). The two may read a file differently. -/
def resources {α β : Type} (ts : String → File α) (fac : String → File β) (v : Val) :
    Except FErr ((List (String × α) × List String) × (List (String × β) × List String)) := do
  let sn ← seriesNames v
  let s ← readFiles ts sn [] []
  let fn ← facilityNames v
  let f ← readFiles fac (fn.map .scalar) [] []
  return (s, f)

/-- The names that count as found in the validation (model.py:380-386). -/
def known {α β : Type} (r : (List (String × α) × List String) × (List (String × β) × List String)) : List String :=
  r.1.1.map (·.1) ++ r.2.1.map (·.1) ++ (r.1.2 ++ r.2.2)

/-- `value == old` for a text. -/
def isText (old : String) : Option Val → Bool
  | some (.scalar (.str s)) => s == old
  | _ => false

/-- One of the attempts of `__update_resource` (yaml_model.py:314-322, 323-330): the file of a dict under a key. -/
def updNested (k old new : String) (e : Val) : Option Val :=
  match look k e with
  | some (.map l) =>
    if isText old (look "FILE" (.map l)) then some (put k (put "FILE" (.scalar (.str new)) (.map l)) e) else none
  | _ => none

/-- The body of the loop of `__update_resource` (yaml_model.py:310-336); `models` says whether the section is MODELS. -/
def updEntry (models : Bool) (old new : String) (e : Val) : Option Val :=
  if isDict e then
    match if models then updNested "CURVES" old new e else none with
    | some e' => some e'
    | none =>
      match updNested "CURVE" old new e with
      | some e' => some e'
      | none => if isText old (look "FILE" e) then some (put "FILE" (.scalar (.str new)) e) else none
  else none

/-- The loop, which ends with the first entry that is updated. -/
def updEntries (models : Bool) (old new : String) : List Val → Option (List Val)
  | [] => none
  | e :: es =>
    match updEntry models old new e with
    | some e' => some (e' :: es)
    | none => (updEntries models old new es).map (e :: ·)

/-- `__update_resource` (yaml_model.py:298-338): the number of updates, zero or one. Texts and dicts can be iterated over, too,
but have no dicts as items. -/
def updSection (sec old new : String) (v : Val) : Except FErr (ℕ × Val) :=
  match look sec v with
  | none => .ok (0, v)
  | some (.scalar (.str _)) => .ok (0, v)
  | some (.scalar _) => .error .typeError
  | some (.map _) => .ok (0, v)
  | some (.seq l) =>
    match updEntries (sec == "MODELS") old new l with
    | some l' => .ok (1, put sec (.seq l') v)
    | none => .ok (0, v)

/-- `UpdateStatus` (yaml_model.py:254-263). -/
inductive Status where
  | zero
  | one
  | many
deriving DecidableEq, Repr

/-- The status of a number of updates (yaml_model.py:290-296). -/
def status (n : ℕ) : Status := if n = 0 then .zero else if n > 1 then .many else .one

/-- `update_resource_name` (yaml_model.py:277-296). -/
def updateName (old new : String) (v : Val) : Except FErr (Status × Val) := do
  let (a, v) ← updSection "TIME_SERIES" old new v
  let (b, v) ← updSection "FACILITY_INPUTS" old new v
  let (c, v) ← updSection "MODELS" old new v
  return (status (a + b + c), v)

/-- `update_resource_names` (yaml_model.py:265-275), one after the other. -/
def updateNames : List (String × String) → Val → Except FErr (List (String × Status) × Val)
  | [], v => .ok ([], v)
  | (old, new) :: rest, v => do
    let (s, v) ← updateName old new v
    let (ss, v) ← updateNames rest v
    return ((old, s) :: ss, v)

end Verif.ModelFiles
