import Verif.Model.ModelFiles

/-!
# Model of the sections of a document that are read without failing

`libecalc/presentation/yaml/yaml_models/pyyaml_yaml_model.py`, the properties `variables`, `facility_inputs`, `models`,
`time_series`, `fuel_types`, `installations`, `inlet_streams`, `fluid_models`, `definitions`, `process_pipelines`,
`process_simulations`, `ecalc_events`, `process_events` and `pump_process_simulations`, and the positions
`libecalc/presentation/yaml/yaml_reference_service.py` gives to the entries of lists.

Whether an entry is valid, and what it becomes, is a parameter (`TypeAdapter(...).validate_python`); exceptions other than
`PydanticValidationError` are not modelled. A dict is a list of entries, as in `Verif.ModelFiles`.
-/

namespace Verif.Lenient
open Verif.YamlRead Verif.ModelFiles

variable {α β : Type}

/-- The loops that append what is valid (pyyaml_yaml_model.py:379-385, 390-396, 404-410, 415-421, 426-432, 496-503,
507-514, 518-525, 529-536). -/
def appendValid (valid : Val → Option α) : List α → List Val → List α
  | acc, [] => acc
  | acc, v :: rest =>
    match valid v with
    | some x => appendValid valid (acc ++ [x]) rest
    | none => appendValid valid acc rest

/-- A section that is a list (pyyaml_yaml_model.py:283-306, 377-432, 494-536). -/
def listSection (valid : Val → Option α) (keyword : String) (doc : Val) : List α :=
  appendValid valid [] (listOrEmpty keyword doc)

/-- `_get_yaml_dict_or_empty` (pyyaml_yaml_model.py:283-303, 308-309). -/
def dictOrEmpty (keyword : String) (doc : Val) : List (Sc × Val) :=
  match look keyword doc with
  | some (.map l) => l
  | _ => []

/-- `d[k] = x`. -/
def assign (k : Sc) (x : α) : List (Sc × α) → List (Sc × α)
  | [] => [(k, x)]
  | (s, y) :: rest => if s = k then (s, x) :: rest else (s, y) :: assign k x rest

/-- The loops that enter what is valid under its name (pyyaml_yaml_model.py:358-364, 440-444, 451-455, 469-478,
486-490); only variables have names that are validated as well. -/
def enterValid (name : Sc → Bool) (valid : Val → Option α) : List (Sc × α) → List (Sc × Val) → List (Sc × α)
  | acc, [] => acc
  | acc, (k, v) :: rest =>
    if name k then
      match valid v with
      | some x => enterValid name valid (assign k x acc) rest
      | none => enterValid name valid acc rest
    else enterValid name valid acc rest

/-- A section that is a dict: `inlet_streams`, `fluid_models`, `process_pipelines` (pyyaml_yaml_model.py:434-456,
481-492), and `variables` with the pattern of its references (pyyaml_yaml_model.py:347-366). -/
def dictSection (name : Sc → Bool) (valid : Val → Option α) (keyword : String) (doc : Val) : List (Sc × α) :=
  enterValid name valid [] (dictOrEmpty keyword doc)

/-- `definitions.get(key, {}).items()` (pyyaml_yaml_model.py:465-467, 469, 474). -/
def items (key : String) (doc : Val) : Except FErr (List (Sc × Val)) :=
  match look "DEFINITIONS" doc with
  | some (.map l) =>
    match look key (.map l) with
    | none => .ok []
    | some (.map entries) => .ok entries
    | some _ => .error .attributeError
  | _ => .ok []

/-- `definitions` (pyyaml_yaml_model.py:458-479). -/
def definitions (unit : Val → Option α) (fluid : Val → Option β) (doc : Val) :
    Except FErr (List (Sc × α) × List (Sc × β)) :=
  match items "PROCESS_UNITS" doc with
  | .error e => .error e
  | .ok us =>
    match items "FLUIDS" doc with
    | .error e => .error e
    | .ok fs => .ok (enterValid (fun _ => true) unit [] us, enterValid (fun _ => true) fluid [] fs)

/-- The positions of the entries of a list as the reference service counts them (yaml_reference_service.py:93-109). -/
def positions (valid : Val → Option α) (keyword : String) (doc : Val) : List (α × ℕ) :=
  (listSection valid keyword doc).zipIdx

end Verif.Lenient
