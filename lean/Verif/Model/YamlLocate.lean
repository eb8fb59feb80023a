import Mathlib.Data.List.Basic
import Mathlib.Data.Nat.Digits.Defs

/-!
# Where in the file an error is

`presentation/yaml/yaml_models/pyyaml_yaml_model.py:63-64, 553-658`, `presentation/yaml/validation_errors.py:28-72, 126-157`,
`presentation/yaml/mappers/component_mapper.py:78-93, 161-190`, `presentation/yaml/mappers/yaml_path.py:4-26`,
`presentation/yaml/mappers/yaml_mapping_context.py:27-36`.

Values are trees in which every node knows its place. PyYAML keeps the places of mappings (YamlDict) and lists (YamlList) only;
those of scalars are there to be able to speak about them. `str.upper`, pydantic's reading of dates (`datetime_parser`) and the
regular expression for dates written by pydantic are parameters. Keys of a path that are numbers are not negative (they come from
`enumerate` and from pydantic). What pydantic finds wrong (`YamlAsset.model_validate`) is a parameter too.
-/

namespace Verif.YamlLocate

/-- Keys of mappings in the file. -/
inductive DKey where
  | str (s : String)
  | num (n : ℤ)
  | null
  | date (d : ℤ)
deriving DecidableEq, Repr

/-- A place: the file, and lines and columns (both from 0) of the start and the end. -/
structure Span where
  file : String
  start : ℕ × ℕ
  stop : ℕ × ℕ
deriving DecidableEq, Repr

/-- Values with their places (yaml_node.py:1-18). -/
inductive Val where
  | scalar (at_ : Span)
  | seq (at_ : Span) (l : List Val)
  | map (at_ : Span) (l : List (DKey × Val))

/-- The place of a value. -/
def Val.span : Val → Span
  | .scalar s => s
  | .seq s _ => s
  | .map s _ => s

/-- `isinstance(data, YamlDict)`. -/
def Val.isMap : Val → Bool
  | .map _ _ => true
  | _ => false

/-- Keys of a path (yaml_path.py:1; datetimes are used as well). -/
inductive PKey where
  | str (s : String)
  | idx (i : ℕ)
  | date (d : ℤ)
deriving DecidableEq, Repr

/-- Parts that are not modelled: `str.upper` and `datetime_parser` (pyyaml_yaml_model.py:63-64). -/
structure Env where
  upper : String → String
  parse : DKey → Option ℤ

/-- `current_data[key]` for a mapping. -/
def lookup (k : DKey) : List (DKey × Val) → Option Val
  | [] => none
  | (k', v) :: rest => if k' = k then some v else lookup k rest

/-- `next(value for inner_key, value in current_data.items() if datetime_parser(inner_key) == key)`; nothing when a key cannot be
read as a date, as the error is caught outside the search (pyyaml_yaml_model.py:630-641). -/
def findDate (env : Env) (d : ℤ) : List (DKey × Val) → Option Val
  | [] => none
  | (k, v) :: rest =>
    match env.parse k with
    | none => none
    | some d' => if d' = d then some v else findDate env d rest

/-- One round of the loop in `_get_closest_file_context`: the new `current_data`, if it was altered
(pyyaml_yaml_model.py:616-641). -/
def step (env : Env) (v : Val) : PKey → Option Val
  | .str s =>
    match v with
    | .map _ l => lookup (.str (env.upper s)) l
    | _ => none
  | .idx i =>
    match v with
    | .seq _ l => l[i]?
    | _ => none
  | .date d =>
    match v with
    | .map _ l => findDate env d l
    | _ => none

/-- The loop in `_get_closest_file_context` (pyyaml_yaml_model.py:616-655); `cur` is the current data, `best` the place of the
closest context so far, `past` is `is_pydantic_loc`. -/
def closest (env : Env) (past : Bool) (cur : Val) (best : Span) : List PKey → Span
  | [] => best
  | k :: rest =>
    match step env cur k with
    | some w => closest env past w (if w.isMap then w.span else best) rest
    | none => if past then closest env past cur best rest else best

/-- file_context.py:4-18. -/
structure Context where
  name : String
  start : ℕ × ℕ
  stop : ℕ × ℕ
deriving DecidableEq, Repr

/-- `_node_to_file_context` (pyyaml_yaml_model.py:571-583): lines are counted from 1, columns from 0; the name is that of the
main file. -/
def nodeContext (name : String) (s : Span) : Context :=
  ⟨name, (s.start.1 + 1, s.start.2), (s.stop.1 + 1, s.stop.2)⟩

/-- `get_file_context` (pyyaml_yaml_model.py:609-658). -/
def fileContext (env : Env) (name : String) (data : Val) (path : List PKey) : Context :=
  nodeContext name (closest env false data data.span path)

/-- `_get_yaml_path_from_pydantic_loc` (pyyaml_yaml_model.py:585-607). -/
def yamlPath (locs : List PKey) : List PKey :=
  locs.foldl (fun acc loc => if loc = .str "single" ∨ loc = .str "temporal" then acc else acc ++ [loc]) []

/-- Keys of a location shown to the user (validation_errors.py:30); a date is its year, month and day. -/
inductive LKey where
  | str (s : List Char)
  | idx (i : ℕ)
  | date (y m d : ℕ)
deriving DecidableEq, Repr

/-- `strftime("%Y-%m-%d")` (validation_errors.py:50-52). -/
def twoDigits (n : ℕ) : List Char := if n < 10 then '0' :: Nat.toDigits 10 n else Nat.toDigits 10 n

/-- `_date_to_string` (validation_errors.py:50-52); years are not filled up with zeros. -/
def dateText (y m d : ℕ) : List Char := Nat.toDigits 10 y ++ '-' :: (twoDigits m ++ '-' :: twoDigits d)

/-- One round of the loop in `as_dot_separated` (validation_errors.py:37-47). -/
def addKey (i : ℕ) (path : List Char) : LKey → List Char
  | .str s => (if 0 < i then path ++ ['.'] else path) ++ s
  | .idx n => path ++ ('[' :: (Nat.toDigits 10 n ++ [']']))
  | .date y m d => path ++ '.' :: dateText y m d

/-- `as_dot_separated` (validation_errors.py:35-48). -/
def dotSeparated (keys : List LKey) : List Char :=
  (keys.zipIdx).foldl (fun path x => addKey x.2 path x.1) []

/-- `_parse_key` (validation_errors.py:54-68), given what the regular expression finds (`date_repr_regex`, :90-91): the date, if
the text is that of a date. -/
def parseKey (dateRepr : String → Option (ℕ × ℕ × ℕ)) : PKey → Option LKey
  | .str s =>
    match dateRepr s with
    | some (y, m, d) => some (.date y m d)
    | none => some (.str s.toList)
  | .idx i => some (.idx i)
  | .date _ => none

/-- One error of pydantic: its type, its path, its message, and the message made from `CUSTOM_MESSAGES`, if there is one for the
type (validation_errors.py:19-26, 150-153). -/
structure PyErr where
  type_ : String
  loc : List PKey
  msg : String
  custom : Option String

/-- `remove_prefix_if_exists` (validation_errors.py:128-132). -/
def removePrefix (pre : List Char) (message : List Char) : List Char :=
  if pre.isPrefixOf message then message.drop pre.length else message

/-- The message in `custom_errors` (validation_errors.py:135-156). -/
def customMessage (e : PyErr) : String :=
  let msg := if e.type_ = "assertion_error" then String.ofList (removePrefix "Assertion failed, ".toList e.msg.toList) else e.msg
  let msg := if e.type_ = "value_error" then String.ofList (removePrefix "Value error, ".toList msg.toList) else msg
  match e.custom with
  | some c => c
  | none => msg

/-- An error as shown to the user (validation_errors.py:94-100). -/
structure ModelError where
  message : String
  location : List (Option LKey)
  context : Context

/-- The errors in `validate` (pyyaml_yaml_model.py:553-569). -/
def validate (env : Env) (dateRepr : String → Option (ℕ × ℕ × ℕ)) (name : String) (data : Val) (errors : List PyErr) :
    List ModelError :=
  errors.map fun e =>
    ⟨customMessage e, (yamlPath e.loc).map (parseKey dateRepr), fileContext env name data (yamlPath e.loc)⟩

/-- Names of the components by their paths, latest registration first (yaml_mapping_context.py:27-36). -/
abbrev Registered := List (List PKey × String)

/-- `get_component_name_from_yaml_path` (yaml_mapping_context.py:31-36). -/
def Registered.name (r : Registered) (p : List PKey) : Option String := (r.find? fun x => x.1 = p).map (·.2)

/-- A key in a location made from a path: the key itself, or a name in its place. -/
inductive NKey where
  | key (k : PKey)
  | name (s : String)
deriving DecidableEq, Repr

/-- `name or key` (component_mapper.py:89). -/
def nameOr (k : PKey) : Option String → NKey
  | some s => if s = "" then .key k else .name s
  | none => .key k

/-- One round of the loop in `get_location_from_yaml_path` (component_mapper.py:86-91); `current` is `current_path` with the
key. -/
def locationKey (r : Registered) (current : List PKey) (k : PKey) : NKey :=
  match k with
  | .idx _ => nameOr k (r.name current)
  | _ => .key k

/-- `get_location_from_yaml_path` (component_mapper.py:78-93); `current` is `current_path`. -/
def locationKeys (r : Registered) (current : List PKey) : List PKey → List NKey
  | [] => []
  | k :: rest => locationKey r (current ++ [k]) k :: locationKeys r (current ++ [k]) rest

/-- `_create_reference_error` (component_mapper.py:174-190): the location and the context of an error in what `reference` stands
for, where `path` is the path of the definition (yaml_reference_service.py:160-161). -/
def referenceError (env : Env) (fileName : String) (data : Val) (path : List PKey) (reference : String) (key : Option String) :
    List NKey × Context :=
  match key with
  | some k => (path.dropLast.map .key ++ [.name reference] ++ [.key (.str k)],
      fileContext env fileName data (path ++ [.str k]))
  | none => (path.dropLast.map .key ++ [.name reference], fileContext env fileName data path)

end Verif.YamlLocate
