import Mathlib.Algebra.Order.Ring.Int
import Verif.Model.Time

/-!
# Model of the rules the YAML schema puts on installations

* `common/time_utils.py` (`is_temporal_model`, `convert_date_to_datetime`)
* `presentation/yaml/yaml_types/yaml_temporal_model.py`, `yaml_default_datetime.py`
* `presentation/yaml/ltp_validation.py`, `presentation/yaml/energy_model_validation.py`
* `presentation/yaml/yaml_types/yaml_stream_conditions.py`
* `presentation/yaml/yaml_types/components/yaml_generator_set.py`, `yaml_installation.py`
* `presentation/yaml/yaml_types/components/legacy/yaml_fuel_consumer.py`, `yaml_electricity_consumer.py`
* `dto/utils/validators.py` (`ComponentNameStr`)

Simplifications:
* reading a date with `strptime` and with pydantic, and the digits of a regular expression, are the parameters `Reading`;
* a document is any type with a function that says which documents are dicts; what a field holds is validated by a
  parameter;
* pydantic collects errors, here the first is kept; messages are dropped;
* only the fields that the rules look at are kept.
-/

namespace Verif.Rules
open Verif.Time (dictSet)

/-- A key of a dict read from YAML. -/
inductive Key where
  /-- a `date`, in days -/
  | day (n : ℤ)
  /-- a `datetime`, in microseconds -/
  | moment (t : ℤ)
  /-- a `Period` -/
  | period (start stop : ℤ)
  | text (s : List Char)
  /-- anything else: a number, a boolean, nothing -/
  | other
  deriving DecidableEq, Repr

/-- What is left to Python and pydantic. -/
structure Reading where
  /-- `strptime(s, "%Y-%m-%dT%H:%M:%S")` succeeds -/
  iso : List Char → Bool
  /-- `strptime(s, "%Y-%m-%d %H:%M:%S")` succeeds -/
  plain : List Char → Bool
  /-- pydantic reads a text as `datetime` -/
  parse : List Char → Option ℤ
  /-- the class `\d` -/
  digit : Char → Bool

/-- What can be raised. -/
inductive RErr where
  /-- `InvalidDateException` -/
  | invalidDate
  /-- `AttributeError` -/
  | attributeError
  /-- a validation error of pydantic -/
  | validation
  deriving DecidableEq, Repr

/-- What a key counts as. -/
inductive Kind where
  | date
  | period
  | neither
  deriving DecidableEq, Repr

/-- The loop body of `is_temporal_model` (time_utils.py:344-366): `key.split` of a number raises `AttributeError`, which is
not among the exceptions caught. -/
def kindOf (c : Reading) : Key → Except RErr Kind
  | .day _ => .ok .date
  | .moment _ => .ok .date
  | .period _ _ => .ok .period
  | .text s =>
    match s.splitOn ';' with
    | [a] => .ok (if c.iso a then .date else .neither)
    | a :: b :: _ => .ok (if c.plain a && c.plain b then .period else .neither)
    | [] => .ok .neither
  | .other => .error .attributeError

/-- `is_temporal_model` of a dict (time_utils.py:338-383). -/
def isTemporal (c : Reading) (keys : List Key) : Except RErr Bool := do
  let kinds ← keys.mapM (kindOf c)
  if kinds.any (· = .date) then
    if kinds.all (· = .date) then return true else .error .invalidDate
  else if kinds.any (· = .period) then
    if kinds.all (· = .period) then return true else .error .invalidDate
  else return false

/-- A validated `YamlTemporalModel` (yaml_temporal_model.py:37-46). -/
inductive Temporal (β : Type) where
  | single (b : β)
  | dates (l : List (ℤ × β))
  deriving DecidableEq, Repr

/-- `YamlDefaultDatetime` of a key (yaml_default_datetime.py:9-19, time_utils.py:386-389). -/
def instant (c : Reading) : Key → Option ℤ
  | .day n => some (n * 86400000000)
  | .moment t => some t
  | .period _ _ => none
  | .text s => c.parse s
  | .other => none

/-- One entry of `dict[YamlDefaultDatetime, TModel]`. -/
def readEntry {D β : Type} (c : Reading) (T : D → Option β) (e : Key × D) : Except RErr (ℤ × β) :=
  match instant c e.1, T e.2 with
  | some t, some b => .ok (t, b)
  | _, _ => .error .validation

/-- pydantic fills the dict entry by entry. -/
def fill {β : Type} (l : List (ℤ × β)) : List (ℤ × β) := l.foldl (fun acc e => dictSet e.1 e.2 acc) []

/-- The branch `temporal` of the union. -/
def readTemporal {D β : Type} (c : Reading) (T : D → Option β) (es : List (Key × D)) : Except RErr (Temporal β) := do
  let l ← es.mapM (readEntry c T)
  return .dates (fill l)

/-- The branch `single` of the union. -/
def readSingle {D β : Type} (T : D → Option β) (d : D) : Except RErr (Temporal β) :=
  match T d with
  | some b => .ok (.single b)
  | none => .error .validation

/-- A field of type `YamlTemporalModel[T]` (yaml_temporal_model.py:12-46). -/
def readField {D β : Type} (c : Reading) (asDict : D → Option (List (Key × D))) (T : D → Option β) (d : D) :
    Except RErr (Temporal β) :=
  match asDict d with
  | none => readSingle T d
  | some es =>
    match isTemporal c (es.map (·.1)) with
    | .ok true => readTemporal c T es
    | .ok false => readSingle T d
    | .error .invalidDate => readTemporal c T es
    | .error e => .error e

/-- `ComponentNameStr` (dto/utils/validators.py:10-14). -/
def nameOk (c : Reading) (name : List Char) : Bool :=
  name.all (fun x => ('A' ≤ x && x ≤ 'Z') || x = 'Æ' || x = 'Ø' || x = 'Å' || ('a' ≤ x && x ≤ 'z') || x = 'æ' || x = 'ø' ||
    x = 'å' || c.digit x || x = '_' || x = '/' || x = '-' || x = ' ')

/-- `ConsumerUserDefinedCategoryType`: the one category that has a rule, and the others by number. -/
inductive Category where
  | powerFromShore
  | other (n : ℕ)
  deriving DecidableEq, Repr

/-- `validate_generator_set_power_from_shore` (ltp_validation.py:5-26). -/
def checkShore {E : Type} (cableLoss maxUsage : Option E) (category : Temporal Category) : Except RErr Unit :=
  if cableLoss.isSome || maxUsage.isSome then
    match category with
    | .single g => if g ≠ .powerFromShore then .error .validation else .ok ()
    | .dates l => if (l.map (·.2)).contains .powerFromShore then .ok () else .error .validation
  else .ok ()

/-- The list `energy_model_types` (energy_model_validation.py:15-18). -/
def types (l : List String) : List String :=
  l.foldl (fun acc t => if acc.contains t then acc else acc ++ [t]) []

/-- `validate_energy_usage_models` (energy_model_validation.py:9-25) on the types of the models. -/
def checkModels : Temporal String → Except RErr Unit
  | .single _ => .ok ()
  | .dates l => if (types (l.map (·.2))).length > 1 then .error .validation else .ok ()

/-- `YamlEmissionRate`, `YamlOilVolumeRate` (yaml_stream_conditions.py:27-107): the conditions. -/
structure Rate (E : Type) where
  condition : Option E
  conditions : Option (List E)

/-- `validate_condition` (yaml_stream_conditions.py:48-60, 94-106). -/
def checkRate {E : Type} (r : Rate E) : Except RErr Unit :=
  if r.conditions.isSome && r.condition.isSome then .error .validation
  else
    match r.conditions with
    | some [] => .error .validation
    | _ => .ok ()

/-- `YamlGeneratorSet` (yaml_generator_set.py:14-56); of a consumer only the types of its models are kept. -/
structure GeneratorSet (E : Type) where
  name : List Char
  category : Temporal Category
  cableLoss : Option E
  maxUsage : Option E
  consumers : List (Temporal String)

/-- `YamlOilTypeEmitter`, `YamlDirectTypeEmitter` (yaml_venting_emitter.py:70-177) with the rates within. -/
structure Emitter (E : Type) where
  name : List Char
  rates : List (Rate E)

/-- `YamlInstallation` (yaml_installation.py:34-93). -/
structure Installation (E : Type) where
  name : List Char
  generatorSets : Option (List (GeneratorSet E))
  fuelConsumers : Option (List (Temporal String))
  emitters : Option (List (Emitter E))

/-- `ComponentNameStr` as a field. -/
def checkName (c : Reading) (name : List Char) : Except RErr Unit := if nameOk c name then .ok () else .error .validation

/-- Every element of a list is validated. -/
def checkAll {α : Type} (f : α → Except RErr Unit) : List α → Except RErr Unit
  | [] => .ok ()
  | a :: l => do
    f a
    checkAll f l

/-- Validating a generator set (yaml_generator_set.py:14-56). -/
def checkGeneratorSet {E : Type} (c : Reading) (g : GeneratorSet E) : Except RErr Unit := do
  checkName c g.name
  checkAll checkModels g.consumers
  if g.consumers.isEmpty then .error .validation else checkShore g.cableLoss g.maxUsage g.category

/-- Validating a venting emitter (yaml_venting_emitter.py:70-177). -/
def checkEmitter {E : Type} (c : Reading) (e : Emitter E) : Except RErr Unit := do
  checkName c e.name
  checkAll checkRate e.rates

/-- A list that may be left out counts as filled if it has an element. -/
def filled {α : Type} : Option (List α) → Bool
  | some (_ :: _) => true
  | _ => false

/-- Validating an installation (yaml_installation.py:34-93). -/
def checkInstallation {E : Type} (c : Reading) (i : Installation E) : Except RErr Unit := do
  checkName c i.name
  checkAll (checkGeneratorSet c) (i.generatorSets.getD [])
  checkAll checkModels (i.fuelConsumers.getD [])
  checkAll (checkEmitter c) (i.emitters.getD [])
  if filled i.fuelConsumers || filled i.emitters || filled i.generatorSets then .ok () else .error .validation

end Verif.Rules
