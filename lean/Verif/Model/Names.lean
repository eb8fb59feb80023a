import Verif.Model.Time

/-!
Model of the uniqueness checks: `src/libecalc/common/string/string_utils.py` (`get_duplicates`) and the validators of
`src/libecalc/presentation/yaml/yaml_types/components/yaml_asset.py`.

Only the names in the yaml model are kept. Order and repetition inside the set of duplicates are not meaningful.
-/

namespace Verif.Names

open Verif.Time

/-- Loop of `get_duplicates` (string_utils.py:10-14), the names seen so far being `seen`. -/
def duplicatesFrom {κ : Type} [DecidableEq κ] (seen : List κ) : List κ → List κ
  | [] => []
  | n :: ns => if n ∈ seen then n :: duplicatesFrom seen ns else duplicatesFrom (n :: seen) ns

/-- `get_duplicates` (string_utils.py:7-15). -/
def getDuplicates {κ : Type} [DecidableEq κ] (names : List κ) : List κ := duplicatesFrom [] names

/-- The names in a generator set. -/
structure GeneratorSet where
  name : String
  consumers : List String

/-- The names in an installation; an absent list is empty (`or []`). -/
structure Installation where
  name : String
  fuelConsumers : List String
  generatorSets : List GeneratorSet
  ventingEmitters : List String

/-- The names in a `YamlAsset` (yaml_asset.py:46-138). -/
structure Asset where
  installations : List Installation
  timeSeries : List String
  facilityInputs : List String
  models : List String
  fuelTypes : List String
  processPipelines : List String
  processUnits : List String
  fluids : List String
  processSimulations : List String
  pumpSimulations : List String
  fluidModels : List String
  inletStreams : List String

/-- Names collected for one generator set (yaml_asset.py:159-161). -/
def generatorSetNames (g : GeneratorSet) : List String := g.name :: g.consumers

/-- Names collected for one installation (yaml_asset.py:154-164). -/
def installationNames (i : Installation) : List String :=
  [i.name] ++ i.fuelConsumers ++ i.generatorSets.flatMap generatorSetNames ++ i.ventingEmitters

/-- `validate_unique_component_names` (yaml_asset.py:140-175). `modelName` is the name in the validation context;
without a context, or with an empty name in it, nothing is checked. -/
def validateComponentNames (modelName : Option String) (a : Asset) : Except Err Unit :=
  match modelName with
  | none => .ok ()
  | some m =>
    if m = "" then .ok ()
    else if getDuplicates (m :: a.installations.flatMap installationNames) = [] then .ok () else .error .valueError

/-- `validate_unique_time_series_names` (yaml_asset.py:177-191). -/
def validateTimeSeriesNames (a : Asset) : Except Err Unit :=
  if getDuplicates a.timeSeries = [] then .ok () else .error .valueError

/-- `validate_unique_references` (yaml_asset.py:193-230). -/
def validateReferences (a : Asset) : Except Err Unit :=
  let references := a.facilityInputs ++ a.models ++ a.fuelTypes ++ a.processPipelines ++ a.processUnits ++ a.fluids
    ++ a.processSimulations ++ a.pumpSimulations ++ a.fluidModels ++ a.inletStreams
  if getDuplicates references = [] then .ok () else .error .valueError

end Verif.Names
