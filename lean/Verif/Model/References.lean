import Verif.Model.Names

/-!
# Model of references between the parts of a YAML file

Sources: `libecalc/presentation/yaml/yaml_reference_service.py`, `libecalc/presentation/yaml/model.py` (_get_model_types),
`libecalc/presentation/yaml/yaml_types/models/model_reference_validation.py`, `.../yaml_compressor_trains.py`
(check_compressor_chart), `.../yaml_energy_usage_model_consumer_system.py` (forbid_generic_from_input_and_unknown_stages_in_compressor_system)
and `libecalc/presentation/yaml/mappers/consumer_function_mapper.py` (CompressorModelMapper and the other model mappers).

Simplifications:
* of an item of the file only its type and its references to other items are kept; every item is valid on its own;
* creating a model gives the items it is made of; the numbers in them are in the models of trains and charts;
* a train with unknown stages keeps its one chart, whatever the number of stages;
* files of the items (`FILE`) are not modelled here.
-/

namespace Verif.References
open Verif.Names

/-- Ways in which using a reference fails. -/
inductive RErr where
  /-- InvalidReferenceException or a pydantic error about the reference -/
  | invalid
  /-- ValueError of a validator -/
  | value
  /-- EcalcValidationException -/
  | validation
  | assertion
  | attribute
  | recursion
  deriving DecidableEq

/-- `YamlChartType` (yaml_enums.py:17-21). -/
inductive Chart where
  | singleSpeed | variableSpeed | genericInput | genericDesign
  deriving DecidableEq

/-- The compressor trains (yaml_compressor_trains.py:35-268); a simplified train has known or unknown stages. -/
inductive Train where
  | simplified | unknownStages | singleSpeed | variableSpeed | multipleStreams
  deriving DecidableEq

/-- What a name can stand for. A train refers to the fluid models of its (ingoing) streams and to the charts of its
stages. -/
inductive Item where
  | generatorSet | tabular | compressorTabular | pumpSingle | pumpVariable
  | fluid | chart (c : Chart) | turbine
  | train (t : Train) (fluids charts : List String)
  | withTurbine (compressor turbine : String)
  | fuel | stream | processUnit | fluidDefinition | pipeline | simulation | pumpSimulation
  deriving DecidableEq

/-- The types of facility inputs and models (yaml_facility_model_type.py, yaml_enums.py:4-14). -/
inductive ModelType where
  | electricity2fuel | tabular | compressorTabular | pumpSingle | pumpVariable
  | fluid | compressorChart | turbine | simplifiedTrain | singleSpeedTrain | variableSpeedTrain | multipleStreamsTrain
  | compressorWithTurbine
  deriving DecidableEq

/-- The field `TYPE` of a facility input or a model. -/
def Item.type : Item → Option ModelType
  | .generatorSet => some .electricity2fuel
  | .tabular => some .tabular
  | .compressorTabular => some .compressorTabular
  | .pumpSingle => some .pumpSingle
  | .pumpVariable => some .pumpVariable
  | .fluid => some .fluid
  | .chart _ => some .compressorChart
  | .turbine => some .turbine
  | .train .simplified _ _ => some .simplifiedTrain
  | .train .unknownStages _ _ => some .simplifiedTrain
  | .train .singleSpeed _ _ => some .singleSpeedTrain
  | .train .variableSpeed _ _ => some .variableSpeedTrain
  | .train .multipleStreams _ _ => some .multipleStreamsTrain
  | .withTurbine _ _ => some .compressorWithTurbine
  | _ => none

/-- The parts of a file that can be referred to. Streams and pipelines have a key in their section and a name of their
own (yaml_inlet_stream.py:63-67, yaml_process_pipeline.py:79-80). -/
structure File where
  facilityInputs : List (String × Item) := []
  models : List (String × Item) := []
  fuelTypes : List String := []
  inletStreams : List (String × String) := []
  processUnits : List String := []
  fluids : List String := []
  pipelines : List (String × String) := []
  simulations : List String := []
  pumpSimulations : List String := []
  fluidModels : List String := []

/-- `validate_unique_references` (yaml_asset.py:193-230) for the names of a file. -/
def File.names (f : File) : Asset where
  installations := []
  timeSeries := []
  facilityInputs := f.facilityInputs.map (·.1)
  models := f.models.map (·.1)
  fuelTypes := f.fuelTypes
  processPipelines := f.pipelines.map (·.1)
  processUnits := f.processUnits
  fluids := f.fluids
  processSimulations := f.simulations
  pumpSimulations := f.pumpSimulations
  fluidModels := f.fluidModels
  inletStreams := f.inletStreams.map (·.1)

/-! ## Dicts -/

/-- `d[k] = v` of a dict. -/
def put {β : Type} (d : List (String × β)) (k : String) (v : β) : List (String × β) :=
  match d with
  | [] => [(k, v)]
  | (k', v') :: d => if k' = k then (k, v) :: d else (k', v') :: put d k v

/-- A dict filled in order. -/
def fill {β : Type} (kvs : List (String × β)) : List (String × β) := kvs.foldl (fun d kv => put d kv.1 kv.2) []

/-! ## The reference service -/

/-- The last part of a YAML path: an index in a list or a key in a mapping. -/
inductive Key where
  | index (n : Nat)
  | key (s : String)
  deriving DecidableEq

/-- `YamlPath`: the section and the place in it. -/
structure Path where
  place : List String
  key : Key
  deriving DecidableEq

/-- The entries of a section that is a list (yaml_reference_service.py:94-110, 138-148). -/
def listed (place : List String) (start : Nat) : List (String × Item) → List (String × Path × Item)
  | [] => []
  | (n, i) :: rest => (n, ⟨place, .index start⟩, i) :: listed place (start + 1) rest

/-- The entries of a section that is a mapping, by key (yaml_reference_service.py:118-130, 150-155). -/
def keyed (place : List String) (item : Item) (keys : List String) : List (String × Path × Item) :=
  keys.map fun k => (k, ⟨place, .key k⟩, item)

/-- The entries of a section that is a mapping, by the name inside the entry (yaml_reference_service.py:112-116,
132-136). -/
def named (place : List String) (item : Item) (entries : List (String × String)) : List (String × Path × Item) :=
  entries.map fun e => (e.2, ⟨place, .key e.1⟩, item)

/-- The assignments of `YamlReferenceService.__init__` in order (yaml_reference_service.py:86-155). -/
def File.assignments (f : File) : List (String × Path × Item) :=
  listed ["FACILITY_INPUTS"] 0 f.facilityInputs ++ listed ["MODELS"] 0 f.models ++
  listed ["FUEL_TYPES"] 0 (f.fuelTypes.map (·, .fuel)) ++ named ["INLET_STREAMS"] .stream f.inletStreams ++
  keyed ["DEFINITIONS", "PROCESS_UNITS"] .processUnit f.processUnits ++
  keyed ["DEFINITIONS", "FLUIDS"] .fluidDefinition f.fluids ++ named ["PROCESS_PIPELINES"] .pipeline f.pipelines ++
  listed ["PROCESS_SIMULATIONS"] 0 (f.simulations.map (·, .simulation)) ++
  listed ["PUMP_PROCESS_SIMULATIONS"] 0 (f.pumpSimulations.map (·, .pumpSimulation)) ++
  keyed ["FLUID_MODELS"] .fluid f.fluidModels

/-- The dict of the service (yaml_reference_service.py:91-158). -/
def File.service (f : File) : List (String × Path × Item) := fill f.assignments

/-- `get_yaml_path` (yaml_reference_service.py:160-161). -/
def File.path (f : File) (reference : String) : Option Path := (f.service.lookup reference).map (·.1)

/-- `_resolve_yaml_reference` (yaml_reference_service.py:193-199). -/
def File.resolve (f : File) (reference : String) : Except RErr Item :=
  match f.service.lookup reference with
  | some e => .ok e.2
  | none => .error .invalid

/-- A getter that accepts some items only (yaml_reference_service.py:163-249). -/
def File.get (f : File) (isA : Item → Bool) (reference : String) : Except RErr Item := do
  let i ← f.resolve reference
  if isA i then return i else .error .invalid

/-- `isinstance(model, YamlFluidModel)` (yaml_reference_service.py:163-167). -/
def isFluid : Item → Bool
  | .fluid => true
  | _ => false

/-- `isinstance(model, YamlTurbine)` (yaml_reference_service.py:175-179). -/
def isTurbine : Item → Bool
  | .turbine => true
  | _ => false

/-- `isinstance(model, YamlCompressorChart)` (yaml_reference_service.py:181-185). -/
def isChart : Item → Bool
  | .chart _ => true
  | _ => false

/-- `isinstance(fuel, YamlFuelType)` (yaml_reference_service.py:187-191). -/
def isFuel : Item → Bool
  | .fuel => true
  | _ => false

/-- `isinstance(model, YamlGeneratorSetModel)` (yaml_reference_service.py:201-205). -/
def isGeneratorSet : Item → Bool
  | .generatorSet => true
  | _ => false

/-- `isinstance(model, YamlCompressorModel)` (reference_service.py:39-46, yaml_reference_service.py:207-211). -/
def isCompressor : Item → Bool
  | .train _ _ _ => true
  | .withTurbine _ _ => true
  | .compressorTabular => true
  | _ => false

/-- `isinstance(model, YamlPumpChartSingleSpeed | YamlPumpChartVariableSpeed)` (yaml_reference_service.py:213-217). -/
def isPump : Item → Bool
  | .pumpSingle => true
  | .pumpVariable => true
  | _ => false

/-- `isinstance(model, YamlTabularModel)` (yaml_reference_service.py:219-223). -/
def isTabular : Item → Bool
  | .tabular => true
  | _ => false

/-! ## Validation of references when the file is read -/

/-- `_get_model_types` (model.py:347-353): models first, then facility inputs. -/
def File.modelTypes (f : File) : List (String × Item) := fill (f.models ++ f.facilityInputs)

/-- `check_model_reference` (model_reference_validation.py:31-44). -/
def checkReference (f : File) (allowed : List ModelType) (reference : String) : Except RErr Item :=
  match f.modelTypes.lookup reference with
  | none => .error .invalid
  | some i =>
    match i.type with
    | some t => if t ∈ allowed then .ok i else .error .invalid
    | none => .error .invalid

/-- `check_field_model_reference` (model_reference_validation.py:47-110). -/
def checkField (f : File) (allowed : List ModelType) (reference : String) : Except RErr Unit := do
  let i ← checkReference f allowed reference
  match i with
  | .withTurbine c _ =>
    let _ ← checkReference f (allowed.filter (· ≠ .compressorWithTurbine)) c
    return ()
  | _ => return ()

/-- What a reference in the file is used for. -/
inductive Use where
  | generatorSet | compressor | multipleStreams | pump | tabulated | stage | fluid | turbine
  deriving DecidableEq

/-- The allowed types (model_reference_validation.py:113-204). -/
def Use.allowed : Use → List ModelType
  | .generatorSet => [.electricity2fuel]
  | .compressor => [.compressorTabular, .compressorWithTurbine, .singleSpeedTrain, .variableSpeedTrain, .simplifiedTrain]
  | .multipleStreams => [.compressorWithTurbine, .multipleStreamsTrain]
  | .pump => [.tabular, .pumpSingle, .pumpVariable]
  | .tabulated => [.tabular]
  | .stage => [.compressorChart, .compressorTabular, .tabular]
  | .fluid => [.fluid]
  | .turbine => [.turbine]

/-- `check_compressor_chart` for one chart (yaml_compressor_trains.py:161-181): known stages skip what has no chart
type, unknown stages require it. -/
def checkSimplifiedChart (f : File) (known : Bool) (reference : String) : Except RErr Unit :=
  match f.modelTypes.lookup reference with
  | none => .error .invalid
  | some (.chart .genericInput) => .ok ()
  | some (.chart .genericDesign) => .ok ()
  | some (.chart _) => .error .value
  | some _ => if known then .ok () else .error .attribute

/-- Validation of the references inside a facility input or model (yaml_compressor_trains.py:40-215,
yaml_compressor_stages.py:43-97, yaml_compressor_with_turbine.py:16-33). The validator of simplified trains looks its own
train up by name (yaml_compressor_trains.py:155). -/
def validateItem (f : File) (name : String) : Item → Except RErr Unit
  | .train t fluids charts => do
    fluids.forM (checkField f Use.fluid.allowed)
    charts.forM (checkField f Use.stage.allowed)
    match t with
    | .simplified | .unknownStages =>
      match f.modelTypes.lookup name with
      | some (.train .simplified _ charts') => charts'.forM (checkSimplifiedChart f true)
      | some (.train .unknownStages _ charts') => charts'.forM (checkSimplifiedChart f false)
      | some (.train .multipleStreams _ _) => .error .attribute
      | some (.train _ _ charts') => charts'.forM (checkSimplifiedChart f true)
      | _ => .error .attribute
    | _ => .ok ()
  | .withTurbine _ turbine => checkField f Use.turbine.allowed turbine
  | _ => .ok ()

/-- Validation of the file as far as references are concerned: items first, then uniqueness (pydantic validates fields
before `mode="after"` validators of the asset). -/
def File.validate (f : File) : Except RErr Unit := do
  f.facilityInputs.forM fun e => validateItem f e.1 e.2
  f.models.forM fun e => validateItem f e.1 e.2
  match validateReferences f.names with
  | .ok _ => .ok ()
  | .error _ => .error .value

/-- `forbid_generic_from_input_and_unknown_stages_in_compressor_system` for one compressor
(yaml_energy_usage_model_consumer_system.py:131-161); false when the rest of the compressors is not looked at. -/
def forbid (f : File) (reference : String) : Except RErr Bool := do
  let i ← match f.modelTypes.lookup reference with
    | some (.withTurbine c _) =>
      match f.modelTypes.lookup c with
      | some i => .ok i
      | none => .error .invalid
    | some i => .ok i
    | none => .error .invalid
  match i with
  | .train .unknownStages _ _ => .error .value
  | .train .multipleStreams _ _ => .ok true
  | .train _ _ [] => .error .value
  | .train _ _ charts => stagesOk charts
  | _ => .ok true
where
  /-- The loop over the stages. -/
  stagesOk : List String → Except RErr Bool
    | [] => .ok true
    | c :: cs =>
      match f.modelTypes.lookup c with
      | none => .ok false
      | some (.chart .genericInput) => .error .value
      | some _ => stagesOk cs

/-! ## Creating models -/

/-- What a compressor model is made of. -/
inductive Made where
  | sampled (reference : String)
  | train (t : Train) (reference : String) (fluids : List String) (charts : List (String × Chart))
  | driven (compressor : Made) (turbine : String)
  deriving DecidableEq

/-- `isinstance(compressor_train_model, CompressorTrainModel | CompressorModelSampled)`
(consumer_function_mapper.py:530). -/
def Made.isDriven : Made → Bool
  | .driven _ _ => true
  | _ => false

/-- Charts a train can use: measured ones (consumer_function_mapper.py:331) or, for a simplified train, generic ones;
without operational data only those from a design point (consumer_function_mapper.py:601, 652-655). -/
def suits (t : Train) (data : Bool) (c : Chart) : Bool :=
  match t with
  | .simplified | .unknownStages =>
    match c with
    | .genericDesign => true
    | .genericInput => data
    | _ => false
  | _ =>
    match c with
    | .singleSpeed | .variableSpeed => true
    | _ => false

/-- The chart of a stage (consumer_function_mapper.py:325-331, 600-601, 645-655). -/
def chartOf (f : File) (t : Train) (data : Bool) (reference : String) : Except RErr (String × Chart) := do
  match ← f.get isChart reference with
  | .chart c => if suits t data c then return (reference, c) else .error .assertion
  | _ => .error .assertion

/-- The fluid model of a train (consumer_function_mapper.py:306-313). -/
def fluidOf (f : File) (reference : String) : Except RErr String := do
  let _ ← f.get isFluid reference
  return reference

/-- `create_compressor_model` (consumer_function_mapper.py:402-452, 454-507, 522-594, 695-760, 819-848); `depth` is the
number of calls the interpreter still allows. Simplified: all stages of a train with several streams are kept, see
`Verif/Model/StreamMap.lean`. -/
def create (f : File) (data : Bool) : Nat → String → Except RErr Made
  | 0, _ => .error .recursion
  | depth + 1, reference => do
    match ← f.get isCompressor reference with
    | .compressorTabular => return .sampled reference
    | .withTurbine c t =>
      let m ← create f data depth c
      if m.isDriven then .error .assertion
      else
        let _ ← f.get isTurbine t
        return .driven m t
    | .train .multipleStreams fluids charts => do
      let cs ← charts.mapM (chartOf f .multipleStreams data)
      let fs ← fluids.mapM (fluidOf f)
      if fs = [] then .error .validation
      else return .train .multipleStreams reference fs cs
    | .train .unknownStages fluids charts => do
      let fs ← fluids.mapM (fluidOf f)
      if !data then .error .assertion
      else
        let cs ← charts.mapM (chartOf f .unknownStages data)
        return .train .unknownStages reference fs cs
    | .train t fluids charts => do
      let fs ← fluids.mapM (fluidOf f)
      let cs ← charts.mapM (chartOf f t data)
      return .train t reference fs cs
    | _ => .error .assertion

end Verif.References
