import Verif.Model.Inputs
import Verif.Model.Pipeline

/-!
# Model of how process simulations are read from the file

`src/libecalc/presentation/yaml/mappers/process_simulation_mapper.py` (`ProcessSimulationMapper`),
`src/libecalc/presentation/yaml/mappers/ecalc_event_mapper.py`, `src/libecalc/ecalc_model/ecalc_event.py`,
`src/libecalc/presentation/yaml/mappers/fluid_mapper.py`, `src/libecalc/ecalc_model/time_series_fluid_model.py` and
`YamlModel.get_process_simulations` (presentation/yaml/model.py:155-178).

Ids are numbers; a new object takes the next number that has not been used (`uuid4` in the code). A chart is kept as the
data it is made of; whether the data can be made into a chart, and how the sections are assembled, are parameters (they
are modelled in `ChartFile` and `Assembly`). Types of events and descriptions of events are texts. Left out: the ids of
sections, connections, problems and the simulation, and the connection a constraint is put on.
-/

namespace Verif.ProcessMap
open Verif.Time Verif.Inputs Verif.Pipeline

/-! ## Events -/

/-- `YamlProcessEvent` (yaml_process_simulation.py:49-77). -/
structure YProcessEvent where
  name : String
  type : String
  description : Option String
  ref : String
  deriving DecidableEq

/-- `YamlEcalcEvent` (yaml_process_simulation.py:18-46). -/
structure YEvent where
  name : String
  type : String
  start : DateTime
  description : Option String
  deriving DecidableEq

/-- `ProcessEvent` (ecalc_event.py:23-27). -/
structure ProcessEvent where
  name : String
  type : String
  description : Option String
  deriving DecidableEq

/-- `EcalcEvent` (ecalc_event.py:30-36). -/
structure Event where
  name : String
  type : String
  start : DateTime
  description : Option String
  parts : List ProcessEvent
  deriving DecidableEq

/-- The keys of `ecalc_events_by_name` (ecalc_event_mapper.py:12-18). -/
def eventNames : List String → List YEvent → Except Err (List String)
  | seen, [] => .ok seen
  | seen, y :: ys => if y.name ∈ seen then .error .validation else eventNames (seen ++ [y.name]) ys

/-- `ecalc_events_by_name[ref].append(...)`. -/
def appendTo (d : List (String × List ProcessEvent)) (ref : String) (p : ProcessEvent) :
    List (String × List ProcessEvent) :=
  d.map fun e => if e.1 = ref then (e.1, e.2 ++ [p]) else e

/-- The loop over the process events (ecalc_event_mapper.py:20-32). -/
def attach : List (String × List ProcessEvent) → List YProcessEvent → Except Err (List (String × List ProcessEvent))
  | d, [] => .ok d
  | d, p :: ps =>
    if d.any (·.1 = p.ref) then attach (appendTo d p.ref ⟨p.name, p.type, p.description⟩) ps else .error .validation

/-- `EcalcEventMapper.map_events` (ecalc_event_mapper.py:9-46). -/
def mapEvents (ys : List YEvent) (ps : List YProcessEvent) : Except Err (List Event) := do
  let names ← eventNames [] ys
  let d ← attach (names.map (·, [])) ps
  return ys.map fun y => ⟨y.name, y.type, y.start, y.description, (d.lookup y.name).getD []⟩

/-- `EcalcEventService.get_event_by_process_name` (ecalc_event.py:49-54). -/
def eventByPart : List Event → String → Option Event
  | [], _ => none
  | e :: es, name => if e.parts.any (·.name = name) then some e else eventByPart es name

/-! ## Fluids -/

/-- `FluidComposition`, `YamlFluidComposition`, `TimeSeriesFluidComposition` with their components in the order of the
fields (yaml_fluid_definitions.py:14-27, time_series_fluid_model.py:8-20). -/
structure Mix (α : Type) where
  water : α
  nitrogen : α
  co2 : α
  methane : α
  ethane : α
  propane : α
  iButane : α
  nButane : α
  iPentane : α
  nPentane : α
  nHexane : α
  deriving DecidableEq

/-- `EoSModel` and `YamlEosModel`. -/
inductive EoS where
  | srk | pr | gergSrk | gergPr
  deriving DecidableEq

/-- `YamlPredefinedFluidType`. -/
inductive Gas where
  | ultraDry | dry | medium | rich | ultraRich
  deriving DecidableEq

/-- `_predefined_fluid_composition_mapper` (fluid_mapper.py:30-96); the water content is the default of
`FluidComposition`. -/
def Gas.composition : Gas → Mix ℚ
  | .ultraDry => ⟨0, 1.140841432, 0.607605069, 94.90924895, 2.480677384, 0.319357855, 0.154760057, 0.081099138,
      0.074745555, 0.033999676, 0.197664882⟩
  | .dry => ⟨0, 1.6545, 0.8396, 89.3891, 5.101, 1.7083, 0.4718, 0.385, 0.1155, 0.0793, 0.2559⟩
  | .medium => ⟨0, 0.74373, 2.415619, 85.60145, 6.707826, 2.611471, 0.45077, 0.691702, 0.210714, 0.197937, 0.368786⟩
  | .rich => ⟨0, 0.682785869, 2.466921329, 79.57192993, 5.153816223, 9.679747581, 0.691399336, 1.174334645,
      0.208390206, 0.201853022, 0.16881974⟩
  | .ultraRich => ⟨0, 3.433045573, 0.341296928, 62.50752861, 15.64946798, 13.2202369, 1.606103192, 2.479421803,
      0.351335073, 0.291106204, 0.120457739⟩

/-- `YamlFluidDefinition` (yaml_fluid_definitions.py:30-45). -/
inductive FluidDef where
  | predefined (eos : EoS) (gas : Gas)
  | composition (eos : EoS) (mix : Mix ExprInput)
  deriving DecidableEq

/-- `TimeSeriesFluidModel` (time_series_fluid_model.py:44-47). -/
structure TFluid where
  eos : EoS
  mix : Mix ExprInput
  deriving DecidableEq

/-- `_create_time_series_fluid_model` (fluid_mapper.py:179-209): every component becomes an expression without
condition. -/
def createFluid {α : Type} (expression : α → ExprInput) (eos : EoS) (m : Mix α) : TFluid :=
  ⟨eos, ⟨expression m.water, expression m.nitrogen, expression m.co2, expression m.methane, expression m.ethane,
    expression m.propane, expression m.iButane, expression m.nButane, expression m.iPentane, expression m.nPentane,
    expression m.nHexane⟩⟩

/-- `fluid_definition_mapper` (fluid_mapper.py:142-176). -/
def mapFluid : FluidDef → TFluid
  | .predefined eos gas => createFluid .number eos gas.composition
  | .composition eos mix => createFluid id eos mix

/-- `list[index]`. -/
def at? (l : List ℚ) (i : Nat) : Except Err ℚ :=
  match l[i]? with
  | some v => .ok v
  | none => .error .indexError

/-- `get_periods().index(period)` (time_series_fluid_model.py:24-27). -/
def indexOf (ps : List Period) (p : Period) : Except Err Nat :=
  if p ∈ ps then .ok (ps.idxOf p) else .error .programmingError

/-- `TimeSeriesFluidComposition.get_value` (time_series_fluid_model.py:22-41); `values` are the masked values of an
expression, `ps` the periods of the evaluator. -/
def mixAt (values : ExprInput → List ℚ) (ps : List Period) (m : Mix ExprInput) (p : Period) : Except Err (Mix ℚ) := do
  let i ← indexOf ps p
  let water ← at? (values m.water) i
  let nitrogen ← at? (values m.nitrogen) i
  let co2 ← at? (values m.co2) i
  let methane ← at? (values m.methane) i
  let ethane ← at? (values m.ethane) i
  let propane ← at? (values m.propane) i
  let iButane ← at? (values m.iButane) i
  let nButane ← at? (values m.nButane) i
  let iPentane ← at? (values m.iPentane) i
  let nPentane ← at? (values m.nPentane) i
  let nHexane ← at? (values m.nHexane) i
  return ⟨water, nitrogen, co2, methane, ethane, propane, iButane, nButane, iPentane, nPentane, nHexane⟩

/-- `TimeSeriesFluidModel.get_value` (time_series_fluid_model.py:48-53). -/
def fluidAt (values : ExprInput → List ℚ) (ps : List Period) (f : TFluid) (p : Period) :
    Except Err (EoS × Mix ℚ) := do
  let m ← mixAt values ps f.mix p
  return (f.eos, m)

/-! ## Streams -/

/-- A reference or a definition in place: `str | YamlX`. -/
inductive Ref (α : Type) where
  | named (name : String)
  | here (a : α)
  deriving DecidableEq

/-- `YamlInletStreamRate` (yaml_inlet_stream.py:17-55). -/
structure Rate where
  value : ExprInput
  calendar : Bool
  condition : Option ExprInput
  conditions : Option (List ExprInput)
  deriving DecidableEq

/-- `ExpressionTimeSeriesFlowRate` as made by the mapper. -/
structure TRate where
  value : ExprInput
  calendar : Bool
  condition : Option ExprInput
  deriving DecidableEq

/-- `_map_rate` (process_simulation_mapper.py:210-223). -/
def mapRate (r : Rate) : Except Err TRate := do
  let c ← mapConditions r.condition r.conditions
  return ⟨r.value, r.calendar, c⟩

/-- `YamlInletStream` (yaml_inlet_stream.py:58-90). -/
structure Stream where
  name : String
  fluid : Ref FluidDef
  temperature : ExprInput
  pressure : ExprInput
  rate : Rate
  deriving DecidableEq

/-- `TimeSeriesStream` (time_series_stream.py:7-12). -/
structure TStream where
  fluid : TFluid
  pressure : ExprInput
  temperature : ExprInput
  rate : TRate
  deriving DecidableEq

/-! ## Units -/

/-- `YamlCompressorModelChart` (yaml_process_units.py:14-30): the curves, the units (a text) and the control margin. -/
structure ChartDef where
  curves : Ref String
  units : String
  margin : ℚ
  percent : Bool
  deriving DecidableEq

/-- The chart: what it is made of, the units and the control margin as a fraction. -/
structure ChartData where
  curves : Ref String
  units : String
  margin : ℚ
  deriving DecidableEq

/-- `YamlProcessUnitDefinition` (yaml_process_units.py:33-110). -/
inductive Def where
  | compressor (chart : ChartDef)
  | dropper (drop : ExprInput)
  | setter (temperature : ExprInput)
  | remover
  | mixer (side : Ref Stream)
  | splitter (offtake : Rate)
  deriving DecidableEq

/-- The class of a process unit, for a compressor with its chart. -/
inductive Kind where
  | compressor (chart : ChartData)
  | dropper
  | setter
  | remover
  | mixer
  | splitter
  deriving DecidableEq

/-- A process unit. -/
structure PlantUnit where
  id : Nat
  kind : Kind
  deriving DecidableEq

/-- The configurations of time_series_configuration.py:7-24. -/
inductive Config where
  | drop (bara : ExprInput)
  | celsius (temperature : ExprInput)
  | side (stream : TStream)
  | offtake (rate : TRate)
  deriving DecidableEq

/-- `YamlProcessUnitInstance` (yaml_process_pipeline.py:18-20). -/
structure Item where
  target : Ref Def
  name : Option String
  deriving DecidableEq

/-- `YamlPipelineEvent` (yaml_process_pipeline.py:33-75). -/
structure YChange where
  action : String
  target : String
  before : String
  after : String
  type : String
  ref : String
  deriving DecidableEq

/-- `YamlProcessPipeline` (yaml_process_pipeline.py:78-87). -/
structure YPipeline where
  name : String
  items : List Item
  events : List YChange
  deriving DecidableEq

/-- `PipelineEvent` (process_pipeline.py:28-37). -/
structure Change where
  action : String
  target : Nat
  after : PlantUnit
  type : String
  time : DateTime
  deriving DecidableEq

/-- The services the mapper works with: the getters of the reference service, the headers of a resource, whether a chart
can be made of the data, the events, and the validation and assembly of the sections. -/
structure Env (κ σ : Type) where
  pipeline : String → Except Err YPipeline
  unit : String → Except Err Def
  stream : String → Except Err Stream
  fluid : String → Except Err FluidDef
  headers : String → Option (List String)
  chartable : ChartData → Except Err Unit
  events : List Event
  assemble : List (MSection κ) → Except Err (List σ)

/-- `_resolve_pipeline_reference`, `_resolve_stream_reference`, `_resolve_fluid_definition`
(process_simulation_mapper.py:132-136, 180-192). -/
def resolve {α : Type} (get : String → Except Err α) : Ref α → Except Err α
  | .named n => get n
  | .here a => .ok a

variable {κ σ : Type}

/-- The mapping of a stream (process_simulation_mapper.py:349-358, 539-547, 553-563). -/
def mapStream (env : Env κ σ) (r : Ref Stream) : Except Err TStream := do
  let s ← resolve env.stream r
  let f ← resolve env.fluid s.fluid
  let rate ← mapRate s.rate
  return ⟨mapFluid f, s.pressure, s.temperature, rate⟩

/-- `control_margin_fraction` (process_simulation_mapper.py:141-145). -/
def marginFraction (c : ChartDef) : ℚ := if c.percent then c.margin / 100 else c.margin

/-- `_get_compressor_chart` (process_simulation_mapper.py:138-171). -/
def chartOf (env : Env κ σ) (c : ChartDef) : Except Err ChartData :=
  let d : ChartData := ⟨c.curves, c.units, marginFraction c⟩
  match c.curves with
  | .named file =>
    match env.headers file with
    | none => .error .validation
    | some hs => if "SPEED" ∈ hs then (env.chartable d).map (fun _ => d) else .error .validation
  | .here _ => (env.chartable d).map (fun _ => d)

/-- What a definition is made into (process_simulation_mapper.py:327-363). -/
def makeUnit (env : Env κ σ) : Def → Except Err (Kind × Option Config)
  | .compressor c => do
    let d ← chartOf env c
    return (.compressor d, none)
  | .dropper e => .ok (.dropper, some (.drop e))
  | .setter e => .ok (.setter, some (.celsius e))
  | .remover => .ok (.remover, none)
  | .mixer r => do
    let s ← mapStream env r
    return (.mixer, some (.side s))
  | .splitter r => do
    let t ← mapRate r
    return (.splitter, some (.offtake t))

/-- `isinstance(unit, Compressor)`. -/
def Kind.isCompressor : Kind → Bool
  | .compressor _ => true
  | _ => false

/-- The dictionaries of one target (process_simulation_mapper.py:310-319) and the next free id. -/
structure St where
  next : Nat
  units : List PlantUnit
  compressors : List Nat
  names : List (String × Nat)
  configs : List (Nat × Config)

/-- `problem_time_series_configurations[unit.get_id()] = ...`. -/
def withConfig (configs : List (Nat × Config)) (id : Nat) : Option Config → List (Nat × Config)
  | some c => configs ++ [(id, c)]
  | none => configs

/-- One pass of the loop over the units (process_simulation_mapper.py:321-382). -/
def addItem (env : Env κ σ) (st : St) (it : Item) : Except Err St := do
  let d ← resolve env.unit it.target
  let u ← makeUnit env d
  let st' : St :=
    { st with
      next := st.next + 1
      units := st.units ++ [⟨st.next, u.1⟩]
      compressors := if u.1.isCompressor then st.compressors ++ [st.next] else st.compressors
      configs := withConfig st.configs st.next u.2 }
  match it.name with
  | none => return st'
  | some n => if st.names.any (·.1 = n) then .error .validation else return { st' with names := st.names ++ [(n, st.next)] }

/-- The loop over the units (process_simulation_mapper.py:321-382). -/
def addItems (env : Env κ σ) : St → List Item → Except Err St
  | st, [] => .ok st
  | st, it :: its => do
    let st' ← addItem env st it
    addItems env st' its

/-- One pass of `_validate_and_map_pipeline_events` (process_simulation_mapper.py:254-282). `CHANGE_FROM` is not
looked at. -/
def mapChange (env : Env κ σ) (names : List (String × Nat)) (id : Nat) (y : YChange) : Except Err Change :=
  match eventByPart env.events y.ref with
  | none => .error .validation
  | some e => do
    let d ← env.unit y.after
    match d with
    | .compressor c => do
      let chart ← chartOf env c
      match names.lookup y.target with
      | none => .error .keyError
      | some t => return ⟨y.action, t, ⟨id, .compressor chart⟩, y.type, e.start⟩
    | _ => .error .validation

/-- `_validate_and_map_pipeline_events` (process_simulation_mapper.py:246-284); every new compressor takes an id. -/
def mapChanges (env : Env κ σ) (names : List (String × Nat)) : Nat → List YChange → Except Err (List Change)
  | _, [] => .ok []
  | id, y :: ys => do
    let c ← mapChange env names id y
    let cs ← mapChanges env names (id + 1) ys
    return c :: cs

/-! ## Pipelines -/

/-- `ProcessPipeline` with its `ProcessProblem` and its entry in `predefined_configurations`. -/
structure MPipeline (κ σ : Type) where
  id : Nat
  name : String
  units : List PlantUnit
  shaft : List Nat
  cuts : List (MSection κ)
  sections : List σ
  changes : List Change
  configs : List (Nat × Config)

/-- `pipeline_constraints` (process_simulation_mapper.py:396-399). -/
def constraintsFor (constraints : List (String × List (Constraint κ))) (name : String) :
    Except Err (List (Constraint κ)) :=
  match constraints.lookup name with
  | some (c :: cs) => .ok (c :: cs)
  | _ => .error .validation

/-- One pass of the loop over the targets (process_simulation_mapper.py:306-486). -/
def mapTarget (env : Env κ σ) (constraints : List (String × List (Constraint κ))) (next : Nat) (target : String) :
    Except Err (MPipeline κ σ × Nat) := do
  let y ← env.pipeline target
  let st ← addItems env ⟨next, [], [], [], []⟩ y.items
  let cs ← constraintsFor constraints y.name
  let cuts ← partition (st.units.map fun u => ⟨u.id, u.kind.isCompressor⟩) (fun n => st.names.lookup n) cs
  let sections ← env.assemble cuts
  let changes ← mapChanges env st.names st.next y.events
  let id := st.next + y.events.length
  return (⟨id, y.name, st.units, st.compressors, cuts, sections, changes, st.configs⟩, id + 1)

/-- The loop over the targets (process_simulation_mapper.py:306-486). -/
def mapTargets (env : Env κ σ) (constraints : List (String × List (Constraint κ))) :
    Nat → List String → Except Err (List (MPipeline κ σ) × Nat)
  | next, [] => .ok ([], next)
  | next, t :: ts => do
    let p ← mapTarget env constraints next t
    let ps ← mapTargets env constraints p.2 ts
    return (p.1 :: ps.1, ps.2)

/-- `process_pipeline_reference_to_id_map` (process_simulation_mapper.py:304, 478): a later pipeline of the same name
replaces an earlier one. -/
def idOf (ps : List (MPipeline κ σ)) (name : String) : Option Nat :=
  (ps.reverse.find? (fun p => p.name = name)).map (·.id)

/-! ## Stream distribution -/

/-- `YamlOverflow` (yaml_stream_distribution.py:10-12). -/
structure YOverflow where
  source : String
  dest : String
  deriving DecidableEq

/-- `YamlCommonStreamSetting` (yaml_stream_distribution.py:15-17). -/
structure YSetting where
  fractions : List ExprInput
  overflow : Option (List YOverflow)
  deriving DecidableEq

/-- `YamlStreamDistribution` (yaml_stream_distribution.py:20-33). -/
inductive YDistribution where
  | common (inlet : Ref Stream) (settings : List YSetting)
  | individual (inlets : List (Ref Stream))
  deriving DecidableEq

/-- `CommonStreamSettings` with `Overflow` as (from, to) (process_simulation.py:31-34). -/
structure Setting where
  fractions : List ExprInput
  overflow : List (Nat × Nat)
  deriving DecidableEq

/-- `CommonStreamDistributionConfig`, `IndividualStreamDistributionConfig` (process_simulation.py:37-45). -/
inductive Distribution where
  | common (inlet : TStream) (settings : List Setting)
  | individual (inlets : List TStream)
  deriving DecidableEq

/-- One overflow (process_simulation_mapper.py:512-531). -/
def mapOverflow (ids : String → Option Nat) (o : YOverflow) : Except Err (Nat × Nat) :=
  match ids o.dest with
  | none => .error .validation
  | some t =>
    match ids o.source with
    | none => .error .validation
    | some f => .ok (f, t)

/-- One setting (process_simulation_mapper.py:500-537). -/
def mapSetting (ids : String → Option Nat) (s : YSetting) : Except Err Setting := do
  let os ← (s.overflow.getD []).mapM (mapOverflow ids)
  return ⟨s.fractions, os⟩

/-- The stream distribution (process_simulation_mapper.py:495-569). -/
def mapDistribution (env : Env κ σ) (ids : String → Option Nat) : YDistribution → Except Err Distribution
  | .common inlet settings => do
    let ss ← settings.mapM (mapSetting ids)
    let s ← mapStream env inlet
    return .common s ss
  | .individual inlets => do
    let ss ← inlets.mapM (mapStream env)
    return .individual ss

/-! ## Simulations -/

/-- `YamlProcessSimulation` (yaml_process_simulation.py:111-124). -/
structure YSimulation (κ : Type) where
  name : String
  targets : List String
  distribution : YDistribution
  constraints : List (String × List (Constraint κ))

/-- `ProcessSimulation` with its pipelines (process_simulation.py:141-168). -/
structure Simulation (κ σ : Type) where
  name : String
  pipelines : List (MPipeline κ σ)
  distribution : Distribution

/-- `map_process_simulation` (process_simulation_mapper.py:286-580). -/
def mapSimulation (env : Env κ σ) (next : Nat) (y : YSimulation κ) : Except Err (Simulation κ σ × Nat) := do
  let ps ← mapTargets env y.constraints next y.targets
  if y.constraints.all (fun c => (idOf ps.1 c.1).isSome) then
    let d ← mapDistribution env (idOf ps.1) y.distribution
    return (⟨y.name, ps.1, d⟩, ps.2)
  else .error .validation

/-- `YamlModel.get_process_simulations` (model.py:155-178); the pipelines are those of the simulations in order. -/
def mapSimulations (env : Env κ σ) : Nat → List (YSimulation κ) → Except Err (List (Simulation κ σ))
  | _, [] => .ok []
  | next, y :: ys => do
    let s ← mapSimulation env next y
    let ss ← mapSimulations env s.2 ys
    return s.1 :: ss

/-- The first component of the result of `get_process_simulations` (model.py:170-178). -/
def allPipelines (ss : List (Simulation κ σ)) : List (MPipeline κ σ) := ss.flatMap (·.pipelines)

end Verif.ProcessMap
