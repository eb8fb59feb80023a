import Verif.Model.Graph

/-!
# Model of setting up and evaluating a whole run

* `presentation/yaml/mappers/component_mapper.py`: `map_yaml_component`, `map_installation`, `map_generator_set`,
  `map_consumer`, `from_yaml_to_domain`
* `presentation/yaml/mappers/consumer_function_mapper.py`: `from_yaml_to_dto` and the registrations it makes
* `presentation/yaml/domain/default_process_service.py`
* `presentation/yaml/model.py`: `Context`, `evaluate_energy_usage`, `get_consumer_energy_results_from_domain_models`

`uuid4()` is a counter: every call gives an id that was not given before. Validation errors while the file is mapped,
the mapping context (names, categories, regularities by id) and the text of errors are left out. What a single model,
consumer or generator set computes is a parameter (see the models of consumers, generator sets, trains and pumps).
-/

namespace Verif.Run
open Verif.Time Verif.GraphModel

/-- Where a model of a consumer is evaluated: compressor trains (also with turbine), pumps and sampled compressors are
registered in the process service; direct and tabular consumers and systems are consumer functions. -/
inductive Kind where
  | train | pump | sampled | function
  deriving DecidableEq, Repr

variable {μ ι : Type}

/-- One model of a consumer in one period, with its evaluation input. -/
structure YModel (μ ι : Type) where
  kind : Kind
  model : μ
  input : ι

/-- A consumer of the file, with the models restricted to the period of the file (`_time_adjusted_model`,
consumer_function_mapper.py:985; see C88). -/
structure YConsumer (μ ι : Type) where
  name : String
  models : List (Period × YModel μ ι)

/-- A generator set of the file. -/
structure YGenset (μ ι : Type) where
  name : String
  consumers : List (YConsumer μ ι)

/-- An installation of the file. -/
structure YInstallation (μ ι : Type) where
  name : String
  gensets : List (YGenset μ ι)
  consumers : List (YConsumer μ ι)
  emitters : List String

/-- The mapped component kept in the energy model. -/
inductive Comp (μ ι : Type) where
  | consumer (y : YConsumer μ ι)
  | genset (y : YGenset μ ι)
  | emitter (name : String)
  | installation (name : String)
  | asset

/-- The state of the mapping: the next uuid, the builder of the energy model, and `DefaultProcessService`
(default_process_service.py:23-32). -/
structure St (μ ι : Type) where
  next : Nat
  builder : Builder (Comp μ ι)
  trains : List (Nat × μ)
  pumps : List (Nat × μ)
  sampled : List (Nat × μ)
  inputs : List (Nat × ι)
  modelOf : List ((Nat × Period) × Nat)

/-- `register_*`, `register_evaluation_input`, `map_model_to_consumer` (default_process_service.py:60-107) as called for
each period in `_map_pump` (consumer_function_mapper.py:1151-1156), `_map_multiple_streams_compressor` (1246-1253) and
`_map_compressor` (1330-1364). -/
def registerModel (consumer : Nat) (s : St μ ι) (pm : Period × YModel μ ι) : St μ ι :=
  match pm.2.kind with
  | .function => s
  | .train => { s with
      next := s.next + 1
      trains := dictSet s.next pm.2.model s.trains
      inputs := dictSet s.next pm.2.input s.inputs
      modelOf := dictSet (consumer, pm.1) s.next s.modelOf }
  | .pump => { s with
      next := s.next + 1
      pumps := dictSet s.next pm.2.model s.pumps
      inputs := dictSet s.next pm.2.input s.inputs
      modelOf := dictSet (consumer, pm.1) s.next s.modelOf }
  | .sampled => { s with
      next := s.next + 1
      sampled := dictSet s.next pm.2.model s.sampled
      inputs := dictSet s.next pm.2.input s.inputs
      modelOf := dictSet (consumer, pm.1) s.next s.modelOf }

/-- The end of `map_yaml_component` (component_mapper.py:678-687). -/
def St.register (s : St μ ι) (id : Nat) (parent : Option Nat) (c : Comp μ ι) : St μ ι :=
  { s with builder := s.builder.register (.uuid id) (parent.map .uuid) c }

/-- `map_yaml_component` with `map_consumer` (component_mapper.py:463-554, 678-687): the models of all periods are mapped;
without any, the consumer is skipped. The id has been made by the caller. -/
def mapConsumer (parent : Nat) (s : St μ ι) (y : YConsumer μ ι) : St μ ι :=
  let id := s.next
  let s := y.models.foldl (registerModel id) { s with next := s.next + 1 }
  if y.models = [] then s else s.register id (some parent) (.consumer y)

/-- `map_yaml_component` with `map_generator_set` (component_mapper.py:268-365). -/
def mapGenset (parent : Nat) (s : St μ ι) (y : YGenset μ ι) : St μ ι :=
  let id := s.next
  let s := y.consumers.foldl (mapConsumer id) { s with next := s.next + 1 }
  s.register id (some parent) (.genset y)

/-- `map_yaml_component` with `map_venting_emitter` (component_mapper.py:556-617). -/
def mapEmitter (parent : Nat) (s : St μ ι) (name : String) : St μ ι :=
  { s with next := s.next + 1 }.register s.next (some parent) (.emitter name)

/-- `map_yaml_component` with `map_installation` (component_mapper.py:367-461): generator sets, then fuel consumers, then
emitters. -/
def mapInstallation (parent : Nat) (s : St μ ι) (y : YInstallation μ ι) : St μ ι :=
  let id := s.next
  let s := y.gensets.foldl (mapGenset id) { s with next := s.next + 1 }
  let s := y.consumers.foldl (mapConsumer id) s
  let s := y.emitters.foldl (mapEmitter id) s
  s.register id (some parent) (.installation y.name)

/-- `from_yaml_to_domain` (component_mapper.py:689-718), from a fresh mapping context. -/
def mapFile (file : List (YInstallation μ ι)) : St μ ι :=
  let s : St μ ι := ⟨1, ⟨[], []⟩, [], [], [], [], []⟩
  let s := file.foldl (mapInstallation 0) s
  s.register 0 none .asset

/-! ## Evaluation -/

variable {ρ R : Type}

/-- What the parts of a model compute: a registered model from its input (`apply_to_model` and `evaluate`,
model.py:524-562), the result of a consumer from the results of its models (`CompressorResult`, `PumpResult`,
model.py:620-638), a consumer by consumer functions, and a generator set from the results of its consumers. -/
structure Eval (μ ι ρ R : Type) where
  model : μ → ι → Except Err ρ
  combine : YConsumer μ ι → List (ι × ρ) → R
  consumer : YConsumer μ ι → Except Err R
  genset : YGenset μ ι → List R → Except Err R

/-- `_evaluate_compressor_process_systems` and its two copies (model.py:519-562); a missing input is an AssertionError. -/
def evaluateModels (ev : Eval μ ι ρ R) (inputs : List (Nat × ι)) : List (Nat × μ) → Except Err (List (Nat × ρ))
  | [] => .ok []
  | (id, m) :: rest =>
    match inputs.lookup id with
    | none => .error .assertion
    | some i =>
      match ev.model m i with
      | .error e => .error e
      | .ok r =>
        match evaluateModels ev inputs rest with
        | .error e => .error e
        | .ok rs => .ok ((id, r) :: rs)

/-- `{**a, **b}`. -/
def merge {β : Type} (a b : List (Nat × β)) : List (Nat × β) := b.foldl (fun d kv => dictSet kv.1 kv.2 d) a

/-- `d.setdefault(k, []).append(v)`. -/
def appendAt {β : Type} (k : Nat) (v : β) (d : List (Nat × List β)) : List (Nat × List β) :=
  match d.lookup k with
  | none => dictSet k [v] d
  | some vs => dictSet k (vs ++ [v]) d

/-- The first loop of `get_consumer_energy_results_from_domain_models` (model.py:598-611). -/
def collect (results : List (Nat × ρ)) (inputs : List (Nat × ι)) (d : List (Nat × List (ι × ρ)))
    (e : (Nat × Period) × Nat) : Except Err (List (Nat × List (ι × ρ))) :=
  match results.lookup e.2 with
  | none => .ok d
  | some r =>
    match inputs.lookup e.2 with
    | none => .error .typeError
    | some i => .ok (appendAt e.1.1 (i, r) d)

/-- The second loop (model.py:614-638); a consumer that is not in the energy model is a KeyError. -/
def combineAll (ev : Eval μ ι ρ R) (nodes : List (NodeID × Comp μ ι)) :
    List (Nat × List (ι × ρ)) → Except Err (List (Nat × R))
  | [] => .ok []
  | (id, rs) :: rest =>
    match nodes.lookup (.uuid id) with
    | some (.consumer y) =>
      match combineAll ev nodes rest with
      | .error e => .error e
      | .ok more => .ok ((id, ev.combine y rs) :: more)
    | _ => .error .keyError

/-- `Context._get_consumers_of_current` (model.py:96-99). -/
def resultsOf (results : List (NodeID × R)) : List NodeID → Except Err (List R)
  | [] => .ok []
  | c :: cs =>
    match results.lookup c with
    | none => .error .keyError
    | some r =>
      match resultsOf results cs with
      | .error e => .error e
      | .ok rs => .ok (r :: rs)

/-- The body of the loop of `evaluate_energy_usage` (model.py:470-485). Only consumers and generator sets have
`evaluate_energy_usage`; a consumer does not use its context. -/
def evalStep (ev : Eval μ ι ρ R) (g : Graph (Comp μ ι)) (fromModels : List (Nat × R))
    (results : List (NodeID × R)) (n : NodeID) : Except Err (List (NodeID × R)) := do
  match ← g.getNode n with
  | .consumer y =>
    match (match n with | .uuid k => fromModels.lookup k | .str _ => none) with
    | some r => return dictSet n r results
    | none =>
      let r ← ev.consumer y
      return dictSet n r results
  | .genset y =>
    let cs ← g.getSuccessors n false
    let rs ← resultsOf results cs
    let r ← ev.genset y rs
    return dictSet n r results
  | .emitter _ => return results
  | .installation _ => return results
  | .asset => return results

/-- `evaluate_energy_usage` (model.py:453-485) for a mapped file: the results by component. -/
def evaluate (ev : Eval μ ι ρ R) (s : St μ ι) : Except Err (List (NodeID × R)) := do
  let g ← s.builder.build
  let trains ← evaluateModels ev s.inputs s.trains
  let pumps ← evaluateModels ev s.inputs s.pumps
  let sampled ← evaluateModels ev s.inputs s.sampled
  let all := merge (merge trains pumps) sampled
  let lists ← s.modelOf.foldlM (collect all s.inputs) []
  let fromModels ← combineAll ev s.builder.nodes lists
  g.graph.nodes.foldlM (evalStep ev g fromModels) []

/-- The name of a component, as shown with its result. -/
def Comp.name : Comp μ ι → String
  | .consumer y => y.name
  | .genset y => y.name
  | .emitter n => n
  | .installation n => n
  | .asset => ""

/-- The results with the names of their components. -/
def named (s : St μ ι) (results : List (NodeID × R)) : List (Option String × R) :=
  results.map fun nr => ((s.builder.nodes.lookup nr.1).map Comp.name, nr.2)

end Verif.Run
