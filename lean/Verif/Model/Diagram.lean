import Verif.Model.Run
import Verif.Model.Components

/-!
# Model of the flow diagram

* `presentation/flow_diagram/energy_model_flow_diagram.py`
* `presentation/flow_diagram/flow_diagram_dtos.py`
* `get_energy_container`, `get_energy_components`, `get_consumers` of
  `presentation/yaml/domain/energy_container_energy_model_builder.py`

The energy model is the graph of `Verif.Run` (see C89). `str(uuid)` is a constructor, so that it differs from the fixed ids
"fuel-input", "emission-output" and "area". The writing as JSON is left out. Which kind of component a consumer is
(`_get_component_type`, see `Verif.Components`), and whether it is an electricity consumer, are parameters.
-/

namespace Verif.Diagram
open Verif.Time Verif.GraphModel Verif.Run

/-- `NodeType` (flow_diagram_dtos.py:11-29), those in use. -/
inductive NodeType where
  | generator | installation | compressor | compressorSystem | direct | inputOutput | pump | pumpSystem
  deriving DecidableEq, Repr

/-- Ids of nodes and diagrams (energy_model_flow_diagram.py:16-17, 121, 158). -/
inductive Id where
  | fuel | emission | area
  | comp (n : NodeID)
  deriving DecidableEq, Repr

/-- `FUEL_FLOW`, `EMISSIONS_FLOW`, `ELECTRICITY_FLOW` (energy_model_flow_diagram.py:19-21). -/
inductive Flow where
  | fuel | emission | electricity
  deriving DecidableEq, Repr

/-- `Edge` (flow_diagram_dtos.py:62-66). -/
structure Edge where
  source : Id
  target : Id
  flow : Flow
  deriving DecidableEq, Repr

/-- `Node` without its subdiagram (flow_diagram_dtos.py:69-76). -/
structure Info where
  id : Id
  title : String
  type : NodeType
  deriving DecidableEq, Repr

/-- `FlowDiagram` (flow_diagram_dtos.py:40-50); the nodes come with their subdiagram. The code puts a subdiagram in a list of
one element (energy_model_flow_diagram.py:94). -/
inductive Chart where
  | mk (id : Id) (title : String) (period : Period) (nodes : List (Info × Option Chart)) (edges : List Edge)
    (flows : List Flow)

/-- `FUEL_NODE` (energy_model_flow_diagram.py:16). -/
def fuelNode : Info := ⟨.fuel, "Fuel", .inputOutput⟩

/-- `EMISSION_NODE` (energy_model_flow_diagram.py:17). -/
def emissionNode : Info := ⟨.emission, "Emission", .inputOutput⟩

variable {μ ι : Type}

/-- What the diagram needs to know of consumers: their component type, and whether they are electricity consumers. -/
structure Kinds (μ ι : Type) where
  kind : YConsumer μ ι → Components.Kind
  electric : YConsumer μ ι → Bool

/-- `_get_node_type(energy_container.get_component_process_type())` (energy_model_flow_diagram.py:29-53); the asset is an
AssertionError. -/
def nodeType (k : Kinds μ ι) : Comp μ ι → Except Err NodeType
  | .installation _ => .ok .installation
  | .genset _ => .ok .generator
  | .emitter _ => .ok .direct
  | .asset => .error .assertion
  | .consumer y =>
    match k.kind y with
    | .pump => .ok .pump
    | .compressor => .ok .compressor
    | .compressorSystem => .ok .compressorSystem
    | .pumpSystem => .ok .pumpSystem
    | .generic => .ok .direct

/-- `is_fuel_consumer` (fuel_consumer.py:73-74, electricity_consumer.py:58-59, generator_set_component.py:86-87,
installation.py:80-81, asset.py:27-28, venting_emitter.py:157-158). -/
def isFuelConsumer (k : Kinds μ ι) : Comp μ ι → Bool
  | .consumer y => !k.electric y
  | .genset _ => true
  | .installation _ => true
  | .asset => true
  | .emitter _ => false

/-- `is_provider` (generator_set_component.py:92-93; False in all other classes). -/
def isProvider : Comp μ ι → Bool
  | .genset _ => true
  | .consumer _ => false
  | .installation _ => false
  | .asset => false
  | .emitter _ => false

/-- `isinstance(energy_container, Emitter)` (energy_model_flow_diagram.py:63-65; venting_emitter.py:126,
fuel_consumer.py:38, generator_set_component.py:40). -/
def isEmitter (k : Kinds μ ι) : Comp μ ι → Bool
  | .consumer y => !k.electric y
  | .genset _ => true
  | .emitter _ => true
  | .installation _ => false
  | .asset => false

/-- The edges of one consumer to fuel and emissions (energy_model_flow_diagram.py:78-87). -/
def ownEdges (k : Kinds μ ι) (n : NodeID) (c : Comp μ ι) : List Edge :=
  if isFuelConsumer k c then [⟨.fuel, .comp n, .fuel⟩, ⟨.comp n, .emission, .emission⟩]
  else if isEmitter k c then [⟨.comp n, .emission, .emission⟩]
  else []

/-- `_get_node` (energy_model_flow_diagram.py:117-124); `sub` makes subdiagrams. -/
def node (k : Kinds μ ι) (g : Graph (Comp μ ι)) (sub : NodeID → Except Err (Option Chart)) (n : NodeID)
    (includeSub : Bool) : Except Err (Info × Option Chart) := do
  let c ← g.getNode n
  let t ← nodeType k c
  let s ← if includeSub then sub n else pure none
  pure (⟨.comp n, c.name, t⟩, s)

/-- One pass of the loop over the consumers (energy_model_flow_diagram.py:75-98): the nodes and edges it appends. -/
def part (k : Kinds μ ι) (g : Graph (Comp μ ι)) (sub : NodeID → Except Err (Option Chart)) (n : NodeID) :
    Except Err (List (Info × Option Chart) × List Edge) := do
  let c ← g.getNode n
  let own ← node k g sub n (!isProvider c)
  if isProvider c then do
    let el ← g.getSuccessors n false
    let nodes ← el.mapM fun m => node k g sub m true
    pure (own :: nodes, ownEdges k n c ++ el.map fun m => ⟨.comp n, .comp m, .electricity⟩)
  else pure ([own], ownEdges k n c)

/-- `_get_energy_component_fde` (energy_model_flow_diagram.py:67-108). The number bounds the depth of the recursion (a
RecursionError in the code). -/
def subdiagram (k : Kinds μ ι) (g : Graph (Comp μ ι)) (p : Period) : Nat → NodeID → Except Err (Option Chart)
  | 0, _ => .error .programmingError
  | f + 1, n => do
    let consumers ← g.getSuccessors n false
    if consumers = [] then pure none
    else do
      let parts ← consumers.mapM (part k g (subdiagram k g p f))
      let c ← g.getNode n
      pure (some (.mk (.comp n) c.name p ((fuelNode, none) :: (emissionNode, none) :: parts.flatMap (·.1))
        (parts.flatMap (·.2)) [.fuel, .emission, .electricity]))

/-- Whether a component is an installation (energy_model_flow_diagram.py:131-132). -/
def isInstallation (c : Comp μ ι) : Bool :=
  match c with
  | .installation _ => true
  | _ => false

/-- The installations among components (energy_model_flow_diagram.py:127-133). -/
def installationsOf (g : Graph (Comp μ ι)) : List NodeID → Except Err (List NodeID)
  | [] => pure []
  | n :: ns => do
    let c ← g.getNode n
    let rest ← installationsOf g ns
    pure (if isInstallation c then n :: rest else rest)

/-- `get_energy_flow_diagram` (energy_model_flow_diagram.py:126-166). -/
def flowDiagram (k : Kinds μ ι) (g : Graph (Comp μ ι)) (p : Period) : Except Err Chart := do
  let installations ← installationsOf g g.graph.nodes
  let nodes ← installations.mapM fun n => node k g (subdiagram k g p g.graph.nodes.length) n true
  let edges := nodes.flatMap fun i => [⟨.fuel, i.1.id, .fuel⟩, ⟨i.1.id, .emission, .emission⟩]
  pure (.mk .area "Area" p ((fuelNode, none) :: nodes ++ [(emissionNode, none)]) edges [.fuel, .emission])

/-- The flow diagram of a file. -/
def ofFile (k : Kinds μ ι) (file : List (YInstallation μ ι)) (p : Period) : Except Err Chart := do
  let g ← (mapFile file).builder.build
  flowDiagram k g p

end Verif.Diagram
