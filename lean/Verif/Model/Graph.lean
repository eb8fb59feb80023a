import Verif.Model.Time

/-!
Model of the component graph.

* `src/libecalc/common/graph.py` (`Graph`)
* `src/libecalc/presentation/yaml/domain/energy_container_energy_model_builder.py`
* the parts of `networkx` these use: `DiGraph.add_node/add_edge`, `compose`, `topological_sort`, `dfs_tree`,
  `bfs_tree`. networkx is a third party package and not part of /repo; the three traversals are modelled after its
  published algorithms (Kahn's algorithm by generations, depth first search with a stack of child iterators, breadth
  first search level by level).

A `DiGraph` is an insertion ordered list of nodes and an insertion ordered list of edges; the adjacency dict of a node
is the list of edge ends with that start. Edge and node attributes are not used by the code and left out. The order of
`predecessors` after `compose` may differ from networkx; only its length and (when it is one) its element are used.
-/

namespace Verif.GraphModel

open Verif.Time

/-- `NodeID = str | UUID` (graph.py:8). -/
inductive NodeID where
  | str (s : String)
  | uuid (n : Nat)
  deriving DecidableEq, Repr

/-- `networkx.DiGraph` without attributes. -/
structure Digraph (α : Type) where
  nodes : List α
  edges : List (α × α)
  deriving DecidableEq, Repr

namespace Digraph

variable {α : Type} [DecidableEq α]

/-- `nx.DiGraph()`. -/
def empty : Digraph α := ⟨[], []⟩

/-- `DiGraph.add_node`: adding a node twice changes nothing. -/
def addNode (g : Digraph α) (n : α) : Digraph α :=
  if n ∈ g.nodes then g else { g with nodes := g.nodes ++ [n] }

/-- `DiGraph.add_edge`: adds missing ends, an edge added twice changes nothing. -/
def addEdge (g : Digraph α) (e : α × α) : Digraph α :=
  let g := (g.addNode e.1).addNode e.2
  if e ∈ g.edges then g else { g with edges := g.edges ++ [e] }

/-- `nx.compose(G, H)`: the nodes and edges of `G`, then those of `H`. -/
def compose (g h : Digraph α) : Digraph α :=
  h.edges.foldl addEdge (h.nodes.foldl addNode g)

/-- `G.successors(n)` (for a node of the graph). -/
def succs (g : Digraph α) (n : α) : List α := (g.edges.filter fun e => decide (e.1 = n)).map (·.2)

/-- `G.predecessors(n)` (for a node of the graph). -/
def preds (g : Digraph α) (n : α) : List α := (g.edges.filter fun e => decide (e.2 = n)).map (·.1)

/-- One child in the inner loop of `nx.topological_generations`: decrease its in-degree, and move it to the next
generation when it drops to 0. A child missing from `indegree_map` is an error ("Graph changed during iteration"). -/
def childStep (st : List (α × Nat) × List α) (child : α) : Except Err (List (α × Nat) × List α) :=
  match st.1.lookup child with
  | none => .error .networkx
  | some d =>
    if d - 1 = 0 then .ok (st.1.filter (fun p => decide (p.1 ≠ child)), st.2 ++ [child])
    else .ok (dictSet child (d - 1) st.1, st.2)

/-- One node of a generation. -/
def nodeStep (g : Digraph α) (st : List (α × Nat) × List α) (n : α) : Except Err (List (α × Nat) × List α) :=
  (g.succs n).foldlM childStep st

/-- The `while zero_indegree` loop of `nx.topological_generations` followed by the cycle check; `fuel` bounds the number
of generations. -/
def topoLoop (g : Digraph α) : Nat → List (α × Nat) → List α → Except Err (List α)
  | 0, m, z => if z = [] ∧ m = [] then .ok [] else .error .unfeasible
  | fuel + 1, m, z =>
    if z = [] then (if m = [] then .ok [] else .error .unfeasible)
    else do
      let st ← z.foldlM (nodeStep g) (m, [])
      let rest ← topoLoop g fuel st.1 st.2
      return z ++ rest

/-- `indegree_map = {v: d for v, d in G.in_degree() if d > 0}`. -/
def inDegrees (g : Digraph α) : List (α × Nat) :=
  (g.nodes.map fun v => (v, (g.preds v).length)).filter fun p => decide (0 < p.2)

/-- `list(nx.topological_sort(G))`; a cycle raises `NetworkXUnfeasible`. -/
def topologicalSort (g : Digraph α) : Except Err (List α) :=
  topoLoop g (g.nodes.length + 1) g.inDegrees (g.nodes.filter fun v => decide ((g.preds v).length = 0))

/-- `nx.is_directed_acyclic_graph`: does the topological sort succeed. -/
def isAcyclic (g : Digraph α) : Bool :=
  match g.topologicalSort with
  | .ok _ => true
  | .error _ => false

/-- The loop of `nx.dfs_edges` with its stack of child iterators; `seen` lists the visited nodes in the order of
discovery. `fuel` bounds the number of loop steps. -/
def dfsLoop (g : Digraph α) : Nat → List (List α) → List α → List α
  | 0, _, seen => seen
  | _ + 1, [], seen => seen
  | fuel + 1, [] :: stack, seen => dfsLoop g fuel stack seen
  | fuel + 1, (c :: cs) :: stack, seen =>
    if c ∈ seen then dfsLoop g fuel (cs :: stack) seen
    else dfsLoop g fuel (g.succs c :: cs :: stack) (seen ++ [c])

/-- `nx.dfs_tree(G, source).nodes()`; each edge is looked at once, and each node's iterator ends once. -/
def dfsNodes (g : Digraph α) (source : α) : List α :=
  dfsLoop g (g.edges.length + g.nodes.length + 1) [g.succs source] [source]

/-- One child in `nx.bfs_edges`: `seen` and the next level. -/
def bfsChild (st : List α × List α) (child : α) : List α × List α :=
  if child ∈ st.1 then st else (st.1 ++ [child], st.2 ++ [child])

/-- All children of one parent. -/
def bfsParent (g : Digraph α) (st : List α × List α) (parent : α) : List α × List α :=
  (g.succs parent).foldl bfsChild st

/-- The levels of `nx.bfs_edges`. -/
def bfsLoop (g : Digraph α) : Nat → List α → List α → List α
  | 0, seen, _ => seen
  | fuel + 1, seen, level =>
    if level = [] then seen
    else
      let st := level.foldl (bfsParent g) (seen, [])
      bfsLoop g fuel st.1 st.2

/-- `list(nx.bfs_tree(G, source))`; the depth limit is the number of nodes. -/
def bfsNodes (g : Digraph α) (source : α) : List α := bfsLoop g g.nodes.length [source] [source]

end Digraph

/-- `class Graph` (graph.py:19-22): the networkx graph and the dict of node objects. -/
structure Graph (β : Type) where
  graph : Digraph NodeID
  nodes : List (NodeID × β)
  deriving Repr

namespace Graph

variable {β : Type}

/-- `Graph()` (graph.py:20-22). -/
def empty : Graph β := ⟨Digraph.empty, []⟩

/-- `Graph.add_node` (graph.py:29-32); `id` is `_get_node_id(node)` (graph.py:24-27). -/
def addNode (g : Graph β) (id : NodeID) (node : β) : Graph β :=
  ⟨g.graph.addNode id, dictSet id node g.nodes⟩

/-- `Graph.add_edge` (graph.py:34-39). -/
def addEdge (g : Graph β) (source target : NodeID) : Except Err (Graph β) :=
  if source ∉ g.nodes.map (·.1) ∨ target ∉ g.nodes.map (·.1) then .error .valueError
  else .ok { g with graph := g.graph.addEdge (source, target) }

/-- `Graph.add_subgraph` (graph.py:41-44). -/
def addSubgraph (g s : Graph β) : Graph β :=
  ⟨g.graph.compose s.graph, s.nodes.foldl (fun acc kv => dictSet kv.1 kv.2 acc) g.nodes⟩

/-- `Graph.get_successors` (graph.py:46-54); an unknown node is a networkx error (or `KeyError`). -/
def getSuccessors (g : Graph β) (n : NodeID) (recursively : Bool) : Except Err (List NodeID) :=
  if n ∉ g.graph.nodes then .error .networkx
  else if recursively then .ok ((g.graph.dfsNodes n).filter fun m => decide (m ≠ n))
  else .ok (g.graph.succs n)

/-- `', '.join(ids)` (graph.py:61): a `TypeError` unless every id is a string. -/
def joinIds (ids : List NodeID) : Except Err Unit :=
  if ids.all (fun n => match n with | .str _ => true | .uuid _ => false) then .ok () else .error .typeError

/-- `Graph.get_predecessor` (graph.py:56-63). -/
def getPredecessor (g : Graph β) (n : NodeID) : Except Err NodeID :=
  if n ∉ g.graph.nodes then .error .networkx
  else
    let ps := g.graph.preds n
    if 1 < ps.length then do
      joinIds ps
      .error .valueError
    else match ps with
      | [] => .error .indexError
      | p :: _ => .ok p

/-- `Graph.sorted_node_ids` (graph.py:72-74). -/
def sortedNodeIds (g : Graph β) : Except Err (List NodeID) := g.graph.topologicalSort

/-- `Graph.root` (graph.py:65-67). -/
def root (g : Graph β) : Except Err NodeID := do
  match ← g.sortedNodeIds with
  | [] => .error .indexError
  | n :: _ => .ok n

/-- `Graph.get_node` (graph.py:69-70). -/
def getNode (g : Graph β) (n : NodeID) : Except Err β :=
  match g.nodes.lookup n with
  | none => .error .keyError
  | some b => .ok b

/-- `Graph.breadth_first_search_tree` (graph.py:76-87). -/
def breadthFirst (g : Graph β) (n : NodeID) : Except Err (List NodeID) :=
  if n ∉ g.graph.nodes then .error .networkx else .ok (g.graph.bfsNodes n)

end Graph

/-- `EnergyContainerEnergyModelBuilder` (energy_container_energy_model_builder.py:37-40). -/
structure Builder (β : Type) where
  nodes : List (NodeID × β)
  edges : List (NodeID × NodeID)

/-- `register_energy_container` (energy_container_energy_model_builder.py:42-47); an empty parent id counts as none. -/
def Builder.register {β : Type} (b : Builder β) (id : NodeID) (parent : Option NodeID) (c : β) : Builder β :=
  { nodes := dictSet id c b.nodes
    edges := match parent with
      | none => b.edges
      | some p => if p = .str "" then b.edges else b.edges ++ [(p, id)] }

/-- `build` (energy_container_energy_model_builder.py:49-60). -/
def Builder.build {β : Type} (b : Builder β) : Except Err (Graph β) :=
  b.edges.foldlM (fun g e => g.addEdge e.1 e.2) (b.nodes.foldl (fun g kv => g.addNode kv.1 kv.2) Graph.empty)

end Verif.GraphModel
