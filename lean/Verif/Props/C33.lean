import Verif.Lemmas.Graph

/-!
C33: the component graph answers queries about exactly the nodes and edges that were added.

`Built g N E` is the specification: `N` is the dictionary of added nodes and `E` the relation of added edges after some
history of `add_node`, `add_edge` and `add_subgraph`. The theorems relate the queries to `N` and `E` only.
-/

namespace Verif.C33

open Verif.Time Verif.GraphModel Verif.GraphLemmas

variable {β : Type}

/-- A history of insertions, with the dictionary of nodes and the edges it describes. -/
inductive Built : Graph β → (NodeID → Option β) → (NodeID → NodeID → Prop) → Prop where
  | empty : Built Graph.empty (fun _ => none) (fun _ _ => False)
  | node {g N E} (id : NodeID) (b : β) : Built g N E →
      Built (g.addNode id b) (fun x => if x = id then some b else N x) E
  | edge {g g' N E} (a b : NodeID) : Built g N E → g.addEdge a b = .ok g' →
      Built g' N (fun x y => E x y ∨ (x = a ∧ y = b))
  | sub {g s N N' E E'} : Built g N E → Built s N' E' →
      Built (g.addSubgraph s) (fun x => (N' x).or (N x)) (fun x y => E x y ∨ E' x y)

theorem lookup_foldl (kvs : List (NodeID × β)) (x : NodeID) : ∀ acc : List (NodeID × β), (kvs.map (·.1)).Nodup →
    (kvs.foldl (fun acc kv => dictSet kv.1 kv.2 acc) acc).lookup x = (kvs.lookup x).or (acc.lookup x) := by
  induction kvs with
  | nil => intro acc _; simp
  | cons kv kvs ih =>
    obtain ⟨k, b⟩ := kv
    intro acc hnd
    simp only [List.map_cons, List.nodup_cons] at hnd
    rw [List.foldl_cons, ih _ hnd.2, lookup_dictSet]
    by_cases h : x = k
    · subst h
      have : kvs.lookup x = none := by
        cases hl : kvs.lookup x with
        | none => rfl
        | some d => exact absurd ((lookup_isSome kvs x).1 (by simp [hl])) hnd.1
      simp [List.lookup, this]
    · have hb : (x == k) = false := by simp [h]
      simp [List.lookup, hb, h]

theorem keys_dictSet (k : NodeID) (v : β) (l : List (NodeID × β)) (h : (l.map (·.1)).Nodup) :
    ((dictSet k v l).map (·.1)).Nodup ∧ ∀ x, x ∈ (dictSet k v l).map (·.1) ↔ x = k ∨ x ∈ l.map (·.1) := by
  induction l with
  | nil => simp [dictSet]
  | cons p l ih =>
    obtain ⟨k', v'⟩ := p
    simp only [List.map_cons, List.nodup_cons] at h
    by_cases hk : k' = k
    · subst hk
      simp [dictSet, h.1, h.2]
    · obtain ⟨h1, h2⟩ := ih h.2
      simp only [dictSet, hk, if_false, List.map_cons, List.nodup_cons]
      refine ⟨⟨fun hm => ?_, h1⟩, ?_⟩
      · rcases (h2 k').1 hm with e | e
        · exact hk e
        · exact h.1 e
      · intro x
        rw [List.mem_cons, h2, List.mem_cons]
        tauto

theorem keys_foldl (kvs : List (NodeID × β)) : ∀ acc : List (NodeID × β), (acc.map (·.1)).Nodup →
    ((kvs.foldl (fun acc kv => dictSet kv.1 kv.2 acc) acc).map (·.1)).Nodup := by
  induction kvs with
  | nil => intro acc h; exact h
  | cons kv kvs ih => intro acc h; exact ih _ (keys_dictSet kv.1 kv.2 acc h).1

/-- What a history guarantees about the data structure. -/
theorem built_facts {g : Graph β} {N E} (h : Built g N E) :
    WF g.graph ∧ (g.nodes.map (·.1)).Nodup ∧ (∀ x, g.nodes.lookup x = N x) ∧
    (∀ x, x ∈ g.graph.nodes ↔ (N x).isSome = true) ∧ ∀ x y, (x, y) ∈ g.graph.edges ↔ E x y := by
  induction h with
  | empty => exact ⟨wf_empty, by simp [Graph.empty], by simp [Graph.empty],
      by simp [Graph.empty, Digraph.empty], by simp [Graph.empty, Digraph.empty]⟩
  | node id b _ ih =>
    obtain ⟨h1, h2, h3, h4, h5⟩ := ih
    refine ⟨wf_addNode h1 id, (keys_dictSet id b _ h2).1, ?_, ?_, ?_⟩
    · intro x; simp only [Graph.addNode, lookup_dictSet, h3]
    · intro x
      simp only [Graph.addNode, addNode_nodes, h4]
      by_cases hx : x = id <;> simp [hx]
    · intro x y; simp only [Graph.addNode, addNode_edges, h5]
  | edge a b _ he ih =>
    obtain ⟨h1, h2, h3, h4, h5⟩ := ih
    unfold Graph.addEdge at he
    split at he
    · simp at he
    · rename_i hk
      simp only [not_or, not_not] at hk
      simp only [Except.ok.injEq] at he
      subst he
      refine ⟨wf_addEdge h1 _, h2, h3, ?_, ?_⟩
      · intro x
        simp only [addEdge_nodes, h4]
        constructor
        · rintro (h | rfl | rfl)
          · exact h
          · rw [← h3]; exact (lookup_isSome _ _).2 hk.1
          · rw [← h3]; exact (lookup_isSome _ _).2 hk.2
        · exact Or.inl
      · intro x y
        simp only [addEdge_edges, h5, Prod.mk.injEq]
  | sub _ _ ih1 ih2 =>
    obtain ⟨h1, h2, h3, h4, h5⟩ := ih1
    obtain ⟨k1, k2, k3, k4, k5⟩ := ih2
    rename_i s N N' E E' _ _
    obtain ⟨c1, c2, c3⟩ := compose_facts h1 s.graph
    refine ⟨c1, keys_foldl _ _ h2, ?_, ?_, ?_⟩
    · intro x; simp only [Graph.addSubgraph, lookup_foldl _ _ _ k2, h3, k3]
    · intro x
      simp only [Graph.addSubgraph, c3, h4, k4]
      constructor
      · rintro (h | h | ⟨e, he, h⟩)
        · cases hN : N' x <;> simp [h]
        · simp [h]
        · have := k1.ends e he
          have hs : (N' x).isSome = true := by
            rcases h with rfl | rfl
            · exact (k4 _).1 this.1
            · exact (k4 _).1 this.2
          simp [hs]
      · intro h
        cases hN : N' x with
        | none => rw [hN] at h; exact .inl (by simpa using h)
        | some b => simp
    · intro x y; simp only [Graph.addSubgraph, c2, h5, k5]

theorem edge_eq {g : Graph β} {N E} (h : Built g N E) : Edge g.graph = E := by
  funext x y
  exact propext ((built_facts h).2.2.2.2 x y)

theorem known {g : Graph β} {N E} (h : Built g N E) {n : NodeID} (hn : (N n).isSome = true) : n ∈ g.graph.nodes :=
  ((built_facts h).2.2.2.1 n).2 hn

theorem unknown {g : Graph β} {N E} (h : Built g N E) {n : NodeID} (hn : N n = none) : n ∉ g.graph.nodes := by
  intro hm
  have := ((built_facts h).2.2.2.1 n).1 hm
  rw [hn] at this; simp at this

/-- Both ends of an added edge were added as nodes. -/
theorem edge_ends {g : Graph β} {N E} (h : Built g N E) {x y : NodeID} (he : E x y) :
    (N x).isSome = true ∧ (N y).isSome = true := by
  obtain ⟨h1, -, -, h4, h5⟩ := built_facts h
  have := h1.ends _ ((h5 x y).2 he)
  exact ⟨(h4 x).1 this.1, (h4 y).1 this.2⟩

/-- **C33.** Looking up a node gives the object last added under its id; unknown ids are an error. -/
theorem C33_get_node {g : Graph β} {N E} (h : Built g N E) (n : NodeID) :
    g.getNode n = match N n with | none => .error .keyError | some b => .ok b := by
  unfold Graph.getNode
  rw [(built_facts h).2.2.1 n]
  cases N n <;> rfl

/-- **C33.** An edge can be added exactly when both its ends have been added. -/
theorem C33_add_edge {g : Graph β} {N E} (h : Built g N E) (a b : NodeID) :
    (∃ g', g.addEdge a b = .ok g') ↔ (N a).isSome = true ∧ (N b).isSome = true := by
  obtain ⟨-, -, h3, -, -⟩ := built_facts h
  have hk : ∀ x, x ∈ g.nodes.map (·.1) ↔ (N x).isSome = true := by
    intro x; rw [← lookup_isSome, h3]
  unfold Graph.addEdge
  split
  · rename_i hc
    simp only [hk] at hc
    constructor
    · rintro ⟨g', hg⟩; simp at hg
    · rintro ⟨h1, h2⟩
      rcases hc with hc | hc
      · exact absurd h1 hc
      · exact absurd h2 hc
  · rename_i hc
    simp only [not_or, not_not, hk] at hc
    exact ⟨fun _ => hc, fun _ => ⟨_, rfl⟩⟩

/-- **C33.** The refusal to add an edge is a `ValueError`. -/
theorem C33_add_edge_error (g : Graph β) (a b : NodeID) (e : Err) (h : g.addEdge a b = .error e) : e = .valueError := by
  unfold Graph.addEdge at h
  split at h
  · simpa using h.symm
  · simp at h

/-- **C33.** The successors of a node are the ends of the edges added from it, each once. -/
theorem C33_successors {g : Graph β} {N E} (h : Built g N E) (n : NodeID) (hn : (N n).isSome = true) :
    ∃ l : List NodeID, g.getSuccessors n false = .ok l ∧ l.Nodup ∧ ∀ m, m ∈ l ↔ E n m := by
  refine ⟨g.graph.succs n, ?_, nodup_succs (built_facts h).1 n, ?_⟩
  · simp [Graph.getSuccessors, known h hn]
  · intro m; rw [mem_succs, (built_facts h).2.2.2.2]

/-- **C33.** A newly connected child comes after the children that were there before; the children of other nodes stay
as they were. -/
theorem C33_successor_order {g g' : Graph β} {N E} (h : Built g N E) (a b : NodeID) (he : g.addEdge a b = .ok g')
    (hnew : ¬ E a b) (n : NodeID) (l : List NodeID) (hl : g.getSuccessors n false = .ok l) :
    g'.getSuccessors n false = .ok (if n = a then l ++ [b] else l) := by
  have hb : Built g' N _ := .edge a b h he
  have hnn : (N n).isSome = true := by
    unfold Graph.getSuccessors at hl
    split at hl
    · simp at hl
    · rename_i hk
      exact ((built_facts h).2.2.2.1 n).1 (not_not.1 hk)
  have hl' : l = g.graph.succs n := by
    simp only [Graph.getSuccessors, not_not.2 (known h hnn), if_false, Bool.false_eq_true] at hl
    simpa using hl.symm
  have hg' : g'.graph = g.graph.addEdge (a, b) := by
    unfold Graph.addEdge at he
    split at he
    · simp at he
    · simp only [Except.ok.injEq] at he; rw [← he]
  simp only [Graph.getSuccessors, not_not.2 (known hb hnn), if_false, Bool.false_eq_true]
  have hnot : (a, b) ∉ g.graph.edges := fun hm => hnew (((built_facts h).2.2.2.2 a b).1 hm)
  rw [hg', hl']
  unfold Digraph.succs Digraph.addEdge
  simp only [addNode_edges, hnot, if_false, List.filter_append, List.map_append]
  by_cases hna : n = a
  · subst hna; simp
  · have : ¬ a = n := fun e => hna e.symm
    simp [hna, this]

/-- **C33.** The recursive successors of a node are the other nodes it leads to, each once. -/
theorem C33_all_successors {g : Graph β} {N E} (h : Built g N E) (n : NodeID) (hn : (N n).isSome = true) :
    ∃ l : List NodeID, g.getSuccessors n true = .ok l ∧ l.Nodup ∧
      ∀ m, m ∈ l ↔ m ≠ n ∧ Relation.TransGen E n m := by
  obtain ⟨more, e, hnd, hm⟩ := dfs (built_facts h).1 (known h hn)
  refine ⟨(g.graph.dfsNodes n).filter fun m => decide (m ≠ n), ?_, ?_, ?_⟩
  · simp [Graph.getSuccessors, known h hn]
  · rw [e]; exact hnd.filter _
  · intro m
    rw [List.mem_filter, e, hm, edge_eq h, decide_eq_true_eq, Relation.reflTransGen_iff_eq_or_transGen]
    constructor
    · rintro ⟨h1 | h1, h2⟩
      · exact absurd h1 h2
      · exact ⟨h2, h1⟩
    · rintro ⟨h1, h2⟩; exact ⟨.inr h2, h1⟩

/-- **C33.** Queries about ids that were never added are errors. -/
theorem C33_unknown {g : Graph β} {N E} (h : Built g N E) (n : NodeID) (hn : N n = none) (r : Bool) :
    g.getSuccessors n r = .error .networkx ∧ g.getPredecessor n = .error .networkx ∧
    g.breadthFirst n = .error .networkx := by
  have := unknown h hn
  refine ⟨?_, ?_, ?_⟩
  · simp [Graph.getSuccessors, this]
  · simp [Graph.getPredecessor, this]
  · simp [Graph.breadthFirst, this]

/-- **C33.** `get_predecessor` succeeds exactly when there is one predecessor, and returns it. -/
theorem C33_predecessor {g : Graph β} {N E} (h : Built g N E) (n p : NodeID) (hn : (N n).isSome = true) :
    g.getPredecessor n = .ok p ↔ E p n ∧ ∀ q, E q n → q = p := by
  have hnd := nodup_preds (built_facts h).1 n
  have hm : ∀ q, q ∈ g.graph.preds n ↔ E q n := by
    intro q; rw [mem_preds, (built_facts h).2.2.2.2]
  simp only [Graph.getPredecessor, not_not.2 (known h hn), if_false]
  generalize g.graph.preds n = ps at hnd hm
  match ps, hnd, hm with
  | [], _, hm =>
    simp only [List.length_nil, Nat.not_lt_zero, if_false, reduceCtorEq, false_iff, not_and]
    intro he
    simpa using (hm p).2 he
  | [q], _, hm =>
    simp only [List.length_singleton, Nat.lt_irrefl, if_false, Except.ok.injEq]
    constructor
    · rintro rfl
      refine ⟨(hm q).1 (by simp), fun r hr => by simpa using (hm r).2 hr⟩
    · rintro ⟨h1, h2⟩
      exact h2 q ((hm q).1 (by simp))
  | q :: r :: ps, hnd, hm =>
    have hlen : 1 < (q :: r :: ps).length := by simp
    simp only [hlen, if_true]
    constructor
    · intro hc
      simp only [Graph.joinIds, Bind.bind, Except.bind] at hc
      split at hc <;> simp at hc
    · rintro ⟨h1, h2⟩
      have h3 := h2 q ((hm q).1 (by simp))
      have h4 := h2 r ((hm r).1 (by simp))
      rw [List.nodup_cons] at hnd
      exact absurd (by simp [h3, h4]) hnd.1

/-- **C33.** Without a predecessor the query is an `IndexError`. -/
theorem C33_no_predecessor {g : Graph β} {N E} (h : Built g N E) (n : NodeID) (hn : (N n).isSome = true)
    (hno : ∀ q, ¬ E q n) : g.getPredecessor n = .error .indexError := by
  have hm : ∀ q, q ∈ g.graph.preds n ↔ E q n := by
    intro q; rw [mem_preds, (built_facts h).2.2.2.2]
  have : g.graph.preds n = [] := List.eq_nil_iff_forall_not_mem.2 fun q hq => hno q ((hm q).1 hq)
  simp [Graph.getPredecessor, known h hn, this]

/-- **C33.** With several predecessors the query is an error: the intended `ValueError` when all of them have string
ids, a `TypeError` from building the message when one of them is a UUID. -/
theorem C33_several_predecessors {g : Graph β} {N E} (h : Built g N E) (n p q : NodeID) (hpq : p ≠ q) (hp : E p n)
    (hq : E q n) :
    ((∀ r, E r n → ∃ s, r = .str s) → g.getPredecessor n = .error .valueError) ∧
    ((∃ u, E (.uuid u) n) → g.getPredecessor n = .error .typeError) := by
  have hm : ∀ q, q ∈ g.graph.preds n ↔ E q n := by
    intro q; rw [mem_preds, (built_facts h).2.2.2.2]
  have hn := known h (edge_ends h hp).2
  have hlen : 1 < (g.graph.preds n).length := by
    have hsub : [p, q] ⊆ g.graph.preds n := by
      intro x hx
      rcases List.mem_cons.1 hx with rfl | hx
      · exact (hm x).2 hp
      · simp only [List.mem_singleton] at hx; rw [hx]; exact (hm q).2 hq
    have := (List.subperm_of_subset (by simp [hpq]) hsub).length_le
    simp only [List.length_cons, List.length_nil] at this
    omega
  simp only [Graph.getPredecessor, not_not.2 hn, if_false, hlen, if_true]
  constructor
  · intro hs
    have : Graph.joinIds (g.graph.preds n) = .ok () := by
      unfold Graph.joinIds
      rw [if_pos]
      rw [List.all_eq_true]
      intro x hx
      obtain ⟨s, rfl⟩ := hs x ((hm x).1 hx)
      rfl
    rw [this]; rfl
  · rintro ⟨u, hu⟩
    have : Graph.joinIds (g.graph.preds n) = .error .typeError := by
      unfold Graph.joinIds
      rw [if_neg]
      rw [List.all_eq_true]
      intro hall
      have := hall _ ((hm _).2 hu)
      simp at this
    rw [this]; rfl

/-- **C33.** The node order lists every node once, and each edge leads forward; it exists unless the edges form a
cycle, in which case it is an error. -/
theorem C33_sorted {g : Graph β} {N E} (h : Built g N E) :
    (∃ l : List NodeID, g.sortedNodeIds = .ok l ∧ l.Nodup ∧ (∀ n, n ∈ l ↔ (N n).isSome = true) ∧
      (∀ l1 v l2, l = l1 ++ v :: l2 → ∀ p, E p v → p ∈ l1) ∧ ∀ x, ¬ Relation.TransGen E x x) ∨
    (g.sortedNodeIds = .error .unfeasible ∧ ∃ x, Relation.TransGen E x x) := by
  obtain ⟨hw, -, -, h4, h5⟩ := built_facts h
  unfold Graph.sortedNodeIds
  rcases topological hw with ⟨l, e, h1, h2, h3⟩ | ⟨e, x, -, hx⟩
  · rw [edge_eq h] at h3
    refine .inl ⟨l, e, h1, fun n => by rw [h2, h4], h3, ?_⟩
    intro x
    exact no_cycle h1 (fun a b hab => (h2 b).2 ((h4 b).2 (edge_ends h hab).2)) h3 x
  · rw [edge_eq h] at hx
    exact .inr ⟨e, x, hx⟩

/-- **C33.** In an acyclic graph with exactly one node without predecessor, the root is that node, and it leads to
every other node. -/
theorem C33_root {g : Graph β} {N E} (h : Built g N E) (hac : ∀ x, ¬ Relation.TransGen E x x) (r : NodeID)
    (hr : (N r).isSome = true) (hone : ∀ n, (N n).isSome = true → ((∀ q, ¬ E q n) ↔ n = r)) :
    g.root = .ok r ∧ ∀ n, (N n).isSome = true → Relation.ReflTransGen E r n := by
  rcases C33_sorted h with ⟨l, e, h1, h2, h3, -⟩ | ⟨-, x, hx⟩
  · refine ⟨?_, ?_⟩
    · unfold Graph.root
      rw [e]
      simp only [Bind.bind, Except.bind]
      cases l with
      | nil => simpa using (h2 r).2 hr
      | cons a l =>
        simp only [Except.ok.injEq]
        refine (hone a ((h2 a).1 (by simp))).1 ?_
        intro q hq
        simpa using h3 [] a l rfl q hq
    · -- induction along the order
      have key : ∀ k l1 v l2, l1.length = k → l = l1 ++ v :: l2 → Relation.ReflTransGen E r v := by
        intro k
        induction k using Nat.strong_induction_on with
        | _ k ih =>
          intro l1 v l2 hk hl
          by_cases hv : v = r
          · rw [hv]
          · have hn : (N v).isSome = true := (h2 v).1 (by rw [hl]; simp)
            have : ¬ ∀ q, ¬ E q v := fun hall => hv ((hone v hn).1 hall)
            simp only [not_forall, not_not] at this
            obtain ⟨q, hq⟩ := this
            have hq1 := h3 l1 v l2 hl q hq
            obtain ⟨a, b, rfl⟩ := List.append_of_mem hq1
            have := ih a.length (by simp at hk; omega) a q (b ++ v :: l2) rfl (by rw [hl]; simp)
            exact this.tail hq
      intro n hn
      obtain ⟨l1, l2, hl⟩ := List.append_of_mem ((h2 n).2 hn)
      exact key _ l1 n l2 rfl hl
  · exact absurd hx (hac x)

/-- **C33.** The breadth first listing holds exactly the nodes that can be reached, each once, and lists a node before
another only if it can be reached in at most as many steps. -/
theorem C33_breadth_first {g : Graph β} {N E} (h : Built g N E) (n : NodeID) (hn : (N n).isSome = true) :
    ∃ l : List NodeID, g.breadthFirst n = .ok l ∧ l.Nodup ∧ (∀ m, m ∈ l ↔ Relation.ReflTransGen E n m) ∧
      ∀ l1 x l2, l = l1 ++ x :: l2 → ∀ y ∈ l2, ∀ k, Walk E k n y → ∃ j ≤ k, Walk E j n x := by
  obtain ⟨h1, h2, h3⟩ := bfs (built_facts h).1 (known h hn)
  rw [edge_eq h] at h2 h3
  exact ⟨_, by simp [Graph.breadthFirst, known h hn], h1, h2, h3⟩

/-! ### The energy model builder -/

/-- One call of `register_energy_container`. -/
structure Registration (β : Type) where
  id : NodeID
  parent : Option NodeID
  container : β

/-- The last container registered under an id. -/
def registered (rs : List (Registration β)) (x : NodeID) : Option β :=
  (rs.reverse.find? fun r => decide (r.id = x)).map (·.container)

/-- Some registration names `p` as the (non-empty) parent of `c`. -/
def ParentOf (rs : List (Registration β)) (p c : NodeID) : Prop :=
  p ≠ .str "" ∧ ∃ r ∈ rs, r.id = c ∧ r.parent = some p

def builder (rs : List (Registration β)) : Builder β :=
  rs.foldl (fun b r => b.register r.id r.parent r.container) ⟨[], []⟩

theorem builder_facts (rs : List (Registration β)) :
    ((builder rs).nodes.map (·.1)).Nodup ∧ (∀ x, (builder rs).nodes.lookup x = registered rs x) ∧
    ∀ p c, (p, c) ∈ (builder rs).edges ↔ ParentOf rs p c := by
  induction rs using List.reverseRecOn with
  | nil => simp [builder, registered, ParentOf]
  | append_singleton rs r ih =>
    obtain ⟨h1, h2, h3⟩ := ih
    have hb : builder (rs ++ [r]) = (builder rs).register r.id r.parent r.container := by
      simp [builder]
    rw [hb]
    refine ⟨(keys_dictSet _ _ _ h1).1, ?_, ?_⟩
    · intro x
      simp only [Builder.register, lookup_dictSet, h2, registered, List.reverse_append, List.reverse_singleton,
        List.singleton_append]
      by_cases hx : x = r.id
      · subst hx; simp
      · have : ¬ r.id = x := fun e => hx e.symm
        simp [hx, this]
    · intro p c
      unfold Builder.register ParentOf
      simp only
      cases hp : r.parent with
      | none =>
        simp only [h3, ParentOf, List.mem_append, List.mem_singleton]
        constructor
        · rintro ⟨a, q, hq, b⟩; exact ⟨a, q, .inl hq, b⟩
        · rintro ⟨a, q, hq | rfl, b⟩
          · exact ⟨a, q, hq, b⟩
          · rw [hp] at b; simp at b
      | some p' =>
        simp only
        split
        · rename_i he
          simp only [h3, ParentOf, List.mem_append, List.mem_singleton]
          constructor
          · rintro ⟨a, q, hq, b⟩; exact ⟨a, q, .inl hq, b⟩
          · rintro ⟨a, q, hq | rfl, b⟩
            · exact ⟨a, q, hq, b⟩
            · rw [hp] at b
              simp only [Option.some.injEq] at b
              exact absurd (b.2 ▸ he) a
        · rename_i hne
          simp only [List.mem_append, List.mem_singleton, h3, ParentOf, Prod.mk.injEq]
          constructor
          · rintro (⟨a, q, hq, b⟩ | ⟨rfl, rfl⟩)
            · exact ⟨a, q, .inl hq, b⟩
            · exact ⟨hne, r, .inr rfl, rfl, hp⟩
          · rintro ⟨a, q, hq | rfl, b⟩
            · exact .inl ⟨a, q, hq, b⟩
            · rw [hp] at b
              simp only [Option.some.injEq] at b
              exact .inr ⟨b.2.symm, b.1.symm⟩

theorem build_nodes (kvs : List (NodeID × β)) : (kvs.map (·.1)).Nodup →
    Built (kvs.foldl (fun g kv => g.addNode kv.1 kv.2) Graph.empty) (fun x => kvs.lookup x) (fun _ _ => False) := by
  have key : ∀ (kvs : List (NodeID × β)) (g : Graph β) (N : NodeID → Option β), (kvs.map (·.1)).Nodup →
      Built g N (fun _ _ => False) →
      Built (kvs.foldl (fun g kv => g.addNode kv.1 kv.2) g) (fun x => (kvs.lookup x).or (N x)) (fun _ _ => False) := by
    intro kvs
    induction kvs with
    | nil => intro g N _ h; simpa using h
    | cons kv kvs ih =>
      intro g N hnd h
      obtain ⟨k, b⟩ := kv
      simp only [List.map_cons, List.nodup_cons] at hnd
      have := ih _ _ hnd.2 (.node k b h)
      rw [List.foldl_cons]
      convert this using 1
      funext x
      by_cases hx : x = k
      · subst hx
        have : kvs.lookup x = none := by
          cases hl : kvs.lookup x with
          | none => rfl
          | some d => exact absurd ((lookup_isSome kvs x).1 (by simp [hl])) hnd.1
        simp [List.lookup, this]
      · have hb : (x == k) = false := by simp [hx]
        simp [List.lookup, hb, hx]
  intro hnd
  have := key kvs Graph.empty (fun _ => none) hnd .empty
  simpa using this

theorem build_edges (es : List (NodeID × NodeID)) : ∀ (g : Graph β) (N : NodeID → Option β) (E : NodeID → NodeID → Prop),
    Built g N E →
    ((∀ e ∈ es, (N e.1).isSome = true ∧ (N e.2).isSome = true) →
      ∃ g', es.foldlM (fun g e => Graph.addEdge g e.1 e.2) g = .ok g' ∧
        Built g' N (fun x y => E x y ∨ (x, y) ∈ es)) ∧
    ((¬ ∀ e ∈ es, (N e.1).isSome = true ∧ (N e.2).isSome = true) →
      es.foldlM (fun g e => Graph.addEdge g e.1 e.2) g = .error .valueError) := by
  induction es with
  | nil =>
    intro g N E h
    refine ⟨fun _ => ⟨g, rfl, by simpa using h⟩, fun hc => absurd (by simp) hc⟩
  | cons e es ih =>
    intro g N E h
    rw [List.foldlM_cons]
    by_cases he : (N e.1).isSome = true ∧ (N e.2).isSome = true
    · obtain ⟨g1, hg1⟩ := (C33_add_edge h e.1 e.2).2 he
      rw [hg1]
      obtain ⟨i1, i2⟩ := ih g1 N _ (.edge e.1 e.2 h hg1)
      refine ⟨?_, ?_⟩
      · intro hall
        obtain ⟨g', e1, e2⟩ := i1 (fun e' h' => hall e' (by simp [h']))
        refine ⟨g', e1, ?_⟩
        convert e2 using 1
        funext x y
        obtain ⟨a, b⟩ := e
        simp only [List.mem_cons, Prod.mk.injEq, or_assoc]
      · intro hno
        refine i2 fun hall => hno ?_
        intro e' h'
        rcases List.mem_cons.1 h' with rfl | h'
        · exact he
        · exact hall e' h'
    · refine ⟨fun hall => absurd (hall e (by simp)) he, fun _ => ?_⟩
      cases hg : g.addEdge e.1 e.2 with
      | ok g1 => exact absurd ((C33_add_edge h e.1 e.2).1 ⟨g1, hg⟩) he
      | error er => rw [C33_add_edge_error g e.1 e.2 er hg]; rfl

/-- **C33.** Building the energy model from any sequence of registrations succeeds exactly when every parent named has
been registered itself (in any order); the graph then holds the last container registered under each id and the parent
relation, so that all other theorems apply to it. -/
theorem C33_builder (rs : List (Registration β)) :
    ((∀ p c, ParentOf rs p c → (registered rs p).isSome = true) →
      ∃ g, (builder rs).build = .ok g ∧ Built g (registered rs) (ParentOf rs)) ∧
    ((∃ p c, ParentOf rs p c ∧ registered rs p = none) → (builder rs).build = .error .valueError) := by
  obtain ⟨h1, h2, h3⟩ := builder_facts rs
  have hN : (fun x => (builder rs).nodes.lookup x) = registered rs := funext h2
  have hb := build_nodes (builder rs).nodes h1
  rw [hN] at hb
  obtain ⟨i1, i2⟩ := build_edges (builder rs).edges _ _ _ hb
  have hchild : ∀ p c, ParentOf rs p c → (registered rs c).isSome = true := by
    rintro p c ⟨-, r, hr, rfl, -⟩
    simp only [registered, Option.isSome_map, List.find?_isSome]
    exact ⟨r, by simpa using hr, by simp⟩
  refine ⟨?_, ?_⟩
  · intro hall
    obtain ⟨g, e, hg⟩ := i1 (by
      rintro ⟨p, c⟩ he
      have := (h3 p c).1 he
      exact ⟨hall p c this, hchild p c this⟩)
    refine ⟨g, e, ?_⟩
    convert hg using 1
    funext x y
    simp [h3]
  · rintro ⟨p, c, hp, hn⟩
    refine i2 fun hall => ?_
    have := (hall (p, c) ((h3 p c).2 hp)).1
    rw [hn] at this
    simp at this

/-! ### Non-vacuity -/

/-- A diamond with a tail. -/
def sample : Except Err (Graph Nat) := do
  let g := ([1, 2, 3, 4, 5].foldl (fun g n => g.addNode (.uuid n) n) Graph.empty : Graph Nat)
  let g ← g.addEdge (.uuid 1) (.uuid 2)
  let g ← g.addEdge (.uuid 1) (.uuid 3)
  let g ← g.addEdge (.uuid 3) (.uuid 4)
  let g ← g.addEdge (.uuid 2) (.uuid 4)
  g.addEdge (.uuid 4) (.uuid 5)

example : (do (← sample).sortedNodeIds) = .ok [.uuid 1, .uuid 2, .uuid 3, .uuid 4, .uuid 5] := by decide +kernel
example : (do (← sample).getSuccessors (.uuid 1) true) = .ok [.uuid 2, .uuid 4, .uuid 5, .uuid 3] := by decide +kernel
example : (do (← sample).breadthFirst (.uuid 1)) = .ok [.uuid 1, .uuid 2, .uuid 3, .uuid 4, .uuid 5] := by
  decide +kernel
example : (do (← sample).getPredecessor (.uuid 4)) = .error .typeError := by decide +kernel
example : (do (← sample).getPredecessor (.uuid 5)) = .ok (.uuid 4) := by decide +kernel
example : (do (← sample).root) = .ok (.uuid 1) := by decide +kernel
example : (do (← (← sample).addEdge (.uuid 5) (.uuid 2)).sortedNodeIds) = .error .unfeasible := by decide +kernel

/-- A history with all four kinds of insertion. -/
example : ∃ (g : Graph Nat) (N : _) (E : _), Built g N E ∧ (N (.str "a")).isSome = true ∧
    E (.str "a") (.str "b") ∧ ¬ E (.str "b") (.str "a") := by
  obtain ⟨g', hg'⟩ := (C33_add_edge (.node (.str "b") 2 (.node (.str "a") 1 .empty) : Built (β := Nat) _ _ _)
    (.str "a") (.str "b")).2 (by decide)
  exact ⟨_, _, _, .sub (.edge _ _ (.node (.str "b") 2 (.node (.str "a") 1 .empty)) hg') (.node (.str "c") 3 .empty),
    by decide, .inl (.inr ⟨rfl, rfl⟩), by simp⟩

example : ((do (← (builder [⟨.str "asset", none, 1⟩, ⟨.str "inst", some (.str "asset"), 2⟩,
    ⟨.str "genset", some (.str "inst"), 3⟩]).build).getPredecessor (.str "genset")) : Except Err NodeID) =
    .ok (.str "inst") := by decide +kernel

end Verif.C33
