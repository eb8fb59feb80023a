import Verif.Model.Graph
import Mathlib.Data.List.Basic
import Mathlib.Data.List.Nodup
import Mathlib.Logic.Relation
import Mathlib.Data.Set.Finite.List
import Mathlib.Order.WellFounded

/-! Helper lemmas about the digraph model. -/

namespace Verif.GraphLemmas

open Verif.Time Verif.GraphModel Verif.GraphModel.Digraph

variable {α : Type} [DecidableEq α]

/-- Nodes and edges are listed once, and edges connect listed nodes. -/
structure WF (g : Digraph α) : Prop where
  nodes : g.nodes.Nodup
  edges : g.edges.Nodup
  ends : ∀ e ∈ g.edges, e.1 ∈ g.nodes ∧ e.2 ∈ g.nodes

theorem mem_succs (g : Digraph α) (a b : α) : b ∈ g.succs a ↔ (a, b) ∈ g.edges := by
  simp only [succs, List.mem_map, List.mem_filter, decide_eq_true_eq]
  constructor
  · rintro ⟨⟨x, y⟩, ⟨h, rfl⟩, rfl⟩; exact h
  · intro h; exact ⟨(a, b), ⟨h, rfl⟩, rfl⟩

theorem mem_preds (g : Digraph α) (a b : α) : a ∈ g.preds b ↔ (a, b) ∈ g.edges := by
  simp only [preds, List.mem_map, List.mem_filter, decide_eq_true_eq]
  constructor
  · rintro ⟨⟨x, y⟩, ⟨h, rfl⟩, rfl⟩; exact h
  · intro h; exact ⟨(a, b), ⟨h, rfl⟩, rfl⟩

theorem nodup_succs {g : Digraph α} (h : WF g) (a : α) : (g.succs a).Nodup := by
  refine List.Nodup.map_on ?_ (h.edges.filter _)
  rintro ⟨x, y⟩ hx ⟨x', y'⟩ hy hxy
  simp only [List.mem_filter, decide_eq_true_eq] at hx hy
  simp only at hxy
  simp [hx.2, hy.2, hxy]

theorem nodup_preds {g : Digraph α} (h : WF g) (a : α) : (g.preds a).Nodup := by
  refine List.Nodup.map_on ?_ (h.edges.filter _)
  rintro ⟨x, y⟩ hx ⟨x', y'⟩ hy hxy
  simp only [List.mem_filter, decide_eq_true_eq] at hx hy
  simp only at hxy
  simp [hx.2, hy.2, hxy]

omit [DecidableEq α] in
theorem wf_empty : WF (Digraph.empty : Digraph α) := ⟨by simp [empty], by simp [empty], by simp [empty]⟩

theorem addNode_nodes (g : Digraph α) (n x : α) : x ∈ (g.addNode n).nodes ↔ x ∈ g.nodes ∨ x = n := by
  unfold addNode
  split
  · constructor
    · exact Or.inl
    · rintro (h | rfl) <;> assumption
  · simp

theorem addNode_edges (g : Digraph α) (n : α) : (g.addNode n).edges = g.edges := by
  unfold addNode; split <;> rfl

theorem wf_addNode {g : Digraph α} (h : WF g) (n : α) : WF (g.addNode n) := by
  refine ⟨?_, by rw [addNode_edges]; exact h.edges, ?_⟩
  · unfold addNode
    split
    · exact h.nodes
    · rename_i hn
      simp only [List.nodup_append, h.nodes, true_and]
      refine ⟨by simp, ?_⟩
      intro a ha b hb
      simp only [List.mem_singleton] at hb
      subst hb
      intro e; subst e; exact hn ha
  · intro e he
    rw [addNode_edges] at he
    have := h.ends e he
    exact ⟨(addNode_nodes _ _ _).2 (.inl this.1), (addNode_nodes _ _ _).2 (.inl this.2)⟩

theorem addEdge_nodes (g : Digraph α) (e : α × α) (x : α) :
    x ∈ (g.addEdge e).nodes ↔ x ∈ g.nodes ∨ x = e.1 ∨ x = e.2 := by
  unfold addEdge
  simp only
  split <;> simp only [addNode_nodes, or_assoc]

theorem addEdge_edges (g : Digraph α) (e x : α × α) : x ∈ (g.addEdge e).edges ↔ x ∈ g.edges ∨ x = e := by
  unfold addEdge
  simp only [addNode_edges]
  split
  · simp only [addNode_edges]
    constructor
    · exact Or.inl
    · rintro (h | rfl) <;> assumption
  · simp

theorem wf_addEdge {g : Digraph α} (h : WF g) (e : α × α) : WF (g.addEdge e) := by
  have h2 := wf_addNode (wf_addNode h e.1) e.2
  refine ⟨?_, ?_, ?_⟩
  · unfold addEdge; simp only; split <;> exact h2.nodes
  · unfold addEdge
    simp only [addNode_edges]
    split
    · simp only [addNode_edges]; exact h.edges
    · rename_i hn
      simp only [List.nodup_append, h.edges, true_and]
      refine ⟨by simp, ?_⟩
      intro a ha b hb
      simp only [List.mem_singleton] at hb
      subst hb
      intro e; subst e; exact hn ha
  · intro x hx
    rw [addEdge_edges] at hx
    simp only [addEdge_nodes]
    rcases hx with hx | rfl
    · have := h.ends x hx
      exact ⟨.inl this.1, .inl this.2⟩
    · simp

theorem compose_facts {g : Digraph α} (h : WF g) (s : Digraph α) :
    WF (g.compose s) ∧ (∀ x, x ∈ (g.compose s).edges ↔ x ∈ g.edges ∨ x ∈ s.edges) ∧
    ∀ x, x ∈ (g.compose s).nodes ↔ x ∈ g.nodes ∨ x ∈ s.nodes ∨ ∃ e ∈ s.edges, x = e.1 ∨ x = e.2 := by
  have hn : ∀ (ns : List α) (g : Digraph α), WF g → WF (ns.foldl addNode g) ∧
      (ns.foldl addNode g).edges = g.edges ∧ ∀ x, x ∈ (ns.foldl addNode g).nodes ↔ x ∈ g.nodes ∨ x ∈ ns := by
    intro ns
    induction ns with
    | nil => intro g hg; exact ⟨hg, rfl, by simp⟩
    | cons n ns ih =>
      intro g hg
      obtain ⟨a, b, c⟩ := ih (g.addNode n) (wf_addNode hg n)
      refine ⟨a, by rw [List.foldl_cons, b, addNode_edges], ?_⟩
      intro x
      rw [List.foldl_cons, c, addNode_nodes, List.mem_cons, or_assoc]
  have he : ∀ (es : List (α × α)) (g : Digraph α), WF g → WF (es.foldl addEdge g) ∧
      (∀ x, x ∈ (es.foldl addEdge g).edges ↔ x ∈ g.edges ∨ x ∈ es) ∧
      ∀ x, x ∈ (es.foldl addEdge g).nodes ↔ x ∈ g.nodes ∨ ∃ e ∈ es, x = e.1 ∨ x = e.2 := by
    intro es
    induction es with
    | nil => intro g hg; exact ⟨hg, by simp, by simp⟩
    | cons e es ih =>
      intro g hg
      obtain ⟨a, b, c⟩ := ih (g.addEdge e) (wf_addEdge hg e)
      refine ⟨a, ?_, ?_⟩
      · intro x
        rw [List.foldl_cons, b, addEdge_edges, List.mem_cons, or_assoc]
      · intro x
        rw [List.foldl_cons, c, addEdge_nodes]
        simp only [List.mem_cons, exists_eq_or_imp, or_assoc]
  obtain ⟨a, b, c⟩ := hn s.nodes g h
  obtain ⟨a', b', c'⟩ := he s.edges _ a
  refine ⟨a', ?_, ?_⟩
  · intro x; unfold compose; rw [b', b]
  · intro x; unfold compose; rw [c', c, or_assoc]

theorem lookup_dictSet {κ β : Type} [DecidableEq κ] (k x : κ) (v : β) (l : List (κ × β)) :
    (dictSet k v l).lookup x = if x = k then some v else l.lookup x := by
  induction l with
  | nil =>
    by_cases h : x = k
    · simp [dictSet, h]
    · have hb : (x == k) = false := by simp [h]
      simp [dictSet, List.lookup, h, hb]
  | cons p l ih =>
    obtain ⟨k', v'⟩ := p
    by_cases hk : k' = k
    · subst hk
      by_cases h : x = k'
      · subst h; simp [dictSet]
      · have : (x == k') = false := by simp [h]
        simp [dictSet, List.lookup, h, this]
    · simp only [dictSet, hk, if_false]
      by_cases h : x = k'
      · subst h; simp [List.lookup, hk]
      · have hb : (x == k') = false := by simp [h]
        simp only [List.lookup, hb]; exact ih

theorem lookup_filter_ne {β : Type} (k x : α) (l : List (α × β)) :
    (l.filter (fun p => decide (p.1 ≠ k))).lookup x = if x = k then none else l.lookup x := by
  induction l with
  | nil => by_cases h : x = k <;> simp [h]
  | cons p l ih =>
    obtain ⟨k', v'⟩ := p
    by_cases hk : k' = k
    · subst hk
      by_cases h : x = k'
      · subst h; simp only [ne_eq, not_true_eq_false, decide_false, Bool.false_eq_true, not_false_eq_true,
          List.filter_cons_of_neg]; rw [ih]; simp
      · have hb : (x == k') = false := by simp [h]
        simp only [ne_eq, not_true_eq_false, decide_false, Bool.false_eq_true, not_false_eq_true,
          List.filter_cons_of_neg, List.lookup, hb]; rw [ih]
    · rw [List.filter_cons_of_pos (by simp [hk])]
      by_cases h : x = k'
      · subst h; simp [List.lookup, hk]
      · have hb : (x == k') = false := by simp [h]
        simp only [List.lookup, hb]; exact ih

/-- The children of one node: each loses one, those that reach 0 move on. -/
theorem child_fold (cs : List α) : ∀ (m : List (α × Nat)) (z : List α), cs.Nodup →
    (∀ c ∈ cs, ∃ d, m.lookup c = some d ∧ 0 < d) →
    ∃ m', cs.foldlM childStep (m, z) = .ok (m', z ++ cs.filter fun c => decide (m.lookup c = some 1)) ∧
      ∀ v, m'.lookup v =
        (m.lookup v).bind fun d => if v ∈ cs then (if d = 1 then none else some (d - 1)) else some d := by
  induction cs with
  | nil =>
    intro m z _ _
    refine ⟨m, by simp [pure, Except.pure], ?_⟩
    intro v
    cases m.lookup v <;> simp
  | cons c cs ih =>
    intro m z hnd hpos
    obtain ⟨d, hd, hd0⟩ := hpos c (by simp)
    have hc : c ∉ cs := (List.nodup_cons.1 hnd).1
    have hnd' := (List.nodup_cons.1 hnd).2
    simp only [List.foldlM_cons]
    by_cases h1 : d = 1
    · subst h1
      have hstep : childStep (m, z) c = .ok (m.filter (fun p => decide (p.1 ≠ c)), z ++ [c]) := by
        simp [childStep, hd]
      rw [hstep]
      obtain ⟨m', e, hm'⟩ := ih (m.filter (fun p => decide (p.1 ≠ c))) (z ++ [c]) hnd' (by
        intro x hx
        have hxc : x ≠ c := fun h => hc (h ▸ hx)
        rw [lookup_filter_ne, if_neg hxc]
        exact hpos x (by simp [hx]))
      refine ⟨m', ?_, ?_⟩
      · show cs.foldlM childStep _ = _
        rw [e]
        have : cs.filter (fun x => decide ((m.filter (fun p => decide (p.1 ≠ c))).lookup x = some 1)) =
            cs.filter (fun x => decide (m.lookup x = some 1)) := by
          apply List.filter_congr
          intro x hx
          have hxc : x ≠ c := fun h => hc (h ▸ hx)
          rw [lookup_filter_ne, if_neg hxc]
        rw [this]
        simp [hd]
      · intro v
        rw [hm' v, lookup_filter_ne]
        by_cases hv : v = c
        · subst hv; simp [hd]
        · simp [hv]
    · have hstep : childStep (m, z) c = .ok (dictSet c (d - 1) m, z) := by
        have : d - 1 ≠ 0 := by omega
        simp [childStep, hd, this]
      rw [hstep]
      obtain ⟨m', e, hm'⟩ := ih (dictSet c (d - 1) m) z hnd' (by
        intro x hx
        have hxc : x ≠ c := fun h => hc (h ▸ hx)
        rw [lookup_dictSet, if_neg hxc]
        exact hpos x (by simp [hx]))
      refine ⟨m', ?_, ?_⟩
      · show cs.foldlM childStep _ = _
        rw [e]
        have : cs.filter (fun x => decide ((dictSet c (d - 1) m).lookup x = some 1)) =
            cs.filter (fun x => decide (m.lookup x = some 1)) := by
          apply List.filter_congr
          intro x hx
          have hxc : x ≠ c := fun h => hc (h ▸ hx)
          rw [lookup_dictSet, if_neg hxc]
        rw [this]
        simp [hd, h1]
      · intro v
        rw [hm' v, lookup_dictSet]
        by_cases hv : v = c
        · subst hv; simp [hd, h1, hc]
        · simp [hv]

/-- Number of predecessors not yet output. -/
def waiting (g : Digraph α) (done : List α) (v : α) : Nat := (g.preds v).countP fun p => decide (p ∉ done)

theorem waiting_add {g : Digraph α} (hg : WF g) (done : List α) (n v : α) (hn : n ∉ done) :
    waiting g (done ++ [n]) v + (if n ∈ g.preds v then 1 else 0) = waiting g done v := by
  unfold waiting
  have hnd := nodup_preds hg v
  generalize g.preds v = l at hnd
  induction l with
  | nil => simp
  | cons x l ih =>
    have ih := ih (List.nodup_cons.1 hnd).2
    have hx := (List.nodup_cons.1 hnd).1
    simp only [List.countP_cons]
    by_cases hxn : x = n
    · subst hxn
      simp only [hx, if_false, Nat.add_zero] at ih
      simp [hn]
      simpa using ih
    · have hxn' : n ≠ x := fun h => hxn h.symm
      have hd : decide (x ∉ done ++ [n]) = decide (x ∉ done) := by simp [hxn]
      rw [hd]
      simp only [List.mem_cons, hxn', false_or]
      omega

/-- The state of Kahn's algorithm: `done` is output, `queue` is ready, `m` holds the others. -/
structure Inv (g : Digraph α) (done queue : List α) (m : List (α × Nat)) : Prop where
  nodup : (done ++ queue).Nodup
  nodes : ∀ v ∈ done ++ queue, v ∈ g.nodes
  map : ∀ v, m.lookup v = if v ∈ g.nodes ∧ v ∉ done ++ queue then some (waiting g done v) else none
  pos : ∀ v, v ∈ g.nodes → v ∉ done ++ queue → 0 < waiting g done v
  closed : ∀ v ∈ done ++ queue, ∀ p ∈ g.preds v, p ∈ done
  ordered : ∀ l1 v l2, done = l1 ++ v :: l2 → ∀ p ∈ g.preds v, p ∈ l1

theorem waiting_pos {g : Digraph α} {done : List α} {v p : α} (h : p ∈ g.preds v) (hp : p ∉ done) :
    0 < waiting g done v := by
  unfold waiting
  rw [List.countP_pos_iff]
  exact ⟨p, h, by simp [hp]⟩

theorem node_step {g : Digraph α} (hg : WF g) {done rest z : List α} {n : α} {m : List (α × Nat)}
    (hI : Inv g done (n :: (rest ++ z)) m) :
    ∃ m' z', nodeStep g (m, z) n = .ok (m', z ++ z') ∧ Inv g (done ++ [n]) (rest ++ (z ++ z')) m' := by
  have hnn : n ∉ done := by
    have := hI.nodup
    simp only [List.nodup_append] at this
    intro h
    exact this.2.2 n h n (by simp) rfl
  have hn_nodes : n ∈ g.nodes := hI.nodes n (by simp)
  have hfresh : ∀ c ∈ g.succs n, c ∈ g.nodes ∧ c ∉ done ++ n :: (rest ++ z) := by
    intro c hc
    have he := (mem_succs g n c).1 hc
    refine ⟨(hg.ends _ he).2, fun h => ?_⟩
    exact hnn (hI.closed c h n ((mem_preds g n c).2 he))
  have hwait : ∀ c ∈ g.succs n, m.lookup c = some (waiting g done c) := by
    intro c hc
    rw [hI.map, if_pos (hfresh c hc)]
  obtain ⟨m', e, hm'⟩ := child_fold (g.succs n) m z (nodup_succs hg n) (by
    intro c hc
    exact ⟨_, hwait c hc, waiting_pos ((mem_preds g n c).2 ((mem_succs g n c).1 hc)) hnn⟩)
  have hsp : ∀ v, v ∈ g.succs n ↔ n ∈ g.preds v := by
    intro v; rw [mem_succs, mem_preds]
  set z' := (g.succs n).filter fun c => decide (m.lookup c = some 1) with hz'
  have hmemz : ∀ v, v ∈ z' ↔ v ∈ g.succs n ∧ waiting g done v = 1 := by
    intro v
    rw [hz']
    simp only [List.mem_filter, decide_eq_true_eq]
    constructor
    · rintro ⟨a, b⟩
      rw [hwait v a] at b
      exact ⟨a, by simpa using b⟩
    · rintro ⟨a, b⟩
      exact ⟨a, by rw [hwait v a, b]⟩
  have hassoc : (done ++ [n]) ++ (rest ++ (z ++ z')) = (done ++ n :: (rest ++ z)) ++ z' := by simp
  have hmem : ∀ v, v ∈ (done ++ [n]) ++ (rest ++ (z ++ z')) ↔ v ∈ done ++ n :: (rest ++ z) ∨ v ∈ z' := by
    intro v; rw [hassoc, List.mem_append]
  refine ⟨m', z', e, ?_, ?_, ?_, ?_, ?_, ?_⟩
  · rw [hassoc, List.nodup_append]
    refine ⟨hI.nodup, (nodup_succs hg n).filter _, ?_⟩
    intro a ha b hb hab
    subst hab
    exact (hfresh a ((hmemz a).1 hb).1).2 ha
  · intro v hv
    rcases (hmem v).1 hv with h | h
    · exact hI.nodes v h
    · exact (hfresh v ((hmemz v).1 h).1).1
  · intro v
    rw [hm' v, hI.map v]
    have hadd := waiting_add hg done n v hnn
    by_cases hold : v ∈ g.nodes ∧ v ∉ done ++ n :: (rest ++ z)
    · rw [if_pos hold]
      simp only [Option.bind_some]
      by_cases hs : v ∈ g.succs n
      · rw [if_pos hs]
        rw [if_pos ((hsp v).1 hs)] at hadd
        by_cases h1 : waiting g done v = 1
        · rw [if_pos h1, if_neg]
          intro hcon
          exact hcon.2 ((hmem v).2 (.inr ((hmemz v).2 ⟨hs, h1⟩)))
        · rw [if_neg h1, if_pos]
          · congr 1; omega
          · refine ⟨hold.1, fun h => ?_⟩
            rcases (hmem v).1 h with h | h
            · exact hold.2 h
            · exact h1 ((hmemz v).1 h).2
      · rw [if_neg hs]
        rw [if_neg (fun h => hs ((hsp v).2 h))] at hadd
        rw [if_pos]
        · congr 1; omega
        · refine ⟨hold.1, fun h => ?_⟩
          rcases (hmem v).1 h with h | h
          · exact hold.2 h
          · exact hs ((hmemz v).1 h).1
    · rw [if_neg hold, if_neg]
      · rfl
      · intro hcon
        exact hold ⟨hcon.1, fun h => hcon.2 ((hmem v).2 (.inl h))⟩
  · intro v hv hnot
    have hold : v ∉ done ++ n :: (rest ++ z) := fun h => hnot ((hmem v).2 (.inl h))
    have hp := hI.pos v hv hold
    have hadd := waiting_add hg done n v hnn
    by_cases hs : v ∈ g.succs n
    · rw [if_pos ((hsp v).1 hs)] at hadd
      have : waiting g done v ≠ 1 := fun h => hnot ((hmem v).2 (.inr ((hmemz v).2 ⟨hs, h⟩)))
      omega
    · rw [if_neg (fun h => hs ((hsp v).2 h))] at hadd
      omega
  · intro v hv p hp
    rcases (hmem v).1 hv with h | h
    · simp [hI.closed v h p hp]
    · obtain ⟨hs, h1⟩ := (hmemz v).1 h
      by_contra hnp
      have hadd := waiting_add hg done n v hnn
      rw [if_pos ((hsp v).1 hs)] at hadd
      have := waiting_pos hp hnp
      omega
  · intro l1 v l2 hl p hp
    rcases List.eq_nil_or_concat l2 with rfl | ⟨l2', x, rfl⟩
    · have := List.append_inj' hl (by simp)
      simp only [List.cons.injEq, and_true] at this
      obtain ⟨rfl, rfl⟩ := this
      exact hI.closed n (by simp) p hp
    · rw [List.concat_eq_append, ← List.cons_append, ← List.append_assoc] at hl
      have := List.append_inj' hl (by simp)
      exact hI.ordered l1 v l2' this.1 p hp

theorem generation {g : Digraph α} (hg : WF g) : ∀ (rest done z : List α) (m : List (α × Nat)),
    Inv g done (rest ++ z) m →
    ∃ m' z', rest.foldlM (nodeStep g) (m, z) = .ok (m', z') ∧ Inv g (done ++ rest) z' m' := by
  intro rest
  induction rest with
  | nil => intro done z m h; exact ⟨m, z, rfl, by simpa using h⟩
  | cons n rest ih =>
    intro done z m h
    obtain ⟨m1, z1, e1, h1⟩ := node_step hg h
    obtain ⟨m2, z2, e2, h2⟩ := ih (done ++ [n]) (z ++ z1) m1 h1
    refine ⟨m2, z2, ?_, by simpa using h2⟩
    rw [List.foldlM_cons, e1]
    exact e2

theorem topo_loop {g : Digraph α} (hg : WF g) : ∀ (fuel : Nat) (done z : List α) (m : List (α × Nat)),
    Inv g done z m → g.nodes.length < fuel + done.length →
    (∃ out mfin, topoLoop g fuel m z = .ok out ∧ mfin = ([] : List (α × Nat)) ∧ Inv g (done ++ out) [] mfin) ∨
    (topoLoop g fuel m z = .error .unfeasible ∧ ∃ d' m', m' ≠ [] ∧ Inv g d' [] m') := by
  intro fuel
  induction fuel with
  | zero =>
    intro done z m hI hlen
    exfalso
    have h1 : done.Nodup := (List.nodup_append.1 hI.nodup).1
    have h2 : done ⊆ g.nodes := fun v hv => hI.nodes v (by simp [hv])
    have := (List.subperm_of_subset h1 h2).length_le
    omega
  | succ fuel ih =>
    intro done z m hI hlen
    unfold topoLoop
    by_cases hz : z = []
    · subst hz
      simp only [if_true]
      by_cases hm : m = []
      · subst hm
        refine .inl ⟨[], [], by simp, rfl, by simpa using hI⟩
      · refine .inr ⟨by simp [hm], done, m, hm, hI⟩
    · simp only [hz, if_false]
      obtain ⟨m1, z1, e1, h1⟩ := generation hg z done [] m (by simpa using hI)
      rw [e1]
      have hzl : 0 < z.length := List.length_pos_iff.2 hz
      rcases ih (done ++ z) z1 m1 h1 (by simp; omega) with ⟨out, mf, e, hmf, hf⟩ | ⟨e, hf⟩
      · refine .inl ⟨z ++ out, mf, ?_, hmf, by simpa using hf⟩
        simp only [Bind.bind, Except.bind, Pure.pure, Except.pure] at e ⊢
        rw [e]
      · refine .inr ⟨?_, hf⟩
        simp only [Bind.bind, Except.bind, Pure.pure, Except.pure] at e ⊢
        rw [e]

theorem lookup_map_filter (l : List α) (f : α → Nat) (v : α) :
    ((l.map fun x => (x, f x)).filter fun p => decide (0 < p.2)).lookup v =
      if v ∈ l ∧ 0 < f v then some (f v) else none := by
  induction l with
  | nil => simp
  | cons x l ih =>
    simp only [List.map_cons]
    by_cases hx : 0 < f x
    · rw [List.filter_cons_of_pos (by simpa using hx)]
      by_cases h : v = x
      · subst h; simp [List.lookup, hx]
      · have hb : (v == x) = false := by simp [h]
        simp only [List.lookup, hb]
        rw [ih]; simp [h]
    · rw [List.filter_cons_of_neg (by simpa using hx)]
      rw [ih]
      by_cases h : v = x
      · subst h; simp [hx]
      · simp [h]

theorem waiting_nil (g : Digraph α) (v : α) : waiting g [] v = (g.preds v).length := by
  unfold waiting
  simp

theorem inv_init {g : Digraph α} (hg : WF g) :
    Inv g [] (g.nodes.filter fun v => decide ((g.preds v).length = 0)) g.inDegrees := by
  refine ⟨?_, ?_, ?_, ?_, ?_, ?_⟩
  · simpa using hg.nodes.filter _
  · intro v hv
    simp only [List.nil_append, List.mem_filter] at hv
    exact hv.1
  · intro v
    unfold inDegrees
    rw [lookup_map_filter, waiting_nil]
    congr 1
    simp only [List.nil_append, List.mem_filter, decide_eq_true_eq, not_and, eq_iff_iff, and_congr_right_iff]
    intro hv
    constructor
    · intro h _; omega
    · intro h; have := h hv; omega
  · intro v hv hnot
    rw [waiting_nil]
    simp only [List.nil_append, List.mem_filter, decide_eq_true_eq, not_and] at hnot
    have := hnot hv; omega
  · intro v hv p hp
    simp only [List.nil_append, List.mem_filter, decide_eq_true_eq] at hv
    have := List.length_eq_zero_iff.1 hv.2
    rw [this] at hp; simp at hp
  · intro l1 v l2 h; simp at h

/-- An edge relation of a digraph. -/
def Edge (g : Digraph α) (a b : α) : Prop := (a, b) ∈ g.edges

omit [DecidableEq α] in
/-- A finite set of nodes in which everyone has a predecessor contains a cycle. -/
theorem cycle_of_no_source (S : List α) (r : α → α → Prop) (hne : S ≠ [])
    (h : ∀ v ∈ S, ∃ p ∈ S, r p v) : ∃ x ∈ S, Relation.TransGen r x x := by
  by_contra hcon
  have hno : ∀ x ∈ S, ¬ Relation.TransGen r x x := fun x hx hr => hcon ⟨x, hx, hr⟩
  let T := {x : α // x ∈ S}
  have : Finite T := (List.finite_toSet S).to_subtype
  let R : T → T → Prop := fun a b => Relation.TransGen r a.1 b.1
  have : IsTrans T R := ⟨fun a b c h1 h2 => Relation.TransGen.trans h1 h2⟩
  have : Std.Irrefl R := ⟨fun a h => hno a.1 a.2 h⟩
  have wf : WellFounded R := Finite.wellFounded_of_trans_of_irrefl R
  obtain ⟨x, hx⟩ := List.exists_mem_of_ne_nil S hne
  refine wf.induction (C := fun _ => False) ⟨x, hx⟩ ?_
  intro v ih
  obtain ⟨p, hp, hr⟩ := h v.1 v.2
  exact ih ⟨p, hp⟩ (Relation.TransGen.single hr)

theorem mem_of_lookup {β : Type} {m : List (α × β)} {v : α} {d : β} (h : m.lookup v = some d) : (v, d) ∈ m := by
  induction m with
  | nil => simp at h
  | cons p m ih =>
    obtain ⟨k, b⟩ := p
    by_cases hk : v = k
    · subst hk; simp [List.lookup] at h; simp [h]
    · have hb : (v == k) = false := by simp [hk]
      simp only [List.lookup, hb] at h
      exact List.mem_cons_of_mem _ (ih h)

theorem lookup_isSome {β : Type} (m : List (α × β)) (v : α) : (m.lookup v).isSome = true ↔ v ∈ m.map (·.1) := by
  induction m with
  | nil => simp
  | cons p m ih =>
    obtain ⟨k, b⟩ := p
    by_cases hk : v = k
    · subst hk; simp [List.lookup]
    · have hb : (v == k) = false := by simp [hk]
      simp only [List.lookup, hb, List.map_cons, List.mem_cons, hk, false_or]
      exact ih

/-- Either a complete order with every edge pointing forward, or a cycle. -/
theorem topological {g : Digraph α} (hg : WF g) :
    (∃ out : List α, g.topologicalSort = .ok out ∧ out.Nodup ∧ (∀ v, v ∈ out ↔ v ∈ g.nodes) ∧
      ∀ l1 v l2, out = l1 ++ v :: l2 → ∀ p, Edge g p v → p ∈ l1) ∨
    (g.topologicalSort = .error .unfeasible ∧ ∃ x ∈ g.nodes, Relation.TransGen (Edge g) x x) := by
  unfold topologicalSort
  rcases topo_loop hg (g.nodes.length + 1) [] _ _ (inv_init hg) (by simp) with ⟨out, mf, e, rfl, hI⟩ | ⟨e, d', m', hne, hI⟩
  · refine .inl ⟨out, e, ?_, ?_, ?_⟩
    · simpa using hI.nodup
    · intro v
      constructor
      · intro hv; exact hI.nodes v (by simpa using hv)
      · intro hv
        by_contra hnot
        have := hI.map v
        rw [if_pos ⟨hv, by simpa using hnot⟩] at this
        simp at this
    · intro l1 v l2 h p hp
      exact hI.ordered l1 v l2 (by simpa using h) p ((mem_preds g p v).2 hp)
  · refine .inr ⟨e, ?_⟩
    have hS : ∀ v, v ∈ g.nodes.filter (fun v => decide (v ∉ d')) ↔ v ∈ g.nodes ∧ v ∉ d' := by
      intro v; simp
    have hsome : ∃ v ∈ g.nodes, v ∉ d' := by
      obtain ⟨⟨v, d⟩, hv⟩ := List.exists_mem_of_ne_nil m' hne
      have : (m'.lookup v).isSome = true := (lookup_isSome m' v).2 (List.mem_map.2 ⟨_, hv, rfl⟩)
      rw [hI.map v] at this
      split at this
      · rename_i h; exact ⟨v, h.1, by simpa using h.2⟩
      · simp at this
    obtain ⟨x, hx, hr⟩ := cycle_of_no_source (g.nodes.filter (fun v => decide (v ∉ d'))) (Edge g)
      (by obtain ⟨v, a, b⟩ := hsome
          exact List.ne_nil_of_mem ((hS v).2 ⟨a, b⟩))
      (by
        intro v hv
        have hv := (hS v).1 hv
        have hp := hI.pos v hv.1 (by simpa using hv.2)
        unfold waiting at hp
        rw [List.countP_pos_iff] at hp
        obtain ⟨p, hp1, hp2⟩ := hp
        have he := (mem_preds g p v).1 hp1
        exact ⟨p, (hS p).2 ⟨(hg.ends _ he).1, by simpa using hp2⟩, he⟩)
    exact ⟨x, ((hS x).1 hx).1, hr⟩

omit [DecidableEq α] in
/-- In a forward order nothing can loop back. -/
theorem no_cycle {out : List α} {r : α → α → Prop} (hnd : out.Nodup) (hmem : ∀ a b, r a b → b ∈ out)
    (hord : ∀ l1 v l2, out = l1 ++ v :: l2 → ∀ p, r p v → p ∈ l1) (x : α) : ¬ Relation.TransGen r x x := by
  have key : ∀ a b, Relation.TransGen r a b → ∀ l1 l2, out = l1 ++ b :: l2 → a ∈ l1 := by
    intro a b h
    induction h with
    | single h => intro l1 l2 e; exact hord l1 _ l2 e _ h
    | tail h1 h2 ih =>
      rename_i b c
      intro l1 l2 e
      have hb := hord l1 c l2 e b h2
      obtain ⟨p, q, rfl⟩ := List.append_of_mem hb
      have := ih p (q ++ c :: l2) (by rw [e]; simp)
      simp [this]
  intro h
  have hx : x ∈ out := by
    cases h with
    | single h => exact hmem _ _ h
    | tail _ h => exact hmem _ _ h
  obtain ⟨l1, l2, e⟩ := List.append_of_mem hx
  have := key x x h l1 l2 e
  rw [e, List.nodup_append] at hnd
  exact hnd.2.2 x this x (by simp) rfl

/-! ### Depth first search -/

/-- Work left for a set of unvisited nodes. -/
def workLeft (f : α → Nat) (nodes seen : List α) : Nat :=
  ((nodes.filter fun v => decide (v ∉ seen)).map f).sum

theorem workLeft_visit (f : α → Nat) {nodes seen : List α} {c : α} (hnd : nodes.Nodup) (hc : c ∈ nodes)
    (hs : c ∉ seen) : workLeft f nodes (seen ++ [c]) + f c = workLeft f nodes seen := by
  unfold workLeft
  induction nodes with
  | nil => simp at hc
  | cons x l ih =>
    have hx := (List.nodup_cons.1 hnd).1
    by_cases hxc : x = c
    · subst hxc
      have hl : l.filter (fun v => decide (v ∉ seen ++ [x])) = l.filter (fun v => decide (v ∉ seen)) := by
        apply List.filter_congr
        intro v hv
        have : v ≠ x := fun h => hx (h ▸ hv)
        simp [this]
      rw [List.filter_cons_of_neg (by simp), List.filter_cons_of_pos (by simp [hs]), hl]
      simp only [List.map_cons, List.sum_cons]
      omega
    · have hcl : c ∈ l := by
        rcases List.mem_cons.1 hc with h | h
        · exact absurd h.symm hxc
        · exact h
      have ih := ih (List.nodup_cons.1 hnd).2 hcl
      by_cases hxs : x ∈ seen
      · rw [List.filter_cons_of_neg (by simp [hxs]), List.filter_cons_of_neg (by simp [hxs])]
        exact ih
      · rw [List.filter_cons_of_pos (by simp [hxs, hxc]), List.filter_cons_of_pos (by simp [hxs])]
        simp only [List.map_cons, List.sum_cons]
        omega

theorem outdeg_sum (es : List (α × α)) : ∀ nodes : List α, nodes.Nodup →
    (nodes.map fun v => ((es.filter fun e => decide (e.1 = v)).map (·.2)).length).sum ≤ es.length := by
  induction es with
  | nil => intro nodes _; simp
  | cons e es ih =>
    intro nodes hnd
    have hone : ∀ l : List α, l.Nodup →
        (l.map fun v => (((e :: es).filter fun e => decide (e.1 = v)).map (·.2)).length).sum ≤
        (l.map fun v => ((es.filter fun e => decide (e.1 = v)).map (·.2)).length).sum + (if e.1 ∈ l then 1 else 0) := by
      intro l
      induction l with
      | nil => intro _; simp
      | cons x l ihl =>
        intro hl
        have ihl := ihl (List.nodup_cons.1 hl).2
        have hx := (List.nodup_cons.1 hl).1
        simp only [List.map_cons, List.sum_cons]
        by_cases hex : e.1 = x
        · rw [List.filter_cons_of_pos (by simp [hex])]
          rw [if_neg (by rw [hex]; exact hx)] at ihl
          rw [if_pos (by simp [hex])]
          simp only [List.map_cons, List.length_cons]
          omega
        · rw [List.filter_cons_of_neg (by simp [hex])]
          have : (e.1 ∈ x :: l) = (e.1 ∈ l) := by simp [hex]
          simp only [this]
          omega
    have := hone nodes hnd
    have h2 := ih nodes hnd
    have h3 : (if e.1 ∈ nodes then 1 else 0) ≤ 1 := by split <;> omega
    simp only [List.length_cons]
    omega

omit [DecidableEq α] in
theorem sum_map_succ (f : α → Nat) (l : List α) : (l.map fun v => f v + 1).sum = (l.map f).sum + l.length := by
  induction l with
  | nil => rfl
  | cons x l ih => simp only [List.map_cons, List.sum_cons, List.length_cons]; omega

/-- What one stack of child iterators may still cost. -/
def stackWork (stack : List (List α)) : Nat := (stack.map fun cs => cs.length + 1).sum

theorem dfs_loop {g : Digraph α} (hg : WF g) (s : α) : ∀ (fuel : Nat) (stack : List (List α)) (seen : List α),
    stackWork stack + workLeft (fun v => (g.succs v).length + 1) g.nodes seen ≤ fuel →
    seen.Nodup →
    (∀ v ∈ seen, Relation.ReflTransGen (Edge g) s v) →
    (∀ cs ∈ stack, ∀ c ∈ cs, Relation.ReflTransGen (Edge g) s c ∧ c ∈ g.nodes) →
    (∀ v ∈ seen, ∀ c, Edge g v c → c ∈ seen ∨ ∃ cs ∈ stack, c ∈ cs) →
    ∃ more, dfsLoop g fuel stack seen = seen ++ more ∧ (seen ++ more).Nodup ∧
      (∀ v ∈ seen ++ more, Relation.ReflTransGen (Edge g) s v) ∧
      (∀ v ∈ seen ++ more, ∀ c, Edge g v c → c ∈ seen ++ more) := by
  intro fuel
  induction fuel with
  | zero =>
    intro stack seen hf hnd hr hst hcl
    have : stack = [] := by
      cases stack with
      | nil => rfl
      | cons cs st => simp [stackWork] at hf
    subst this
    refine ⟨[], by simp [dfsLoop], by simpa using hnd, by simpa using hr, ?_⟩
    intro v hv c hc
    rcases hcl v (by simpa using hv) c hc with h | ⟨_, h, _⟩
    · simpa using h
    · simp at h
  | succ fuel ih =>
    intro stack seen hf hnd hr hst hcl
    cases stack with
    | nil =>
      refine ⟨[], by simp [dfsLoop], by simpa using hnd, by simpa using hr, ?_⟩
      intro v hv c hc
      rcases hcl v (by simpa using hv) c hc with h | ⟨_, h, _⟩
      · simpa using h
      · simp at h
    | cons cs stack =>
      cases cs with
      | nil =>
        refine ih stack seen ?_ hnd hr (fun cs h => hst cs (by simp [h])) ?_
        · simp only [stackWork, List.map_cons, List.sum_cons, List.length_nil] at hf ⊢; omega
        · intro v hv c hc
          rcases hcl v hv c hc with h | ⟨cs, h, h'⟩
          · exact .inl h
          · rcases List.mem_cons.1 h with rfl | h
            · simp at h'
            · exact .inr ⟨cs, h, h'⟩
      | cons c cs =>
        unfold dfsLoop
        by_cases hc : c ∈ seen
        · rw [if_pos hc]
          refine ih (cs :: stack) seen ?_ hnd hr ?_ ?_
          · simp only [stackWork, List.map_cons, List.sum_cons, List.length_cons] at hf ⊢; omega
          · intro cs' h x hx
            rcases List.mem_cons.1 h with rfl | h
            · exact hst (c :: cs') (by simp) x (by simp [hx])
            · exact hst cs' (by simp [h]) x hx
          · intro v hv x hx
            rcases hcl v hv x hx with h | ⟨cs', h, h'⟩
            · exact .inl h
            · rcases List.mem_cons.1 h with rfl | h
              · rcases List.mem_cons.1 h' with rfl | h'
                · exact .inl hc
                · exact .inr ⟨cs, by simp, h'⟩
              · exact .inr ⟨cs', by simp [h], h'⟩
        · rw [if_neg hc]
          obtain ⟨hcr, hcn⟩ := hst (c :: cs) (by simp) c (by simp)
          have hw := workLeft_visit (fun v => (g.succs v).length + 1) hg.nodes hcn hc
          obtain ⟨more, e, h1, h2, h3⟩ := ih (g.succs c :: cs :: stack) (seen ++ [c]) (by
              simp only [stackWork, List.map_cons, List.sum_cons, List.length_cons] at hf ⊢; omega)
            (by
              rw [List.nodup_append]
              refine ⟨hnd, by simp, ?_⟩
              intro a ha b hb hab
              simp only [List.mem_singleton] at hb
              exact hc (by rw [← hb, ← hab]; exact ha))
            (by
              intro v hv
              rcases List.mem_append.1 hv with h | h
              · exact hr v h
              · simp only [List.mem_singleton] at h; rw [h]; exact hcr)
            (by
              intro cs' h x hx
              rcases List.mem_cons.1 h with rfl | h
              · have he := (mem_succs g c x).1 hx
                exact ⟨hcr.tail he, (hg.ends _ he).2⟩
              · rcases List.mem_cons.1 h with rfl | h
                · exact hst (c :: cs') (by simp) x (by simp [hx])
                · exact hst cs' (by simp [h]) x hx)
            (by
              intro v hv x hx
              rcases List.mem_append.1 hv with h | h
              · rcases hcl v h x hx with h | ⟨cs', h, h'⟩
                · simp [h]
                · rcases List.mem_cons.1 h with rfl | h
                  · rcases List.mem_cons.1 h' with rfl | h'
                    · simp
                    · exact .inr ⟨cs, by simp, h'⟩
                  · exact .inr ⟨cs', by simp [h], h'⟩
              · simp only [List.mem_singleton] at h
                subst h
                exact .inr ⟨g.succs v, by simp, (mem_succs g v x).2 hx⟩)
          refine ⟨c :: more, by rw [e]; simp, by simpa using h1, ?_, ?_⟩
          · intro v hv; exact h2 v (by simpa using hv)
          · intro v hv x hx
            have := h3 v (by simpa using hv) x hx
            simpa using this

/-- Depth first search finds exactly the reachable nodes, once each, the source first. -/
theorem dfs {g : Digraph α} (hg : WF g) {s : α} (hs : s ∈ g.nodes) :
    ∃ more, g.dfsNodes s = s :: more ∧ (s :: more).Nodup ∧
      ∀ v, v ∈ s :: more ↔ Relation.ReflTransGen (Edge g) s v := by
  obtain ⟨more, e, h1, h2, h3⟩ := dfs_loop hg s (g.edges.length + g.nodes.length + 1) [g.succs s] [s]
    (by
      have h1 := workLeft_visit (fun v => (g.succs v).length + 1) hg.nodes hs (seen := []) (by simp)
      have h2 : workLeft (fun v => (g.succs v).length + 1) g.nodes [] ≤ g.edges.length + g.nodes.length := by
        unfold workLeft
        have : g.nodes.filter (fun v => decide (v ∉ ([] : List α))) = g.nodes := by simp
        rw [this, sum_map_succ]
        have := outdeg_sum g.edges g.nodes hg.nodes
        unfold succs
        omega
      simp only [List.nil_append] at h1
      simp only [stackWork, List.map_cons, List.map_nil, List.sum_cons, List.sum_nil]
      omega)
    (by simp)
    (by intro v hv; simp only [List.mem_singleton] at hv; rw [hv])
    (by
      intro cs h c hc
      simp only [List.mem_singleton] at h
      subst h
      have he := (mem_succs g s c).1 hc
      exact ⟨Relation.ReflTransGen.single he, (hg.ends _ he).2⟩)
    (by
      intro v hv c hc
      simp only [List.mem_singleton] at hv
      subst hv
      exact .inr ⟨g.succs v, by simp, (mem_succs g v c).2 hc⟩)
  refine ⟨more, by unfold dfsNodes; rw [e]; rfl, by simpa using h1, ?_⟩
  intro v
  constructor
  · intro hv; exact h2 v (by simpa using hv)
  · intro hv
    induction hv with
    | refl => simp
    | tail _ hbc ih =>
      have := h3 _ (by simpa using ih) _ hbc
      simpa using this

/-! ### Breadth first search -/

/-- A walk with `k` edges. -/
inductive Walk (r : α → α → Prop) : Nat → α → α → Prop where
  | nil (a : α) : Walk r 0 a a
  | snoc {k : Nat} {a b c : α} : Walk r k a b → r b c → Walk r (k + 1) a c

theorem bfs_children (cs : List α) : ∀ seen z : List α, cs.Nodup → ∃ new : List α,
    cs.foldl bfsChild (seen, z) = (seen ++ new, z ++ new) ∧ new.Nodup ∧
    ∀ c, c ∈ new ↔ c ∈ cs ∧ c ∉ seen := by
  induction cs with
  | nil => intro seen z _; exact ⟨[], by simp, by simp, by simp⟩
  | cons x cs ih =>
    intro seen z hnd
    have hx := (List.nodup_cons.1 hnd).1
    rw [List.foldl_cons]
    by_cases hs : x ∈ seen
    · obtain ⟨new, e, h1, h2⟩ := ih seen z (List.nodup_cons.1 hnd).2
      refine ⟨new, by simp [bfsChild, hs, e], h1, ?_⟩
      intro c
      rw [h2]
      constructor
      · rintro ⟨a, b⟩; exact ⟨by simp [a], b⟩
      · rintro ⟨a, b⟩
        rcases List.mem_cons.1 a with rfl | a
        · exact absurd hs b
        · exact ⟨a, b⟩
    · obtain ⟨new, e, h1, h2⟩ := ih (seen ++ [x]) (z ++ [x]) (List.nodup_cons.1 hnd).2
      refine ⟨x :: new, by simp [bfsChild, hs, e], ?_, ?_⟩
      · rw [List.nodup_cons]
        exact ⟨fun h => hx ((h2 x).1 h).1, h1⟩
      · intro c
        rw [List.mem_cons, h2]
        constructor
        · rintro (rfl | ⟨a, b⟩)
          · exact ⟨by simp, hs⟩
          · exact ⟨by simp [a], fun h => b (by simp [h])⟩
        · rintro ⟨a, b⟩
          rcases List.mem_cons.1 a with rfl | a
          · exact .inl rfl
          · by_cases hcx : c = x
            · exact .inl hcx
            · exact .inr ⟨a, by simp [b, hcx]⟩

theorem bfs_level {g : Digraph α} (hg : WF g) (level : List α) : ∀ seen z : List α, ∃ new : List α,
    level.foldl (bfsParent g) (seen, z) = (seen ++ new, z ++ new) ∧ new.Nodup ∧
    ∀ c, c ∈ new ↔ (∃ p ∈ level, Edge g p c) ∧ c ∉ seen := by
  induction level with
  | nil => intro seen z; exact ⟨[], by simp, by simp, by simp⟩
  | cons p level ih =>
    intro seen z
    obtain ⟨n1, e1, h1, m1⟩ := bfs_children (g.succs p) seen z (nodup_succs hg p)
    obtain ⟨n2, e2, h2, m2⟩ := ih (seen ++ n1) (z ++ n1)
    refine ⟨n1 ++ n2, ?_, ?_, ?_⟩
    · rw [List.foldl_cons]
      unfold bfsParent at e2 ⊢
      rw [e1, e2]; simp
    · rw [List.nodup_append]
      refine ⟨h1, h2, ?_⟩
      intro a ha b hb hab
      subst hab
      exact ((m2 a).1 hb).2 (by simp [ha])
    · intro c
      rw [List.mem_append, m1, m2, mem_succs]
      constructor
      · rintro (⟨a, b⟩ | ⟨⟨q, hq, a⟩, b⟩)
        · exact ⟨⟨p, by simp, a⟩, b⟩
        · exact ⟨⟨q, by simp [hq], a⟩, fun h => b (by simp [h])⟩
      · rintro ⟨⟨q, hq, a⟩, b⟩
        by_cases hc : (p, c) ∈ g.edges
        · exact .inl ⟨hc, b⟩
        · rcases List.mem_cons.1 hq with rfl | hq
          · exact absurd a hc
          · refine .inr ⟨⟨q, hq, a⟩, fun h => ?_⟩
            rcases List.mem_append.1 h with h | h
            · exact b h
            · exact hc ((mem_succs g p c).1 ((m1 c).1 h).1)

/-- State of the search after `i` levels from `s`. -/
structure Levels (g : Digraph α) (s : α) (i : Nat) (seen level : List α) : Prop where
  nodup : seen.Nodup
  nodes : ∀ v ∈ seen, v ∈ g.nodes
  mem : ∀ v, v ∈ seen ↔ ∃ k ≤ i, Walk (Edge g) k s v
  front : ∀ v, v ∈ level ↔ Walk (Edge g) i s v ∧ ∀ k < i, ¬ Walk (Edge g) k s v
  order : ∀ l1 x l2, seen = l1 ++ x :: l2 → ∀ y ∈ l2, ∀ k, Walk (Edge g) k s y → ∃ j ≤ k, Walk (Edge g) j s x
  size : level = [] ∨ i < seen.length

omit [DecidableEq α] in
theorem levels_init {g : Digraph α} {s : α} (hs : s ∈ g.nodes) : Levels g s 0 [s] [s] := by
  have h0 : ∀ v, Walk (Edge g) 0 s v ↔ v = s := by
    intro v
    constructor
    · intro h; cases h; rfl
    · rintro rfl; exact .nil _
  refine ⟨by simp, ?_, ?_, ?_, ?_, ?_⟩
  · intro v hv; simp only [List.mem_singleton] at hv; rw [hv]; exact hs
  · intro v
    simp only [List.mem_singleton, Nat.le_zero]
    constructor
    · intro h; exact ⟨0, rfl, (h0 v).2 h⟩
    · rintro ⟨k, rfl, h⟩; exact (h0 v).1 h
  · intro v; simp [h0]
  · intro l1 x l2 h y hy
    cases l1 with
    | nil => simp at h; rw [h.2] at hy; simp at hy
    | cons a l1 => simp at h
  · simp

theorem levels_step {g : Digraph α} (hg : WF g) {s : α} {i : Nat} {seen level : List α} (h : Levels g s i seen level) :
    ∃ new : List α, level.foldl (bfsParent g) (seen, []) = (seen ++ new, new) ∧ Levels g s (i + 1) (seen ++ new) new := by
  obtain ⟨new, e, hnd, hm⟩ := bfs_level hg level seen []
  refine ⟨new, by simpa using e, ?_⟩
  have hseen : ∀ v, v ∈ seen ++ new ↔ ∃ k ≤ i + 1, Walk (Edge g) k s v := by
    intro v
    rw [List.mem_append, hm, h.mem]
    constructor
    · rintro (⟨k, hk, w⟩ | ⟨⟨p, hp, he⟩, -⟩)
      · exact ⟨k, by omega, w⟩
      · exact ⟨i + 1, le_refl _, .snoc ((h.front p).1 hp).1 he⟩
    · rintro ⟨k, hk, w⟩
      by_cases hin : ∃ k ≤ i, Walk (Edge g) k s v
      · exact .inl hin
      · have hk' : k = i + 1 := by
          by_contra hne
          exact hin ⟨k, by omega, w⟩
        subst hk'
        cases w with
        | snoc w he =>
          rename_i p
          refine .inr ⟨⟨p, (h.front p).2 ⟨w, ?_⟩, he⟩, hin⟩
          intro j hj wj
          exact hin ⟨j + 1, by omega, .snoc wj he⟩
  have hnew : ∀ v, v ∈ new ↔ Walk (Edge g) (i + 1) s v ∧ ∀ k < i + 1, ¬ Walk (Edge g) k s v := by
    intro v
    constructor
    · intro hv
      obtain ⟨⟨p, hp, he⟩, hns⟩ := (hm v).1 hv
      refine ⟨.snoc ((h.front p).1 hp).1 he, ?_⟩
      intro k hk w
      exact hns ((h.mem v).2 ⟨k, by omega, w⟩)
    · rintro ⟨w, hno⟩
      rcases List.mem_append.1 ((hseen v).2 ⟨i + 1, le_refl _, w⟩) with hv | hv
      · obtain ⟨k, hk, w'⟩ := (h.mem v).1 hv
        exact absurd w' (hno k (by omega))
      · exact hv
  refine ⟨?_, ?_, hseen, hnew, ?_, ?_⟩
  · rw [List.nodup_append]
    refine ⟨h.nodup, hnd, ?_⟩
    intro a ha b hb hab
    subst hab
    exact ((hm a).1 hb).2 ha
  · intro v hv
    rcases List.mem_append.1 hv with hv | hv
    · exact h.nodes v hv
    · obtain ⟨⟨p, -, he⟩, -⟩ := (hm v).1 hv
      exact (hg.ends _ he).2
  · intro l1 x l2 hl y hy k w
    by_cases hyn : y ∈ new
    · have hk : i + 1 ≤ k := by
        by_contra hlt
        exact ((hnew y).1 hyn).2 k (by omega) w
      have hx : x ∈ seen ++ new := by rw [hl]; simp
      obtain ⟨j, hj, wj⟩ := (hseen x).1 hx
      exact ⟨j, by omega, wj⟩
    · -- `y` was seen before, so the whole prefix lies in `seen`
      have hys : y ∈ seen := by
        have : y ∈ seen ++ new := by rw [hl]; simp [hy]
        rcases List.mem_append.1 this with h' | h'
        · exact h'
        · exact absurd h' hyn
      rw [List.append_eq_append_iff] at hl
      rcases hl with ⟨a', h1, h2⟩ | ⟨c', h1, h2⟩
      · -- `seen` is a prefix of `l1`
        exfalso
        rw [h2] at hyn
        exact hyn (by simp [hy])
      · cases c' with
        | nil =>
          simp only [List.nil_append] at h2
          exfalso
          exact hyn (by rw [← h2]; simp [hy])
        | cons c c' =>
          simp only [List.cons_append, List.cons.injEq] at h2
          obtain ⟨rfl, rfl⟩ := h2
          rcases List.mem_append.1 hy with hy | hy
          · exact h.order l1 x c' h1 y hy k w
          · exact absurd hy hyn
  · by_cases hn : new = []
    · exact .inl hn
    · right
      have : 0 < new.length := List.length_pos_iff.2 hn
      rcases h.size with h0 | h0
      · exfalso
        obtain ⟨c, hc⟩ := List.exists_mem_of_ne_nil new hn
        obtain ⟨⟨p, hp, -⟩, -⟩ := (hm c).1 hc
        rw [h0] at hp; simp at hp
      · simp only [List.length_append]; omega

omit [DecidableEq α] in
theorem levels_done {g : Digraph α} {s : α} {i : Nat} {seen : List α} (h : Levels g s i seen []) :
    ∀ k v, Walk (Edge g) k s v → v ∈ seen := by
  intro k
  induction k with
  | zero => intro v w; exact (h.mem v).2 ⟨0, by omega, w⟩
  | succ k ih =>
    intro v w
    cases w with
    | snoc w he =>
      rename_i p
      obtain ⟨j, hj, wj⟩ := (h.mem p).1 (ih p w)
      by_cases hlt : ∃ j < i, Walk (Edge g) j s p
      · obtain ⟨j, hj, wj⟩ := hlt
        exact (h.mem v).2 ⟨j + 1, by omega, .snoc wj he⟩
      · have hji : j = i := by
          by_contra hne
          exact hlt ⟨j, by omega, wj⟩
        subst hji
        have := (h.front p).2 ⟨wj, fun k hk wk => hlt ⟨k, hk, wk⟩⟩
        simp at this

theorem bfs_loop {g : Digraph α} (hg : WF g) {s : α} : ∀ (fuel i : Nat) (seen level : List α),
    Levels g s i seen level → g.nodes.length ≤ fuel + i →
    ∃ j, Levels g s j (bfsLoop g fuel seen level) [] := by
  intro fuel
  induction fuel with
  | zero =>
    intro i seen level h hlen
    refine ⟨i, ?_⟩
    have : level = [] := by
      rcases h.size with h0 | h0
      · exact h0
      · have := (List.subperm_of_subset h.nodup h.nodes).length_le
        omega
    subst this
    simpa [bfsLoop] using h
  | succ fuel ih =>
    intro i seen level h hlen
    unfold bfsLoop
    by_cases hl : level = []
    · subst hl
      rw [if_pos rfl]
      exact ⟨i, h⟩
    · rw [if_neg hl]
      obtain ⟨new, e, h'⟩ := levels_step hg h
      simp only [e]
      exact ih (i + 1) _ _ h' (by omega)

omit [DecidableEq α] in
theorem reach_iff_walk {r : α → α → Prop} (a b : α) : Relation.ReflTransGen r a b ↔ ∃ k, Walk r k a b := by
  constructor
  · intro h
    induction h with
    | refl => exact ⟨0, .nil _⟩
    | tail _ hbc ih => obtain ⟨k, w⟩ := ih; exact ⟨k + 1, .snoc w hbc⟩
  · rintro ⟨k, w⟩
    induction w with
    | nil => exact .refl
    | snoc _ he ih => exact ih.tail he

/-- Breadth first search finds exactly the reachable nodes, once each, in the order of their distance. -/
theorem bfs {g : Digraph α} (hg : WF g) {s : α} (hs : s ∈ g.nodes) :
    (g.bfsNodes s).Nodup ∧ (∀ v, v ∈ g.bfsNodes s ↔ Relation.ReflTransGen (Edge g) s v) ∧
    ∀ l1 x l2, g.bfsNodes s = l1 ++ x :: l2 → ∀ y ∈ l2, ∀ k, Walk (Edge g) k s y → ∃ j ≤ k, Walk (Edge g) j s x := by
  obtain ⟨j, h⟩ := bfs_loop hg g.nodes.length 0 [s] [s] (levels_init hs) (by simp)
  refine ⟨h.nodup, ?_, h.order⟩
  intro v
  rw [reach_iff_walk]
  constructor
  · intro hv
    obtain ⟨k, -, w⟩ := (h.mem v).1 hv
    exact ⟨k, w⟩
  · rintro ⟨k, w⟩
    exact levels_done h k v w

end Verif.GraphLemmas
