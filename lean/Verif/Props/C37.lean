import Verif.Model.Distribution
import Verif.Lemmas.Graph
import Mathlib.Algebra.Order.Field.Basic
import Mathlib.Tactic.Linarith
import Mathlib.Tactic.Ring
import Mathlib.Tactic.NormNum
import Mathlib.Algebra.BigOperators.Group.List.Basic
import Mathlib.Algebra.Order.BigOperators.Group.List

/-!
C37: distributing a common stream conserves the total rate and moves rate only along the declared overflows.
-/

namespace Verif.C37

open Verif.Time Verif.Distribution Verif.GraphModel Verif.GraphLemmas

variable {α : Type} [DecidableEq α]

/-! ### Specification -/

/-- Where the excess of an item goes: along the first overflow declared for it. -/
def target : List (Overflow α) → α → Option α
  | [], _ => none
  | o :: os, x => if o.fromId = x then some o.toId else target os x

/-- The excess of an item at a rate. -/
def excessOf (items : List (α × (ℚ → ℚ))) (x : α) (r : ℚ) : ℚ :=
  match items.lookup x with
  | some f => f r
  | none => 0

/-- What `x` gets from the other items, when `received` tells what each item receives. -/
def inflow (items : List (α × (ℚ → ℚ))) (overflows : List (Overflow α)) (received : α → ℚ) (ids : List α) (x : α) : ℚ :=
  (ids.map fun y => if target overflows y = some x then excessOf items y (received y) else 0).sum

/-- What an item keeps: everything, or, with an overflow, what does not exceed. -/
def kept (items : List (α × (ℚ → ℚ))) (overflows : List (Overflow α)) (received : α → ℚ) (x : α) : ℚ :=
  match target overflows x with
  | some _ => received x - excessOf items x (received x)
  | none => received x

/-- An overflow from `a` to `b` is declared. -/
def Flows (overflows : List (Overflow α)) (a b : α) : Prop := (⟨a, b⟩ : Overflow α) ∈ overflows

/-! ### The overflow graph -/

theorem graph_facts (ids : List α) (overflows : List (Overflow α)) :
    WF (overflowGraph ids overflows) ∧
    (∀ x, x ∈ (overflowGraph ids overflows).nodes ↔ x ∈ ids ∨ ∃ o ∈ overflows, x = o.fromId ∨ x = o.toId) ∧
    ∀ a b, Edge (overflowGraph ids overflows) a b ↔ Flows overflows a b := by
  have h1 : ∀ (ids : List α) (g : Digraph α), WF g → WF (ids.foldl Digraph.addNode g) ∧
      (∀ x, x ∈ (ids.foldl Digraph.addNode g).nodes ↔ x ∈ g.nodes ∨ x ∈ ids) ∧
      (ids.foldl Digraph.addNode g).edges = g.edges := by
    intro ids
    induction ids with
    | nil => intro g hg; exact ⟨hg, by simp, rfl⟩
    | cons a ids ih =>
      intro g hg
      obtain ⟨i1, i2, i3⟩ := ih (g.addNode a) (wf_addNode hg a)
      refine ⟨i1, ?_, by rw [List.foldl_cons, i3, addNode_edges]⟩
      intro x
      rw [List.foldl_cons, i2, addNode_nodes, List.mem_cons]
      exact or_assoc
  have h2 : ∀ (os : List (Overflow α)) (g : Digraph α), WF g →
      WF (os.foldl (fun g o => g.addEdge (o.fromId, o.toId)) g) ∧
      (∀ x, x ∈ (os.foldl (fun g o => g.addEdge (o.fromId, o.toId)) g).nodes ↔
        x ∈ g.nodes ∨ ∃ o ∈ os, x = o.fromId ∨ x = o.toId) ∧
      ∀ e, e ∈ (os.foldl (fun g o => g.addEdge (o.fromId, o.toId)) g).edges ↔
        e ∈ g.edges ∨ ∃ o ∈ os, e = (o.fromId, o.toId) := by
    intro os
    induction os with
    | nil => intro g hg; exact ⟨hg, by simp, by simp⟩
    | cons o os ih =>
      intro g hg
      obtain ⟨i1, i2, i3⟩ := ih (g.addEdge (o.fromId, o.toId)) (wf_addEdge hg _)
      refine ⟨i1, ?_, ?_⟩
      · intro x
        rw [List.foldl_cons, i2, addEdge_nodes]
        simp only [List.mem_cons, exists_eq_or_imp, or_assoc]
      · intro e
        rw [List.foldl_cons, i3, addEdge_edges]
        simp only [List.mem_cons, exists_eq_or_imp, or_assoc]
  obtain ⟨a1, a2, a3⟩ := h1 ids Digraph.empty wf_empty
  obtain ⟨b1, b2, b3⟩ := h2 overflows _ a1
  refine ⟨b1, ?_, ?_⟩
  · intro x
    unfold overflowGraph
    rw [b2, a2]
    simp [Digraph.empty]
  · intro a b
    unfold Edge overflowGraph Flows
    rw [b3, a3]
    simp only [Digraph.empty, List.not_mem_nil, false_or]
    constructor
    · rintro ⟨o, ho, he⟩
      simp only [Prod.mk.injEq] at he
      obtain ⟨rfl, rfl⟩ := he
      exact ho
    · intro h; exact ⟨_, h, rfl⟩

theorem sorted_facts (ids : List α) (overflows : List (Overflow α)) :
    (∃ out : List α, (overflowGraph ids overflows).topologicalSort = .ok out ∧ out.Nodup ∧
      (∀ x, x ∈ out ↔ x ∈ ids ∨ ∃ o ∈ overflows, x = o.fromId ∨ x = o.toId) ∧
      (∀ l1 v l2, out = l1 ++ v :: l2 → ∀ p, Flows overflows p v → p ∈ l1) ∧
      ∀ x, ¬ Relation.TransGen (Flows overflows) x x) ∨
    ((overflowGraph ids overflows).topologicalSort = .error .unfeasible ∧
      ∃ x, Relation.TransGen (Flows overflows) x x) := by
  obtain ⟨hw, hn, he⟩ := graph_facts ids overflows
  have hE : Edge (overflowGraph ids overflows) = Flows overflows := by
    funext a b; exact propext (he a b)
  rcases topological hw with ⟨out, h1, h2, h3, h4⟩ | ⟨h1, x, -, hx⟩
  · rw [hE] at h4
    refine .inl ⟨out, h1, h2, fun x => by rw [h3, hn], h4, ?_⟩
    exact no_cycle h2 (fun a b hab => (h3 b).2 ((hn b).2 (.inr ⟨_, hab, .inr rfl⟩))) h4
  · rw [hE] at hx
    exact .inr ⟨h1, x, hx⟩

/-- **C37.** A distribution is accepted exactly when the overflows contain no cycle. -/
theorem C37_accepted (inlet : ℚ) (items : List (α × (ℚ → ℚ))) (fractions : List ℚ) (overflows : List (Overflow α)) :
    ((∃ c, Common.new inlet items fractions overflows = .ok c) ↔ ∀ x, ¬ Relation.TransGen (Flows overflows) x x) ∧
    ((∃ c, Common.new inlet items fractions overflows = .ok c) ∨
      Common.new inlet items fractions overflows = .error .validation) := by
  unfold Common.new Digraph.isAcyclic
  rcases sorted_facts (items.map (·.1)) overflows with ⟨out, h1, -, -, -, h2⟩ | ⟨h1, x, hx⟩
  · simp [h1, h2]
  · simp only [h1, Bool.false_eq_true, if_false]
    simp only [reduceCtorEq, exists_false, false_iff, not_forall, not_not, or_true, and_true]
    exact ⟨x, hx⟩

/-! ### The loop -/

theorem target_flows {overflows : List (Overflow α)} {x y : α} (h : target overflows x = some y) :
    Flows overflows x y := by
  induction overflows with
  | nil => simp [target] at h
  | cons o os ih =>
    unfold target at h
    split at h
    · rename_i hx
      simp only [Option.some.injEq] at h
      subst hx h
      exact List.mem_cons_self ..
    · exact List.mem_cons_of_mem _ (ih h)

theorem overflowOut_eq (overflows : List (Overflow α)) (x : α) :
    (overflowOut overflows x).map (·.toId) = target overflows x := by
  induction overflows with
  | nil => rfl
  | cons o os ih =>
    unfold overflowOut target
    simp only [List.find?_cons]
    by_cases h : o.fromId = x
    · simp [h]
    · simp only [h, decide_false, if_false]; exact ih

omit [DecidableEq α] in
theorem sum_zero (l : List α) (f : α → ℚ) (h : ∀ x ∈ l, f x = 0) : (l.map f).sum = 0 := by
  induction l with
  | nil => rfl
  | cons a l ih => simp only [List.map_cons, List.sum_cons, h a (by simp), ih fun x hx => h x (by simp [hx]), add_zero]

theorem inflow_append (items : List (α × (ℚ → ℚ))) (overflows : List (Overflow α)) (rec : α → ℚ) (l l' : List α) (x : α) :
    inflow items overflows rec (l ++ l') x = inflow items overflows rec l x + inflow items overflows rec l' x := by
  simp [inflow]

theorem inflow_congr (items : List (α × (ℚ → ℚ))) (overflows : List (Overflow α)) (rec rec' : α → ℚ) (l : List α) (x : α)
    (h : ∀ y ∈ l, rec y = rec' y) : inflow items overflows rec l x = inflow items overflows rec' l x := by
  unfold inflow
  congr 1
  apply List.map_congr_left
  intro y hy
  rw [h y hy]

theorem inflow_none (items : List (α × (ℚ → ℚ))) (overflows : List (Overflow α)) (rec : α → ℚ) (l : List α) (x : α)
    (h : ∀ y ∈ l, target overflows y ≠ some x) : inflow items overflows rec l x = 0 := by
  unfold inflow
  apply sum_zero
  intro y hy
  rw [if_neg (h y hy)]

/-- The loop of `_adjust_for_overflow`. -/
theorem loop (c : Common α) (rest : List (α × ℚ)) : ∀ (done : List α) (rec : α → ℚ) (m : List (α × List ℚ))
    (adj : List (α × ℚ)),
    (done ++ rest.map (·.1)).Nodup →
    (∀ x ∈ rest.map (·.1), target c.overflows x ≠ none → x ∈ c.items.map (·.1)) →
    (∀ l1 v l2, rest.map (·.1) = l1 ++ v :: l2 → ∀ p, target c.overflows p = some v → p ∈ done ++ l1) →
    adj.map (·.1) = done →
    (∀ x, ((m.lookup x).getD []).sum = inflow c.items c.overflows rec done x) →
    ∃ m' rec', (∀ y ∈ done, rec' y = rec y) ∧
      (∀ p ∈ rest, rec' p.1 = p.2 + inflow c.items c.overflows rec' (done ++ rest.map (·.1)) p.1) ∧
      rest.foldlM (adjustStep c) (m, adj) =
        .ok (m', adj ++ (rest.map (·.1)).map fun x => (x, kept c.items c.overflows rec' x)) := by
  induction rest with
  | nil =>
    intro done rec m adj _ _ _ _ _
    exact ⟨m, rec, fun _ _ => rfl, by simp, by simp [pure, Except.pure]⟩
  | cons p rest ih =>
    obtain ⟨x, r⟩ := p
    intro done rec m adj hnd hit hord hadj hm
    simp only [List.map_cons] at hnd hord hit
    have hx : x ∉ done := by
      intro h
      rw [List.nodup_append] at hnd
      exact hnd.2.2 x h x (by simp) rfl
    have hxr : x ∉ rest.map (·.1) := by
      rw [List.nodup_append] at hnd
      exact (List.nodup_cons.1 hnd.2.1).1
    -- what x receives
    let cur := r + inflow c.items c.overflows rec done x
    let rec1 : α → ℚ := fun y => if y = x then cur else rec y
    have hrec1 : ∀ y ∈ done, rec1 y = rec y := by
      intro y hy
      have : y ≠ x := fun e => hx (e ▸ hy)
      simp [rec1, this]
    have hrx : rec1 x = cur := by simp [rec1]
    have hfresh : ∀ v : ℚ, dictSet x v adj = adj ++ [(x, v)] := by
      intro v
      have : x ∉ adj.map (·.1) := by rw [hadj]; exact hx
      clear hadj
      induction adj with
      | nil => rfl
      | cons q adj ih =>
        obtain ⟨k, w⟩ := q
        simp only [List.map_cons, List.mem_cons, not_or] at this
        have hk : ¬ k = x := fun e => this.1 e.symm
        simp [dictSet, hk, ih this.2]
    have hstep : ∃ m1, adjustStep c (m, adj) (x, r) = .ok (m1, adj ++ [(x, kept c.items c.overflows rec1 x)]) ∧
        ∀ z, ((m1.lookup z).getD []).sum = inflow c.items c.overflows rec1 (done ++ [x]) z := by
      have hin : ∀ z, inflow c.items c.overflows rec1 (done ++ [x]) z = inflow c.items c.overflows rec done z +
          (if target c.overflows x = some z then excessOf c.items x cur else 0) := by
        intro z
        rw [inflow_append, inflow_congr _ _ rec1 rec done z hrec1]
        simp [inflow, hrx]
      have htg := overflowOut_eq c.overflows x
      unfold adjustStep
      simp only [hm x]
      cases ho : overflowOut c.overflows x with
      | none =>
        rw [ho] at htg
        simp only [Option.map_none] at htg
        refine ⟨m, ?_, ?_⟩
        · simp only [hfresh, kept, ← htg, hrx]; rfl
        · intro z
          rw [hin z, hm z, ← htg]; simp
      | some o =>
        rw [ho] at htg
        simp only [Option.map_some] at htg
        have hki : x ∈ c.items.map (·.1) := hit x (by simp) (by rw [← htg]; simp)
        obtain ⟨f, hf⟩ := Option.isSome_iff_exists.1 ((lookup_isSome c.items x).2 hki)
        simp only [hf]
        have hex : excessOf c.items x cur = f cur := by simp [excessOf, hf]
        refine ⟨dictSet o.toId (((m.lookup o.toId).getD []) ++ [f cur]) m, ?_, ?_⟩
        · simp only [hfresh, kept, ← htg, hrx, hex]
          rfl
        · intro z
          rw [hin z, ← htg, lookup_dictSet]
          by_cases hz : z = o.toId
          · subst hz
            simp only [if_true, Option.getD_some, List.sum_append, List.sum_singleton, hm, hex]
          · have hz' : ¬ some o.toId = some z := by simpa using fun e => hz e.symm
            simp only [hz, if_false, hz', hm, add_zero]
    obtain ⟨m1, hs1, hs2⟩ := hstep
    obtain ⟨m', rec', g1, g2, g3⟩ := ih (done ++ [x]) rec1 m1 (adj ++ [(x, kept c.items c.overflows rec1 x)])
      (by simpa using hnd) (fun z hz => hit z (by simp [hz]))
      (by
        intro l1 v l2 h p hp
        have := hord (x :: l1) v l2 (by rw [h]; rfl) p hp
        simpa using this)
      (by simp [hadj]) hs2
    have hx' : rec' x = cur := by rw [g1 x (by simp), hrx]
    have hlater : ∀ z ∈ x :: rest.map (·.1), target c.overflows z ≠ some x := by
      intro z hz ht
      have := hord [] x _ rfl z ht
      simp only [List.append_nil] at this
      rw [List.nodup_append] at hnd
      exact hnd.2.2 z this z hz rfl
    refine ⟨m', rec', ?_, ?_, ?_⟩
    · intro y hy
      rw [g1 y (by simp [hy]), hrec1 y hy]
    · intro p hp
      rcases List.mem_cons.1 hp with rfl | hp
      · simp only [List.map_cons]
        rw [hx', inflow_append, inflow_none _ _ _ (x :: rest.map (·.1)) x hlater, add_zero,
          inflow_congr _ _ rec' rec done x (fun y hy => by rw [g1 y (by simp [hy]), hrec1 y hy])]
      · have := g2 p hp
        rw [this]
        simp
    · rw [List.foldlM_cons, hs1]
      simp only [Bind.bind, Except.bind]
      rw [g3]
      have hk : kept c.items c.overflows rec1 x = kept c.items c.overflows rec' x := by
        simp only [kept, hrx, hx']
      simp [hk]

theorem mapM_lookup (items : List (α × (ℚ → ℚ))) (rates : List (α × ℚ)) (f : α → ℚ)
    (h : ∀ x ∈ items.map (·.1), rates.lookup x = some (f x)) :
    (items.mapM fun item => match rates.lookup item.1 with
      | some r => (Except.ok r : Except Err ℚ)
      | none => .error .keyError) = .ok ((items.map (·.1)).map f) := by
  induction items with
  | nil => rfl
  | cons p items ih =>
    rw [List.mapM_cons, h p.1 (by simp), ih fun x hx => h x (by simp [hx])]
    rfl

theorem lookup_pairs (l : List α) (f : α → ℚ) (x : α) (h : x ∈ l) : (l.map fun y => (y, f y)).lookup x = some (f x) := by
  induction l with
  | nil => simp at h
  | cons a l ih =>
    by_cases hx : x = a
    · subst hx; simp
    · have hb : (x == a) = false := by simp [hx]
      simp only [List.map_cons, List.lookup, hb]
      exact ih (by simpa [hx] using h)

/-- **C37.** The meaning of a distribution: there is an order of the items in which every overflow points forward. The
item at position `i` of this order receives the share `i` of the inlet rate and all excess sent to it; an item with an
overflow passes on its excess and keeps the rest; everything else is kept. -/
theorem C37_balance (inlet : ℚ) (items : List (α × (ℚ → ℚ))) (fractions : List ℚ) (overflows : List (Overflow α))
    (c : Common α) (hc : Common.new inlet items fractions overflows = .ok c)
    (hids : (items.map (·.1)).Nodup) (hlen : fractions.length = items.length)
    (hknown : ∀ o ∈ overflows, o.fromId ∈ items.map (·.1) ∧ o.toId ∈ items.map (·.1)) :
    ∃ (order : List α) (received : α → ℚ), order.Perm (items.map (·.1)) ∧
      c.graph.topologicalSort = .ok order ∧
      (∀ l1 v l2, order = l1 ++ v :: l2 → ∀ p, Flows overflows p v → p ∈ l1) ∧
      (∀ p ∈ order.zip (fractions.map (inlet * ·)),
        received p.1 = p.2 + inflow items overflows received (items.map (·.1)) p.1) ∧
      c.getStreams = .ok ((items.map (·.1)).map (kept items overflows received)) := by
  unfold Common.new at hc
  simp only at hc
  split at hc
  · simp only [Except.ok.injEq] at hc
    rcases sorted_facts (items.map (·.1)) overflows with ⟨out, h1, h2, h3, h4, -⟩ | ⟨h1, -⟩
    · have hmem : ∀ x, x ∈ out ↔ x ∈ items.map (·.1) := by
        intro x
        rw [h3]
        constructor
        · rintro (h | ⟨o, ho, rfl | rfl⟩)
          · exact h
          · exact (hknown o ho).1
          · exact (hknown o ho).2
        · exact .inl
      have hperm : out.Perm (items.map (·.1)) := (List.perm_ext_iff_of_nodup h2 hids).2 hmem
      have hlo : out.length = fractions.length := by
        have := hperm.length_eq
        simpa [hlen] using this
      have hzip : (out.zip (fractions.map (inlet * ·))).map (·.1) = out := by
        rw [List.map_fst_zip]; simp [hlo]
      have hco : c.overflows = overflows := by rw [← hc]
      have hci : c.items = items := by rw [← hc]
      have hcr : c.rates = fractions.map (inlet * ·) := by rw [← hc]
      have hcg : c.graph = overflowGraph (items.map (·.1)) overflows := by rw [← hc]
      obtain ⟨m', rec, -, g2, g3⟩ := loop c (out.zip c.rates) [] (fun _ => 0) [] []
        (by rw [hcr, hzip]; simpa using h2)
        (by
          intro x hx _
          rw [hcr, hzip] at hx
          rw [hci]
          exact (hmem x).1 hx)
        (by
          intro l1 v l2 h p hp
          rw [hcr, hzip] at h
          rw [hco] at hp
          simpa using h4 l1 v l2 h p (target_flows hp))
        rfl (by intro x; simp [inflow])
      rw [hcr, hzip] at g3
      rw [hcr, hzip, hco, hci] at g2
      refine ⟨out, rec, hperm, by rw [hcg]; exact h1, h4, ?_, ?_⟩
      · intro p hp
        have := g2 p hp
        rw [List.nil_append] at this
        rw [this]
        congr 1
        unfold inflow
        exact (hperm.map _).sum_eq
      · unfold Common.getStreams Common.adjust
        rw [hcg, h1, hcr]
        simp only [Bind.bind, Except.bind, g3, List.length_map, hlo, if_true, Pure.pure, Except.pure, hco, hci,
          List.nil_append]
        exact mapM_lookup items _ _ fun x hx => lookup_pairs out _ x ((hmem x).2 hx)
    · unfold Digraph.isAcyclic at *
      rename_i h
      simp [h1] at h
  · simp at hc

/-! ### Consequences -/

theorem kept_eq (items : List (α × (ℚ → ℚ))) (overflows : List (Overflow α)) (rec : α → ℚ) (x : α) :
    kept items overflows rec x =
      rec x - (if (target overflows x).isSome then excessOf items x (rec x) else 0) := by
  unfold kept
  cases target overflows x <;> simp

omit [DecidableEq α] in
theorem sum_sub (l : List α) (f g : α → ℚ) : (l.map fun x => f x - g x).sum = (l.map f).sum - (l.map g).sum := by
  induction l with
  | nil => simp
  | cons a l ih => simp only [List.map_cons, List.sum_cons, ih]; ring

omit [DecidableEq α] in
theorem sum_add' (l : List α) (f g : α → ℚ) : (l.map fun x => f x + g x).sum = (l.map f).sum + (l.map g).sum := by
  induction l with
  | nil => simp
  | cons a l ih => simp only [List.map_cons, List.sum_cons, ih]; ring

omit [DecidableEq α] in
theorem sum_swap (l l' : List α) (f : α → α → ℚ) :
    (l.map fun x => (l'.map fun y => f x y).sum).sum = (l'.map fun y => (l.map fun x => f x y).sum).sum := by
  induction l with
  | nil => simp
  | cons a l ih => simp only [List.map_cons, List.sum_cons, ih, sum_add']

theorem sum_single (l : List α) (hnd : l.Nodup) (t : α) (ht : t ∈ l) (v : ℚ) :
    (l.map fun x => if some t = some x then v else 0).sum = v := by
  induction l with
  | nil => simp at ht
  | cons a l ih =>
    rw [List.nodup_cons] at hnd
    simp only [List.map_cons, List.sum_cons]
    by_cases h : t = a
    · subst h
      rw [if_pos rfl, sum_zero, add_zero]
      intro x hx
      rw [if_neg]
      simp only [Option.some.injEq]
      rintro rfl
      exact hnd.1 hx
    · rw [if_neg (by simpa using h), zero_add]
      exact ih hnd.2 (by simpa [h] using ht)

/-- All excess arrives somewhere. -/
theorem total_inflow (items : List (α × (ℚ → ℚ))) (overflows : List (Overflow α)) (rec : α → ℚ) (ids : List α)
    (hnd : ids.Nodup) (hknown : ∀ o ∈ overflows, o.toId ∈ ids) :
    (ids.map (inflow items overflows rec ids)).sum =
      (ids.map fun y => if (target overflows y).isSome then excessOf items y (rec y) else 0).sum := by
  unfold inflow
  rw [sum_swap]
  congr 1
  apply List.map_congr_left
  intro y _
  cases ht : target overflows y with
  | none => simp
  | some t => exact sum_single ids hnd t (hknown _ (target_flows ht)) _

/-- **C37.** The rates of the streams add up to the shares of the inlet rate; with fractions that add up to 1, to the
inlet rate. -/
theorem C37_conserved (inlet : ℚ) (items : List (α × (ℚ → ℚ))) (fractions : List ℚ) (overflows : List (Overflow α))
    (c : Common α) (hc : Common.new inlet items fractions overflows = .ok c)
    (hids : (items.map (·.1)).Nodup) (hlen : fractions.length = items.length)
    (hknown : ∀ o ∈ overflows, o.fromId ∈ items.map (·.1) ∧ o.toId ∈ items.map (·.1)) :
    ∃ rates, c.getStreams = .ok rates ∧ rates.length = items.length ∧ rates.sum = inlet * fractions.sum := by
  obtain ⟨order, rec, h1, -, -, h3, h4⟩ := C37_balance inlet items fractions overflows c hc hids hlen hknown
  refine ⟨_, h4, by simp, ?_⟩
  have hzl : order.length = (fractions.map (inlet * ·)).length := by
    have := h1.length_eq; simp [hlen] at this ⊢; omega
  have hrec : (order.map rec).sum = (fractions.map (inlet * ·)).sum +
      (order.map (inflow items overflows rec (items.map (·.1)))).sum := by
    have hz : ∀ (l : List α) (rs : List ℚ), l.length = rs.length →
        (∀ p ∈ l.zip rs, rec p.1 = p.2 + inflow items overflows rec (items.map (·.1)) p.1) →
        (l.map rec).sum = rs.sum + (l.map (inflow items overflows rec (items.map (·.1)))).sum := by
      intro l
      induction l with
      | nil => intro rs hl _; cases rs with
        | nil => simp
        | cons r rs => simp at hl
      | cons a l ih =>
        intro rs hl h
        cases rs with
        | nil => simp at hl
        | cons r rs =>
          have := ih rs (by simpa using hl) fun p hp => h p (by simp [hp])
          have h0 := h (a, r) (by simp)
          simp only [List.map_cons, List.sum_cons, this]
          simp only at h0
          rw [h0]; ring
    exact hz _ _ hzl h3
  have hsum : ∀ f : α → ℚ, (order.map f).sum = ((items.map (·.1)).map f).sum := fun f => (h1.map f).sum_eq
  rw [hsum, hsum, total_inflow items overflows rec _ hids fun o ho => (hknown o ho).2] at hrec
  have hk : kept items overflows rec = fun x =>
      rec x - (if (target overflows x).isSome then excessOf items x (rec x) else 0) := by
    funext x; exact kept_eq items overflows rec x
  rw [hk, sum_sub, hrec]
  have hf : ∀ l : List ℚ, (l.map (inlet * ·)).sum = inlet * l.sum := by
    intro l
    induction l with
    | nil => simp
    | cons a l ih => simp only [List.map_cons, List.sum_cons, ih]; ring
  rw [hf]; ring

theorem received_nonneg (items : List (α × (ℚ → ℚ))) (overflows : List (Overflow α)) (rec : α → ℚ) (order ids : List α)
    (rates : List ℚ) (hlen : order.length = rates.length) (hmem : ∀ x, x ∈ order ↔ x ∈ ids)
    (hord : ∀ l1 v l2, order = l1 ++ v :: l2 → ∀ p, Flows overflows p v → p ∈ l1)
    (hrec : ∀ p ∈ order.zip rates, rec p.1 = p.2 + inflow items overflows rec ids p.1)
    (hr : ∀ r ∈ rates, 0 ≤ r) (hex : ∀ x r, 0 ≤ r → 0 ≤ excessOf items x r) : ∀ x ∈ ids, 0 ≤ rec x := by
  have key : ∀ k l1 v l2, l1.length = k → order = l1 ++ v :: l2 → 0 ≤ rec v := by
    intro k
    induction k using Nat.strong_induction_on with
    | _ k ih =>
      intro l1 v l2 hk ho
      have hlt : l1.length < rates.length := by rw [← hlen, ho]; simp
      have hv : (v, rates[l1.length]) ∈ order.zip rates := by
        have hlo : l1.length < order.length := by omega
        have : (order.zip rates)[l1.length]'(by simp [hlen]; omega) = (v, rates[l1.length]) := by
          simp [ho]
        rw [← this]; exact List.getElem_mem _
      rw [hrec _ hv]
      have h1 : 0 ≤ rates[l1.length] := hr _ (List.getElem_mem _)
      have h2 : 0 ≤ inflow items overflows rec ids v := by
        unfold inflow
        apply List.sum_nonneg
        intro z hz
        obtain ⟨y, hy, rfl⟩ := List.mem_map.1 hz
        split
        · rename_i ht
          have hyl := hord l1 v l2 ho y (target_flows ht)
          obtain ⟨a, b, rfl⟩ := List.append_of_mem hyl
          exact hex y _ (ih a.length (by rw [← hk]; simp) a y (b ++ v :: l2) rfl (by rw [ho]; simp))
        · exact le_refl _
      simp only
      linarith
  intro x hx
  obtain ⟨a, b, e⟩ := List.append_of_mem ((hmem x).2 hx)
  exact key _ a x b rfl e

/-- **C37.** If the inlet rate and the fractions are not negative, and the excess of a non-negative rate lies between 0
and the rate, then no stream has a negative rate. -/
theorem C37_nonneg (inlet : ℚ) (items : List (α × (ℚ → ℚ))) (fractions : List ℚ) (overflows : List (Overflow α))
    (c : Common α) (hc : Common.new inlet items fractions overflows = .ok c)
    (hids : (items.map (·.1)).Nodup) (hlen : fractions.length = items.length)
    (hknown : ∀ o ∈ overflows, o.fromId ∈ items.map (·.1) ∧ o.toId ∈ items.map (·.1))
    (hin : 0 ≤ inlet) (hfr : ∀ f ∈ fractions, 0 ≤ f)
    (hex : ∀ item ∈ items, ∀ r, 0 ≤ r → 0 ≤ item.2 r ∧ item.2 r ≤ r) :
    ∃ rates, c.getStreams = .ok rates ∧ ∀ r ∈ rates, 0 ≤ r := by
  obtain ⟨order, rec, h1, -, h2, h3, h4⟩ := C37_balance inlet items fractions overflows c hc hids hlen hknown
  refine ⟨_, h4, ?_⟩
  have hbound : ∀ x r, 0 ≤ r → 0 ≤ excessOf items x r ∧ excessOf items x r ≤ r := by
    intro x r hr
    unfold excessOf
    cases hl : items.lookup x with
    | none => exact ⟨le_refl _, hr⟩
    | some f => exact hex _ (mem_of_lookup hl) r hr
  have hnn := received_nonneg items overflows rec order (items.map (·.1)) (fractions.map (inlet * ·))
    (by have := h1.length_eq; simp [hlen] at this ⊢; omega) (fun x => h1.mem_iff) h2 h3
    (by
      intro r hr
      obtain ⟨f, hf, rfl⟩ := List.mem_map.1 hr
      exact mul_nonneg hin (hfr f hf))
    (fun x r hr => (hbound x r hr).1)
  intro r hr
  obtain ⟨x, hx, rfl⟩ := List.mem_map.1 hr
  rw [kept_eq]
  have h0 := hnn x hx
  split
  · have := (hbound x (rec x) h0).2; linarith
  · linarith

/-- **C37.** An item that declares an overflow and reports as excess what lies above its capacity never gets more than
its capacity; the stream at its position is its own. -/
theorem C37_capacity (inlet : ℚ) (items : List (α × (ℚ → ℚ))) (fractions : List ℚ) (overflows : List (Overflow α))
    (c : Common α) (hc : Common.new inlet items fractions overflows = .ok c)
    (hids : (items.map (·.1)).Nodup) (hlen : fractions.length = items.length)
    (hknown : ∀ o ∈ overflows, o.fromId ∈ items.map (·.1) ∧ o.toId ∈ items.map (·.1))
    (i : Nat) (hi : i < items.length) (cap : ℚ) (hcap : ∀ r, items[i].2 r = max 0 (r - cap))
    (hov : ∃ o ∈ overflows, o.fromId = items[i].1) :
    ∃ rates, c.getStreams = .ok rates ∧ ∃ r, rates[i]? = some r ∧ r ≤ cap := by
  obtain ⟨order, rec, h1, -, h2, h3, h4⟩ := C37_balance inlet items fractions overflows c hc hids hlen hknown
  refine ⟨_, h4, kept items overflows rec items[i].1, by simp [hi], ?_⟩
  have ht : (target overflows items[i].1).isSome = true := by
    obtain ⟨o, ho, he⟩ := hov
    clear hc hknown h2 h3 h4
    induction overflows with
    | nil => simp at ho
    | cons o' os ih =>
      unfold target
      by_cases h : o'.fromId = items[i].1
      · simp [h]
      · simp only [h, if_false]
        rcases List.mem_cons.1 ho with rfl | ho
        · exact absurd he h
        · exact ih ho
  have hl : items.lookup items[i].1 = some items[i].2 := by
    clear hc hknown h2 h3 h4 ht hov hcap hlen h1
    induction items generalizing i with
    | nil => simp at hi
    | cons p items ih =>
      simp only [List.map_cons, List.nodup_cons] at hids
      cases i with
      | zero => simp [List.lookup]
      | succ i =>
        simp only [List.length_cons] at hi
        have hne : items[i].1 ≠ p.1 := by
          intro e
          exact hids.1 (by rw [← e]; exact List.mem_map.2 ⟨_, List.getElem_mem _, rfl⟩)
        have hb : (items[i].1 == p.1) = false := by simp [hne]
        simp only [List.getElem_cons_succ, List.lookup, hb]
        exact ih hids.2 i (by omega)
  rw [kept_eq, if_pos ht]
  simp only [excessOf, hl, hcap]
  have := le_max_right 0 (rec items[i].1 - cap)
  linarith

/-- **C37.** Without overflows every item gets its own share. -/
theorem C37_no_overflow (inlet : ℚ) (items : List (α × (ℚ → ℚ))) (fractions : List ℚ)
    (hids : (items.map (·.1)).Nodup) (hlen : fractions.length = items.length) :
    ∃ c, Common.new inlet items fractions [] = .ok c ∧ c.getStreams = .ok (fractions.map (inlet * ·)) := by
  obtain ⟨c, hc⟩ := (C37_accepted inlet items fractions ([] : List (Overflow α))).1.2 (by
    intro x h
    cases h with
    | single h => simp [Flows] at h
    | tail _ h => simp [Flows] at h)
  refine ⟨c, hc, ?_⟩
  obtain ⟨order, rec, h1, hs, h2, h3, h4⟩ := C37_balance inlet items fractions [] c hc hids hlen (by simp)
  have hg : (overflowGraph (items.map (·.1)) ([] : List (Overflow α))) = ⟨items.map (·.1), []⟩ := by
    have : ∀ (ids : List α) (g : Digraph α), (g.nodes ++ ids).Nodup → g.edges = [] →
        ids.foldl Digraph.addNode g = ⟨g.nodes ++ ids, []⟩ := by
      intro ids
      induction ids with
      | nil => intro g _ h; cases g; simp at h; simp [h]
      | cons a ids ih =>
        intro g hnd he
        have ha : a ∉ g.nodes := by
          intro h
          rw [List.nodup_append] at hnd
          exact hnd.2.2 a h a (by simp) rfl
        rw [List.foldl_cons, Digraph.addNode, if_neg ha, ih ⟨g.nodes ++ [a], g.edges⟩ (by simpa using hnd) he]
        simp
    have := this (items.map (·.1)) Digraph.empty (by simpa [Digraph.empty] using hids) rfl
    simpa [overflowGraph, Digraph.empty] using this
  have hcg : c.graph = ⟨items.map (·.1), []⟩ := by
    unfold Common.new at hc
    simp only at hc
    split at hc
    · simp only [Except.ok.injEq] at hc
      rw [← hc]; exact hg
    · simp at hc
  have horder : order = items.map (·.1) := by
    rw [hcg] at hs
    have hn : ∀ v : α, (Digraph.preds (⟨items.map (·.1), []⟩ : Digraph α) v) = [] := fun v => rfl
    have hm : ∀ (l : List α) st, l.foldlM (Digraph.nodeStep (⟨items.map (·.1), []⟩ : Digraph α)) st = .ok st := by
      intro l
      induction l with
      | nil => intro st; rfl
      | cons a l ih => intro st; rw [List.foldlM_cons]; exact ih st
    have hd : Digraph.inDegrees (⟨items.map (·.1), []⟩ : Digraph α) = [] := by
      unfold Digraph.inDegrees
      rw [List.filter_eq_nil_iff]
      intro p hp
      obtain ⟨v, -, rfl⟩ := List.mem_map.1 hp
      simp [hn]
    unfold Digraph.topologicalSort at hs
    rw [hd] at hs
    simp only [hn, List.length_nil, decide_true, List.filter_true] at hs
    unfold Digraph.topoLoop at hs
    split at hs
    · rename_i h
      simp only [if_true, Except.ok.injEq] at hs
      rw [← hs, h]
    · simp only [hm, Bind.bind, Except.bind, Pure.pure, Except.pure] at hs
      have : Digraph.topoLoop (⟨items.map (·.1), []⟩ : Digraph α) (items.map (·.1)).length [] [] = .ok [] := by
        cases (items.map (·.1)).length <;> simp [Digraph.topoLoop]
      rw [this] at hs
      simp only [Except.ok.injEq, List.append_nil] at hs
      exact hs.symm
  rw [h4]
  congr 1
  subst horder
  have hk : ∀ (l : List α) (rs : List ℚ), l.length = rs.length →
      (∀ p ∈ l.zip rs, rec p.1 = p.2 + inflow items [] rec (items.map (·.1)) p.1) →
      l.map (kept items [] rec) = rs := by
    intro l
    induction l with
    | nil => intro rs hl _; cases rs with
      | nil => rfl
      | cons r rs => simp at hl
    | cons a l ih =>
      intro rs hl h
      cases rs with
      | nil => simp at hl
      | cons r rs =>
        have h0 := h (a, r) (by simp)
        rw [inflow_none _ _ _ _ _ (by simp [target])] at h0
        simp only [add_zero] at h0
        rw [List.map_cons, ih rs (by simpa using hl) fun p hp => h p (by simp [hp])]
        simp [kept, target, h0]
  exact hk _ _ (by simp [hlen]) h3

/-- **C37 (partial).** When the order in which overflow is computed is the declared order of the items, every item
receives its own share. Missing: the code pairs the shares with the items in the order of computation, so in general
shares are exchanged, see `C37_shares_exchanged`. -/
theorem C37_own_share_partial (inlet : ℚ) (items : List (α × (ℚ → ℚ))) (fractions : List ℚ)
    (overflows : List (Overflow α)) (c : Common α) (hc : Common.new inlet items fractions overflows = .ok c)
    (hids : (items.map (·.1)).Nodup) (hlen : fractions.length = items.length)
    (hknown : ∀ o ∈ overflows, o.fromId ∈ items.map (·.1) ∧ o.toId ∈ items.map (·.1))
    (hsorted : c.graph.topologicalSort = .ok (items.map (·.1))) :
    ∃ received : α → ℚ,
      (∀ p ∈ (items.map (·.1)).zip fractions,
        received p.1 = inlet * p.2 + inflow items overflows received (items.map (·.1)) p.1) ∧
      c.getStreams = .ok ((items.map (·.1)).map (kept items overflows received)) := by
  obtain ⟨order, rec, h1, hs, h2, h3, h4⟩ := C37_balance inlet items fractions overflows c hc hids hlen hknown
  rw [hsorted] at hs
  simp only [Except.ok.injEq] at hs
  subst hs
  refine ⟨rec, ?_, h4⟩
  intro p hp
  have := h3 (p.1, inlet * p.2) (by
    rw [List.zip_map_right]
    exact List.mem_map.2 ⟨p, hp, rfl⟩)
  exact this

/-- The property fails in general: three items, the first may overflow to the second, nothing exceeds any capacity. The
second and the third item get each other's share. -/
theorem C37_shares_exchanged : ∃ c, Common.new 100 [("a", fun _ => 0), ("b", fun _ => 0), ("c", fun _ => 0)]
    [1/2, 3/10, 1/5] [⟨"a", "b"⟩] = .ok c ∧ c.getStreams = .ok [50, 20, 30] := by
  refine ⟨_, rfl, ?_⟩
  decide +kernel

/-- **C37.** A wrong number of fractions, or an overflow that mentions an unknown item, is an error. -/
theorem C37_errors (inlet : ℚ) (items : List (α × (ℚ → ℚ))) (fractions : List ℚ) (overflows : List (Overflow α))
    (c : Common α) (hc : Common.new inlet items fractions overflows = .ok c) (hids : (items.map (·.1)).Nodup)
    (hbad : (fractions.length ≠ items.length ∧
        ∀ o ∈ overflows, o.fromId ∈ items.map (·.1) ∧ o.toId ∈ items.map (·.1)) ∨
      (fractions.length = items.length ∧
        ∃ o ∈ overflows, o.fromId ∉ items.map (·.1) ∨ o.toId ∉ items.map (·.1))) :
    c.getStreams = .error .valueError ∨ c.getStreams = .error .keyError := by
  unfold Common.new at hc
  simp only at hc
  split at hc
  · simp only [Except.ok.injEq] at hc
    rcases sorted_facts (items.map (·.1)) overflows with ⟨out, h1, h2, h3, h4, -⟩ | ⟨h1, -⟩
    · have hne : out.length ≠ fractions.length := by
        rcases hbad with ⟨hl, hk⟩ | ⟨hl, o, ho, hk⟩
        · have hmem : ∀ x, x ∈ out ↔ x ∈ items.map (·.1) := by
            intro x
            rw [h3]
            constructor
            · rintro (h | ⟨o, ho, rfl | rfl⟩)
              · exact h
              · exact (hk o ho).1
              · exact (hk o ho).2
            · exact .inl
          have := ((List.perm_ext_iff_of_nodup h2 hids).2 hmem).length_eq
          simp only [List.length_map] at this
          omega
        · have hsub : ∃ x, x ∉ items.map (·.1) ∧ x ∈ out := by
            rcases hk with hk | hk
            · exact ⟨_, hk, (h3 _).2 (.inr ⟨o, ho, .inl rfl⟩)⟩
            · exact ⟨_, hk, (h3 _).2 (.inr ⟨o, ho, .inr rfl⟩)⟩
          obtain ⟨x, hx, hxo⟩ := hsub
          have := (List.subperm_of_subset (List.nodup_cons.2 ⟨hx, hids⟩) (fun y hy => by
            rcases List.mem_cons.1 hy with rfl | hy
            · exact hxo
            · exact (h3 y).2 (.inl hy)) : (x :: items.map (·.1)).Subperm out).length_le
          simp only [List.length_cons, List.length_map] at this
          omega
      have hcg : c.graph = overflowGraph (items.map (·.1)) overflows := by rw [← hc]
      have hcr : c.rates.length = fractions.length := by rw [← hc]; simp
      have hfold : ∀ (l : List (α × ℚ)) st, (∃ st', l.foldlM (adjustStep c) st = .ok st') ∨
          l.foldlM (adjustStep c) st = .error .keyError := by
        intro l
        induction l with
        | nil => intro st; exact .inl ⟨st, rfl⟩
        | cons p l ih =>
          intro st
          rw [List.foldlM_cons]
          have hstep : (∃ st', adjustStep c st p = .ok st') ∨ adjustStep c st p = .error .keyError := by
            unfold adjustStep
            simp only
            split
            · split
              · exact .inr rfl
              · exact .inl ⟨_, rfl⟩
            · exact .inl ⟨_, rfl⟩
          rcases hstep with ⟨st', e⟩ | e
          · rw [e]; exact ih st'
          · rw [e]; exact .inr rfl
      unfold Common.getStreams Common.adjust
      rw [hcg, h1]
      simp only [Bind.bind, Except.bind]
      rcases hfold (out.zip c.rates) ([], []) with ⟨st', e⟩ | e
      · left
        rw [e]
        simp only [hcr, hne, if_false]
      · right
        rw [e]
    · unfold Digraph.isAcyclic at *
      rename_i h
      simp [h1] at h
  · simp at hc

/-! ### Priorities -/

theorem allValid_true {σ : Type} : ∀ (vs : List (σ → Bool)) (ss : List σ), vs.length = ss.length →
    allValid vs ss = .ok (decide (∀ p ∈ vs.zip ss, p.1 p.2 = true)) := by
  intro vs
  induction vs with
  | nil => intro ss h; cases ss with
    | nil => simp [allValid]
    | cons s ss => simp at h
  | cons v vs ih =>
    intro ss h
    cases ss with
    | nil => simp at h
    | cons s ss =>
      unfold allValid
      by_cases hv : v s = true
      · rw [if_pos hv, ih ss (by simpa using h)]
        congr 1
        rw [decide_eq_decide, List.zip_cons_cons, List.forall_mem_cons]
        simp [hv]
      · rw [if_neg hv]
        congr 1
        symm
        rw [decide_eq_false_iff_not, List.zip_cons_cons, List.forall_mem_cons]
        exact fun hc => hv hc.1

theorem find_loop {σ : Type} (items : List (σ → Bool)) : ∀ (ds : List (List σ)) (last : List σ),
    (∀ d ∈ ds, d.length = items.length) →
    (∃ l1 d l2, ds = l1 ++ d :: l2 ∧ (∀ p ∈ items.zip d, p.1 p.2 = true) ∧
      (∀ d' ∈ l1, ∃ p ∈ items.zip d', p.1 p.2 = false) ∧ findLoop items ds last = .ok d) ∨
    ((∀ d ∈ ds, ∃ p ∈ items.zip d, p.1 p.2 = false) ∧ findLoop items ds last = .ok (ds.getLast?.getD last)) := by
  intro ds
  induction ds with
  | nil => intro last _; exact .inr ⟨by simp, rfl⟩
  | cons d ds ih =>
    intro last hl
    unfold findLoop
    rw [allValid_true items d (hl d (by simp)).symm]
    simp only [Bind.bind, Except.bind]
    by_cases hv : ∀ p ∈ items.zip d, p.1 p.2 = true
    · left
      exact ⟨[], d, ds, rfl, hv, by simp, by rw [if_pos (by simpa using hv)]⟩
    · rw [if_neg (by simpa using hv)]
      have hbad : ∃ p ∈ items.zip d, p.1 p.2 = false := by
        by_contra hc
        apply hv
        intro p hp
        by_contra h
        exact hc ⟨p, hp, by simpa using h⟩
      rcases ih d (fun d' hd' => hl d' (by simp [hd'])) with ⟨l1, d1, l2, e, h1, h2, h3⟩ | ⟨h1, h2⟩
      · left
        refine ⟨d :: l1, d1, l2, by simp [e], h1, ?_, h3⟩
        intro d' hd'
        rcases List.mem_cons.1 hd' with rfl | hd'
        · exact hbad
        · exact h2 d' hd'
      · right
        refine ⟨?_, ?_⟩
        · intro d' hd'
          rcases List.mem_cons.1 hd' with rfl | hd'
          · exact hbad
          · exact h1 d' hd'
        · rw [h2]
          cases ds with
          | nil => rfl
          | cons d2 ds => simp [List.getLast?_cons]

/-- **C37.** With priorities, the streams of the first distribution that is valid for every item are used; if there is
none, those of the last one. -/
theorem C37_priorities {σ : Type} (distributions : List (List σ)) (items : List (σ → Bool)) (hne : distributions ≠ [])
    (hlen : ∀ d ∈ distributions, d.length = items.length) :
    (∃ l1 d l2, distributions = l1 ++ d :: l2 ∧ (∀ p ∈ items.zip d, p.1 p.2 = true) ∧
      (∀ d' ∈ l1, ∃ p ∈ items.zip d', p.1 p.2 = false) ∧ findFirstValid distributions items = .ok d) ∨
    ((∀ d ∈ distributions, ∃ p ∈ items.zip d, p.1 p.2 = false) ∧
      findFirstValid distributions items = .ok (distributions.getLast hne)) := by
  unfold findFirstValid
  rw [if_neg hne]
  rcases find_loop items distributions [] hlen with h | ⟨h1, h2⟩
  · exact .inl h
  · refine .inr ⟨h1, ?_⟩
    rw [h2, List.getLast?_eq_some_getLast hne]
    rfl

/-! ### Non-vacuity -/

/-- A chain: `a` handles 30, `b` handles 40, the rest ends in `c`. -/
example : ∃ c, Common.new 100 [("a", fun r => max 0 (r - 30)), ("b", fun r => max 0 (r - 40)), ("c", fun _ => 0)]
    [1/2, 3/10, 1/5] [⟨"a", "b"⟩, ⟨"b", "c"⟩] = .ok c ∧
    c.graph.topologicalSort = .ok ["a", "b", "c"] ∧ c.getStreams = .ok [30, 40, 30] := by
  refine ⟨_, rfl, ?_, ?_⟩ <;> decide +kernel

example : Common.new 100 [("a", fun _ => 0), ("b", fun _ => 0)] [1/2, 1/2] [⟨"a", "b"⟩, ⟨"b", "a"⟩] matches
    .error .validation := rfl

example : findFirstValid [[5, 9], [4, 4], [1, 1]] [fun r => decide (r < 5), fun r => decide (r < 6)] =
    .ok [4, 4] := by decide +kernel

end Verif.C37
