import Verif.Model.Diagram
import Verif.Props.C89
import Mathlib.Data.List.Nodup

/-! # C108 — The flow diagram shows every component of the file once, connected to what feeds it -/

namespace Verif.C108
open Verif.Time Verif.GraphModel Verif.Run Verif.Diagram

variable {μ ι : Type}

/-! ## Specification -/

/-- A generator set of the file with ids for it and its consumers. -/
structure LGenset (μ ι : Type) where
  id : Nat
  y : YGenset μ ι
  consumers : List (Nat × YConsumer μ ι)

/-- An installation of the file with ids for it and all it contains. -/
structure LInstallation (μ ι : Type) where
  id : Nat
  y : YInstallation μ ι
  gensets : List (LGenset μ ι)
  consumers : List (Nat × YConsumer μ ι)
  emitters : List (Nat × String)

/-- Consumers with a model in the period of the file. -/
def used (ys : List (YConsumer μ ι)) : List (YConsumer μ ι) := ys.filter fun y => !y.models.isEmpty

/-- Ids of a generator set and its consumers. -/
def LGenset.ids (g : LGenset μ ι) : List Nat := g.id :: g.consumers.map (·.1)

/-- Ids of an installation and all it contains. -/
def LInstallation.ids (i : LInstallation μ ι) : List Nat :=
  i.id :: (i.gensets.flatMap LGenset.ids ++ i.consumers.map (·.1) ++ i.emitters.map (·.1))

/-- The labels are for the file: the same components in the same order, without the consumers that have no model. -/
structure Labels (L : List (LInstallation μ ι)) (file : List (YInstallation μ ι)) : Prop where
  installations : L.map (·.y) = file
  gensets : ∀ i ∈ L, i.gensets.map (·.y) = i.y.gensets
  electric : ∀ i ∈ L, ∀ g ∈ i.gensets, g.consumers.map (·.2) = used g.y.consumers
  consumers : ∀ i ∈ L, i.consumers.map (·.2) = used i.y.consumers
  emitters : ∀ i ∈ L, i.emitters.map (·.2) = i.y.emitters
  nodup : (L.flatMap LInstallation.ids).Nodup

/-- The symbol of a component type. -/
def symbol : Components.Kind → NodeType
  | .compressorSystem => .compressorSystem
  | .pumpSystem => .pumpSystem
  | .compressor => .compressor
  | .pump => .pump
  | .generic => .direct

/-- The id of a node. -/
def tag (n : Nat) : Id := .comp (.uuid n)

/-- A consumer has a node without a subdiagram. -/
def consumerNode (k : Kinds μ ι) (c : Nat × YConsumer μ ι) : Info × Option Chart :=
  (⟨tag c.1, c.2.name, symbol (k.kind c.2)⟩, none)

/-- So has a generator set, whose consumers are shown beside it. -/
def gensetNodes (k : Kinds μ ι) (g : LGenset μ ι) : List (Info × Option Chart) :=
  (⟨tag g.id, g.y.name, .generator⟩, none) :: g.consumers.map (consumerNode k)

/-- And an emitter. -/
def emitterNode (e : Nat × String) : Info × Option Chart := (⟨tag e.1, e.2, .direct⟩, none)

/-- Fuel goes in and emissions come out. -/
def burns (n : Nat) : List Edge := [⟨.fuel, tag n, .fuel⟩, ⟨tag n, .emission, .emission⟩]

/-- A generator set burns fuel and feeds each of its consumers. -/
def gensetEdges (g : LGenset μ ι) : List Edge :=
  burns g.id ++ g.consumers.map fun c => ⟨tag g.id, tag c.1, .electricity⟩

/-- The diagram of an installation. -/
def inside (k : Kinds μ ι) (p : Period) (i : LInstallation μ ι) : Chart :=
  .mk (tag i.id) i.y.name p
    ((fuelNode, none) :: (emissionNode, none) ::
      (i.gensets.flatMap (gensetNodes k) ++ i.consumers.map (consumerNode k) ++ i.emitters.map emitterNode))
    (i.gensets.flatMap gensetEdges ++ i.consumers.flatMap (fun c => burns c.1) ++
      i.emitters.map fun e => ⟨tag e.1, .emission, .emission⟩)
    [.fuel, .emission, .electricity]

/-- The node of an installation, with a diagram unless it is empty. -/
def installationNode (k : Kinds μ ι) (p : Period) (i : LInstallation μ ι) : Info × Option Chart :=
  (⟨tag i.id, i.y.name, .installation⟩,
    if i.gensets.isEmpty && i.consumers.isEmpty && i.emitters.isEmpty then none else some (inside k p i))

/-- The diagram of the file. -/
def picture (k : Kinds μ ι) (p : Period) (L : List (LInstallation μ ι)) : Chart :=
  .mk .area "Area" p ((fuelNode, none) :: L.map (installationNode k p) ++ [(emissionNode, none)])
    (L.flatMap fun i => burns i.id) [.fuel, .emission]

/-- The nodes of a diagram with their subdiagrams. -/
def nodes : Chart → List (Info × Option Chart)
  | .mk _ _ _ ns _ _ => ns

/-- The edges of a diagram. -/
def edges : Chart → List Edge
  | .mk _ _ _ _ es _ => es

/-- The kinds of flow a diagram declares. -/
def flows : Chart → List Flow
  | .mk _ _ _ _ _ fs => fs

/-- Id, title and period of a diagram. -/
def heading : Chart → Id × String × Period
  | .mk i t p _ _ _ => (i, t, p)

/-- The nodes that stand for components. -/
def proper (ns : List (Info × Option Chart)) : List Info := (ns.map (·.1)).filter fun x => decide (x.type ≠ .inputOutput)

/-- The components of a subdiagram. -/
def below : Option Chart → List Info
  | none => []
  | some s => proper (nodes s)

/-- The components of a diagram and of the diagrams in it. -/
def shown (c : Chart) : List Info := (nodes c).flatMap fun x => proper [x] ++ below x.2

/-- The names of all components of a file that have a model. -/
def names (file : List (YInstallation μ ι)) : List String :=
  file.flatMap fun i => i.name :: (i.gensets.flatMap (fun g => g.name :: (used g.consumers).map (·.name)) ++
    (used i.consumers).map (·.name) ++ i.emitters)

/-- A diagram that can be drawn, and that leaves nothing hanging. -/
structure Sound (c : Chart) : Prop where
  /-- Nodes can be told apart. -/
  ids : ((nodes c).map (·.1.id)).Nodup
  /-- Edges join nodes of the diagram, by flows of the diagram. -/
  joined : ∀ e ∈ edges c, e.source ∈ (nodes c).map (·.1.id) ∧ e.target ∈ (nodes c).map (·.1.id) ∧ e.flow ∈ flows c
  /-- Every component has at most one source. -/
  fed : (((edges c).filter fun e => decide (e.target ≠ .emission)).map (·.target)).Nodup
  /-- Every component emits at most once. -/
  emits : (((edges c).filter fun e => decide (e.target = .emission)).map (·.source)).Nodup
  /-- Every component has a source, or emissions. -/
  held : ∀ x ∈ proper (nodes c), ∃ e ∈ edges c, e.target = x.id ∨ e.source = x.id
  /-- Electricity comes from what burns fuel. -/
  burnt : ∀ e ∈ edges c, e.flow = .electricity →
    ⟨.fuel, e.source, .fuel⟩ ∈ edges c ∧ ⟨e.source, .emission, .emission⟩ ∈ edges c

/-! ## Labels of a mapped file -/

open C89 in
/-- The consumers that are kept, with their ids. -/
def keptC (n : Nat) (ys : List (YConsumer μ ι)) : List (Nat × YConsumer μ ι) :=
  (lay sizeC n ys).filter fun c => !c.2.models.isEmpty

open C89 in
def labelG (g : Nat × YGenset μ ι) : LGenset μ ι := ⟨g.1, g.2, keptC (g.1 + 1) g.2.consumers⟩

open C89 in
def labelI (z : Nat × YInstallation μ ι) : LInstallation μ ι where
  id := z.1
  y := z.2
  gensets := (lay sizeG (z.1 + 1) z.2.gensets).map labelG
  consumers := keptC (z.1 + 1 + total sizeG z.2.gensets) z.2.consumers
  emitters := lay sizeE (z.1 + 1 + total sizeG z.2.gensets + total sizeC z.2.consumers) z.2.emitters

open C89 in
def label (file : List (YInstallation μ ι)) : List (LInstallation μ ι) := (lay sizeI 1 file).map labelI

open C89

theorem keptC_snd (n : Nat) (ys : List (YConsumer μ ι)) : (keptC n ys).map (·.2) = used ys := by
  unfold keptC used
  induction ys generalizing n with
  | nil => rfl
  | cons y ys ih =>
    simp only [lay, List.filter_cons]
    by_cases h : y.models.isEmpty = true
    · simp only [h, Bool.not_true, Bool.false_eq_true, if_false]; exact ih _
    · simp only [h, Bool.not_false, if_true, List.map_cons]; rw [ih]

/-- Ids in increasing order, between bounds. -/
def Up (l : List Nat) (lo hi : Nat) : Prop := l.Pairwise (· < ·) ∧ ∀ k ∈ l, lo ≤ k ∧ k < hi

theorem up_append {l m : List Nat} {a b c : Nat} (h1 : Up l a b) (h2 : Up m b c) (hab : a ≤ b) (hbc : b ≤ c) :
    Up (l ++ m) a c := by
  refine ⟨List.pairwise_append.mpr ⟨h1.1, h2.1, fun x hx y hy => ?_⟩, fun k hk => ?_⟩
  · have := h1.2 x hx; have := h2.2 y hy; omega
  · rcases List.mem_append.mp hk with h | h
    · have := h1.2 k h; omega
    · have := h2.2 k h; omega

theorem up_cons {l : List Nat} {a b : Nat} (h : Up l (a + 1) b) (hab : a < b) : Up (a :: l) a b := by
  refine ⟨List.pairwise_cons.mpr ⟨fun x hx => by have := h.2 x hx; omega, h.1⟩, fun k hk => ?_⟩
  rcases List.mem_cons.mp hk with h' | h'
  · omega
  · have := h.2 k h'; omega

theorem up_lay {α : Type} (size : α → Nat) (ids : Nat × α → List Nat)
    (hi : ∀ x, Up (ids x) x.1 (x.1 + size x.2)) (n : Nat) (as : List α) :
    Up ((lay size n as).flatMap ids) n (n + total size as) := by
  induction as generalizing n with
  | nil => exact ⟨List.Pairwise.nil, by simp [lay]⟩
  | cons a as ih =>
    simp only [lay, List.flatMap_cons, total, List.map_cons, List.sum_cons]
    have h := ih (n + size a)
    rw [Nat.add_assoc] at h
    exact up_append (hi (n, a)) h (by simp) (by dsimp only [total]; omega)

theorem up_kept (n : Nat) (ys : List (YConsumer μ ι)) : Up ((keptC n ys).map (·.1)) n (n + total sizeC ys) := by
  have h := up_lay sizeC (fun c : Nat × YConsumer μ ι => if c.2.models.isEmpty then [] else [c.1]) (by
    intro x
    by_cases h : x.2.models.isEmpty = true
    · simp only [h, if_true]; exact ⟨List.Pairwise.nil, by simp⟩
    · simp only [h, Bool.false_eq_true, if_false]
      exact ⟨by simp, by simp only [List.mem_singleton, sizeC]; omega⟩) n ys
  have e : (keptC n ys).map (·.1) = (lay sizeC n ys).flatMap
      (fun c : Nat × YConsumer μ ι => if c.2.models.isEmpty then [] else [c.1]) := by
    unfold keptC
    generalize lay sizeC n ys = l
    induction l with
    | nil => rfl
    | cons c l ih =>
      by_cases h : c.2.models.isEmpty = true
      · simp only [List.filter_cons, h, Bool.not_true, Bool.false_eq_true, if_false, List.flatMap_cons, if_true,
          List.nil_append, ih]
      · simp only [List.filter_cons, h, Bool.not_false, if_true, List.flatMap_cons, Bool.false_eq_true, if_false,
          List.map_cons, List.singleton_append, ih]
  rw [e]
  exact h

theorem up_labelG (g : Nat × YGenset μ ι) : Up (labelG g).ids g.1 (g.1 + sizeG g.2) := by
  have h := up_kept (g.1 + 1) g.2.consumers
  rw [show g.1 + sizeG g.2 = g.1 + 1 + total sizeC g.2.consumers by simp only [sizeG]; omega]
  exact up_cons (a := g.1) h (by omega)

theorem up_labelI (z : Nat × YInstallation μ ι) : Up (labelI z).ids z.1 (z.1 + sizeI z.2) := by
  have h1 := up_lay sizeG (fun g => (labelG g).ids) up_labelG (z.1 + 1) z.2.gensets
  have h2 := up_kept (z.1 + 1 + total sizeG z.2.gensets) z.2.consumers
  have h3 := up_lay sizeE (fun e : Nat × String => [e.1]) (fun x => ⟨by simp, by simp [sizeE]⟩)
    (z.1 + 1 + total sizeG z.2.gensets + total sizeC z.2.consumers) z.2.emitters
  rw [show z.1 + sizeI z.2 = z.1 + 1 + total sizeG z.2.gensets + total sizeC z.2.consumers + total sizeE z.2.emitters by
    simp only [sizeI]; omega]
  have h := up_append (up_append h1 h2 (by omega) (by omega)) h3 (by omega) (by omega)
  have e : (labelI z).ids = z.1 :: (((lay sizeG (z.1 + 1) z.2.gensets).flatMap (fun g => (labelG g).ids) ++
      (keptC (z.1 + 1 + total sizeG z.2.gensets) z.2.consumers).map (·.1)) ++
      (lay sizeE (z.1 + 1 + total sizeG z.2.gensets + total sizeC z.2.consumers) z.2.emitters).flatMap
        (fun e : Nat × String => [e.1])) := by
    simp only [LInstallation.ids, labelI, List.flatMap_map]
    rw [← List.map_eq_flatMap]
  rw [e]
  exact up_cons h (by omega)

theorem label_labels (file : List (YInstallation μ ι)) : Labels (label file) file where
  installations := by
    unfold label
    rw [List.map_map]
    exact lay_map_snd _ _ _
  gensets i hi := by
    obtain ⟨z, -, rfl⟩ := List.mem_map.mp hi
    simp only [labelI, List.map_map]
    exact lay_map_snd _ _ _
  electric i hi g hg := by
    obtain ⟨z, -, rfl⟩ := List.mem_map.mp hi
    obtain ⟨x, -, rfl⟩ := List.mem_map.mp hg
    exact keptC_snd _ _
  consumers i hi := by
    obtain ⟨z, -, rfl⟩ := List.mem_map.mp hi
    exact keptC_snd _ _
  emitters i hi := by
    obtain ⟨z, -, rfl⟩ := List.mem_map.mp hi
    exact lay_map_snd _ _ _
  nodup := by
    unfold label
    rw [List.flatMap_map]
    refine (up_lay sizeI (fun z => (labelI z).ids) up_labelI 1 file).1.imp ?_
    intro a b h
    omega

/-! ## What the graph says -/

theorem out_flatMap {α : Type} (δ : α → Delta μ ι) (L : List α) (k : Nat) :
    out (concat (L.map δ)) k = L.flatMap fun x => out (δ x) k := by
  induction L with
  | nil => rfl
  | cons x L ih => rw [List.map_cons, concat_cons, out_app, ih, List.flatMap_cons]

theorem out_add_self (d : Delta μ ι) (p n : Nat) (c : Comp μ ι) : out (d.add p n c) p = out d p ++ [.uuid n] := by
  simp [out, Delta.add]

theorem out_C (p : Nat) (x : Nat × YConsumer μ ι) :
    out (deltaC p x) p = if x.2.models.isEmpty then [] else [.uuid x.1] := by
  unfold deltaC
  by_cases h : x.2.models = []
  · rw [if_pos h, h]; rfl
  · rw [if_neg h, if_neg (by simpa using h)]; simp [out]

theorem out_kept (p n : Nat) (ys : List (YConsumer μ ι)) :
    ((lay sizeC n ys).flatMap fun x => out (deltaC p x) p) = (keptC n ys).map fun c => .uuid c.1 := by
  unfold keptC
  generalize lay sizeC n ys = l
  induction l with
  | nil => rfl
  | cons c l ih =>
    rw [List.flatMap_cons, ih, out_C]
    by_cases h : c.2.models.isEmpty = true
    · simp [h]
    · simp [h]

theorem out_G (p : Nat) (x : Nat × YGenset μ ι) (hp : p < x.1) : out (deltaG p x) p = [.uuid x.1] := by
  unfold deltaG
  rw [out_add_self]
  have : out (concat ((lay sizeC (x.1 + 1) x.2.consumers).map (deltaC x.1))) p = [] :=
    out_outside (p := x.1) (tied_map _ (fun c => tied_C _ c) _)
      (within_concat sizeC (deltaC x.1) (x.1 + 1) x.2.consumers (fun c _ => within_C _ c)) (by omega) (.inl (by omega))
  rw [this]
  rfl

/-- What an installation contains. -/
def contents (i : LInstallation μ ι) : List NodeID :=
  i.gensets.map (fun g => .uuid g.id) ++ i.consumers.map (fun c => .uuid c.1) ++ i.emitters.map (fun e => .uuid e.1)

theorem out_I (z : Nat × YInstallation μ ι) (hz : 0 < z.1) : out (deltaI 0 z) z.1 = contents (labelI z) := by
  unfold deltaI
  rw [out_add _ _ _ _ _ (by omega), out_app, out_app, out_flatMap, out_flatMap, out_flatMap, out_kept]
  have hG : ((lay sizeG (z.1 + 1) z.2.gensets).flatMap fun x => out (deltaG z.1 x) z.1) =
      (lay sizeG (z.1 + 1) z.2.gensets).map fun g => NodeID.uuid g.1 := by
    rw [List.map_eq_flatMap]
    refine List.flatMap_congr fun x hx => ?_
    have := mem_lay (k := x.1) (a := x.2) hx
    exact out_G _ _ (by omega)
  have hE : ∀ n, ((lay sizeE n z.2.emitters).flatMap fun x => out (deltaE z.1 x : Delta μ ι) z.1) =
      (lay sizeE n z.2.emitters).map fun g => NodeID.uuid g.1 := by
    intro n
    generalize lay sizeE n z.2.emitters = l
    induction l with
    | nil => rfl
    | cons e l ih =>
      rw [List.flatMap_cons, ih, deltaE, out_add_self]; rfl
  rw [hG, hE]
  simp [contents, labelI, labelG, List.map_map, Function.comp_def]

theorem out_file (file : List (YInstallation μ ι)) (z : Nat × YInstallation μ ι) (hz : z ∈ lay sizeI 1 file) :
    out (deltaF file) z.1 = contents (labelI z) := by
  have hz' := mem_lay (k := z.1) (a := z.2) hz
  unfold deltaF
  rw [out_concat sizeI (deltaI 0) 0 1 file (fun x => tied_I _ x) (fun x => within_I _ x) z hz z.1 (by omega) (le_refl _)
    (by simp only [sizeI]; omega)]
  exact out_I z (by omega)

theorem mem_installation (file : List (YInstallation μ ι)) (z : Nat × YInstallation μ ι) (hz : z ∈ lay sizeI 1 file) :
    (NodeID.uuid z.1, Comp.installation z.2.name) ∈ allNodes file := by
  refine List.mem_append_left _ ?_
  simp only [deltaF, concat, List.mem_flatMap, List.mem_map, exists_exists_and_eq_and]
  exact ⟨z, hz, by simp [deltaI, Delta.add]⟩

theorem mem_emitter (file : List (YInstallation μ ι)) (z : Nat × YInstallation μ ι) (hz : z ∈ lay sizeI 1 file)
    (e : Nat × String)
    (he : e ∈ lay sizeE (z.1 + 1 + total sizeG z.2.gensets + total sizeC z.2.consumers) z.2.emitters) :
    (NodeID.uuid e.1, Comp.emitter e.2) ∈ allNodes file := by
  refine List.mem_append_left _ ?_
  simp only [deltaF, concat, List.mem_flatMap, List.mem_map, exists_exists_and_eq_and]
  refine ⟨z, hz, ?_⟩
  simp only [deltaI, Delta.add, Delta.app, List.mem_append]
  refine .inl (.inr ?_)
  simp only [concat, List.mem_flatMap, List.mem_map, exists_exists_and_eq_and]
  exact ⟨e, he, by simp [deltaE, Delta.add]⟩

/-- Components that may have others below them. -/
def Above : Comp μ ι → Prop
  | .consumer _ => False
  | .emitter _ => False
  | .genset _ => True
  | .installation _ => True
  | .asset => True

/-- Every edge starts at a component of these, which is the parent or in the list. -/
def Proper (d : Delta μ ι) (p : Nat) : Prop :=
  ∀ e ∈ d.edges, e.1 = .uuid p ∨ ∃ c, Above c ∧ (e.1, c) ∈ d.nodes

theorem proper_app {a b : Delta μ ι} {p : Nat} (ha : Proper a p) (hb : Proper b p) : Proper (a.app b) p := by
  intro e he
  rcases List.mem_append.mp he with h | h
  · rcases ha e h with h | ⟨c, hc, h⟩
    · exact .inl h
    · exact .inr ⟨c, hc, List.mem_append_left _ h⟩
  · rcases hb e h with h | ⟨c, hc, h⟩
    · exact .inl h
    · exact .inr ⟨c, hc, List.mem_append_right _ h⟩

theorem proper_map {α : Type} {p : Nat} (δ : α → Delta μ ι) (h : ∀ x, Proper (δ x) p) (L : List α) :
    Proper (concat (L.map δ)) p := by
  induction L with
  | nil => intro e he; exact absurd he (by simp [concat])
  | cons x L ih =>
    rw [List.map_cons, concat_cons]
    exact proper_app (h x) ih

theorem proper_add {d : Delta μ ι} {n : Nat} (h : Proper d n) (p : Nat) (c : Comp μ ι) (hc : Above c) :
    Proper (d.add p n c) p := by
  intro e he
  rcases List.mem_append.mp he with h' | h'
  · rcases h e h' with h' | ⟨c', hc', h'⟩
    · exact .inr ⟨c, hc, List.mem_append_right _ (by rw [h']; simp)⟩
    · exact .inr ⟨c', hc', List.mem_append_left _ h'⟩
  · simp only [List.mem_singleton] at h'
    exact .inl (by rw [h'])

theorem proper_C (p : Nat) (x : Nat × YConsumer μ ι) : Proper (deltaC p x) p := by
  intro e he
  unfold deltaC at he
  by_cases h : x.2.models = []
  · rw [if_pos h] at he; simp [Delta.nil] at he
  · rw [if_neg h] at he
    simp only [List.mem_singleton] at he
    exact .inl (by rw [he])

theorem proper_E (p : Nat) (x : Nat × String) : Proper (deltaE p x : Delta μ ι) p := by
  intro e he
  simp only [deltaE, Delta.add, Delta.nil, List.nil_append, List.mem_singleton] at he
  exact .inl (by rw [he])

theorem proper_G (p : Nat) (x : Nat × YGenset μ ι) : Proper (deltaG p x) p :=
  proper_add (proper_map _ (fun c => proper_C _ c) _) _ _ trivial

theorem proper_I (p : Nat) (x : Nat × YInstallation μ ι) : Proper (deltaI p x) p :=
  proper_add (proper_app (proper_app (proper_map _ (fun c => proper_G _ c) _) (proper_map _ (fun c => proper_C _ c) _))
    (proper_map _ (fun c => proper_E _ c) _)) _ _ trivial

theorem proper_F (file : List (YInstallation μ ι)) (e : NodeID × NodeID) (he : e ∈ (deltaF file).edges) :
    ∃ c, Above c ∧ (e.1, c) ∈ allNodes file := by
  rcases proper_map (deltaI 0) (fun c => proper_I 0 c) (lay sizeI 1 file) e he with h | ⟨c, hc, h⟩
  · exact ⟨.asset, trivial, List.mem_append_right _ (by rw [h]; simp)⟩
  · exact ⟨c, hc, List.mem_append_left _ h⟩

theorem node_mem (file : List (YInstallation μ ι)) (kv : NodeID × Comp μ ι) (h : kv ∈ allNodes file) :
    kv.1 ∈ (graphOf file).graph.nodes := List.mem_map.mpr ⟨kv, h, rfl⟩

/-- Consumers and emitters have nothing below them. -/
theorem successors_leaf (file : List (YInstallation μ ι)) (kv : NodeID × Comp μ ι) (h : kv ∈ allNodes file)
    (hl : ¬ Above kv.2) : (graphOf file).getSuccessors kv.1 false = .ok [] := by
  unfold Graph.getSuccessors
  rw [if_neg (not_not.mpr (node_mem file kv h)), if_neg (by simp)]
  congr 1
  unfold Digraph.succs
  rw [List.map_eq_nil_iff, List.filter_eq_nil_iff]
  intro e he
  simp only [decide_eq_true_eq]
  intro hk
  obtain ⟨c, hc, hm⟩ := proper_F file e he
  have h1 := lookup_of_mem _ (allNodes_nodup file) _ hm
  have h2 := lookup_of_mem _ (allNodes_nodup file) _ h
  simp only at h1
  rw [hk, h2] at h1
  have := Option.some.inj h1
  rw [this] at hl
  exact hl hc

theorem successors_installation (file : List (YInstallation μ ι)) (z : Nat × YInstallation μ ι)
    (hz : z ∈ lay sizeI 1 file) :
    (graphOf file).getSuccessors (.uuid z.1) false = .ok (contents (labelI z)) := by
  unfold Graph.getSuccessors
  rw [if_neg (not_not.mpr (node_mem file _ (mem_installation file z hz))), if_neg (by simp)]
  congr 1
  exact out_file file z hz

theorem kept_eq (g : Nat × YGenset μ ι) : C89.kept g = (labelG g).consumers.map fun c => NodeID.uuid c.1 := by
  unfold C89.kept labelG keptC
  generalize lay sizeC (g.1 + 1) g.2.consumers = l
  induction l with
  | nil => rfl
  | cons c l ih =>
    rw [List.flatMap_cons, ih]
    by_cases h : c.2.models = []
    · simp [h]
    · simp [h]

/-! ## The nodes -/

theorem bind_ok {ε α β : Type} (x : Except ε α) (a : α) (f : α → Except ε β) (h : x = .ok a) : (x >>= f) = f a := by
  rw [h]; rfl

theorem mapM_eq {ε α β : Type} (f : α → Except ε β) (h : α → β) (l : List α) (hf : ∀ a ∈ l, f a = .ok (h a)) :
    l.mapM f = .ok (l.map h) := by
  induction l with
  | nil => rfl
  | cons a l ih =>
    rw [List.mapM_cons, bind_ok _ _ _ (hf a List.mem_cons_self),
      bind_ok _ _ _ (ih fun b hb => hf b (List.mem_cons_of_mem _ hb))]
    rfl

/-- A consumer or emitter of the file has a node without subdiagram. -/
theorem node_leaf (k : Kinds μ ι) (file : List (YInstallation μ ι)) (p : Period) (f : Nat) (kv : NodeID × Comp μ ι)
    (h : kv ∈ allNodes file) (hl : ¬ Above kv.2) (t : NodeType) (ht : nodeType k kv.2 = .ok t) (b : Bool) :
    node k (graphOf file) (subdiagram k (graphOf file) p (f + 1)) kv.1 b = .ok (⟨.comp kv.1, kv.2.name, t⟩, none) := by
  unfold node
  rw [bind_ok _ _ _ (getNode_of_mem file kv h), bind_ok _ _ _ ht]
  cases b
  · rfl
  · have : subdiagram k (graphOf file) p (f + 1) kv.1 = .ok none := by
      unfold subdiagram
      rw [bind_ok _ _ _ (successors_leaf file kv h hl)]
      rfl
    rw [if_pos rfl, bind_ok _ _ _ this]
    rfl

theorem nodeType_consumer (k : Kinds μ ι) (y : YConsumer μ ι) : nodeType k (.consumer y) = .ok (symbol (k.kind y)) := by
  simp only [nodeType]
  cases k.kind y <;> simp only [symbol]

theorem mem_keptC {n : Nat} {ys : List (YConsumer μ ι)} {c : Nat × YConsumer μ ι} (h : c ∈ keptC n ys) :
    c ∈ lay sizeC n ys ∧ c.2.models ≠ [] := by
  unfold keptC at h
  rw [List.mem_filter] at h
  exact ⟨h.1, by simpa using h.2⟩

theorem part_consumer (k : Kinds μ ι) (file : List (YInstallation μ ι)) (p : Period) (f : Nat)
    (z : Nat × YInstallation μ ι) (hz : z ∈ lay sizeI 1 file) (c : Nat × YConsumer μ ι) (hc : c ∈ (labelI z).consumers)
    (he : k.electric c.2 = false) :
    part k (graphOf file) (subdiagram k (graphOf file) p (f + 1)) (.uuid c.1) = .ok ([consumerNode k c], burns c.1) := by
  obtain ⟨h1, h2⟩ := mem_keptC hc
  have hm := allNodes_lookup_consumer file c (List.mem_flatMap.mpr ⟨z, hz, List.mem_append_right _ h1⟩) h2
  unfold part
  rw [bind_ok _ _ _ (getNode_of_mem file _ hm),
    bind_ok _ _ _ (node_leaf k file p f _ hm id _ (nodeType_consumer k c.2) _)]
  simp only [isProvider, Bool.false_eq_true, if_false]
  simp only [ownEdges, isFuelConsumer, he, Bool.not_false, if_true]
  rfl

theorem part_emitter (k : Kinds μ ι) (file : List (YInstallation μ ι)) (p : Period) (f : Nat)
    (z : Nat × YInstallation μ ι) (hz : z ∈ lay sizeI 1 file) (e : Nat × String) (he : e ∈ (labelI z).emitters) :
    part k (graphOf file) (subdiagram k (graphOf file) p (f + 1)) (.uuid e.1) =
      .ok ([emitterNode e], [⟨tag e.1, .emission, .emission⟩]) := by
  have hm := mem_emitter file z hz e he
  unfold part
  rw [bind_ok _ _ _ (getNode_of_mem file _ hm), bind_ok _ _ _ (node_leaf k file p f _ hm id .direct rfl _)]
  rfl

theorem part_genset (k : Kinds μ ι) (file : List (YInstallation μ ι)) (p : Period) (f : Nat)
    (z : Nat × YInstallation μ ι) (hz : z ∈ lay sizeI 1 file) (g : Nat × YGenset μ ι)
    (hg : g ∈ lay sizeG (z.1 + 1) z.2.gensets) :
    part k (graphOf file) (subdiagram k (graphOf file) p (f + 1)) (.uuid g.1) =
      .ok (gensetNodes k (labelG g), gensetEdges (labelG g)) := by
  have hm := allNodes_genset file z hz g hg
  have hown : node k (graphOf file) (subdiagram k (graphOf file) p (f + 1)) (.uuid g.1)
      (!isProvider (Comp.genset g.2 : Comp μ ι)) = .ok (⟨tag g.1, g.2.name, .generator⟩, none) := by
    unfold node
    rw [bind_ok _ _ _ (getNode_of_mem file _ hm)]
    rfl
  have hs := getSuccessors_genset file z hz g hg hm
  rw [kept_eq] at hs
  unfold part
  rw [bind_ok _ _ _ (getNode_of_mem file _ hm), bind_ok _ _ _ hown]
  simp only [isProvider, if_true]
  rw [bind_ok _ _ _ hs]
  have hel : ((labelG g).consumers.map fun c => NodeID.uuid c.1).mapM
      (fun m => node k (graphOf file) (subdiagram k (graphOf file) p (f + 1)) m true) =
      .ok ((labelG g).consumers.map (consumerNode k)) := by
    rw [List.mapM_map]
    refine mapM_eq _ _ _ fun c hc => ?_
    obtain ⟨h1, h2⟩ := mem_keptC hc
    have hm := allNodes_lookup_consumer file c (List.mem_flatMap.mpr ⟨z, hz, List.mem_append_left _
      (List.mem_flatMap.mpr ⟨g, hg, h1⟩)⟩) h2
    exact node_leaf k file p f _ hm id _ (nodeType_consumer k c.2) _
  rw [bind_ok _ _ _ hel]
  simp only [ownEdges, isFuelConsumer, if_true, List.map_map]
  rfl

/-- The pieces of the diagram of an installation. -/
def pieces (k : Kinds μ ι) (i : LInstallation μ ι) : List (List (Info × Option Chart) × List Edge) :=
  i.gensets.map (fun g => (gensetNodes k g, gensetEdges g)) ++ i.consumers.map (fun c => ([consumerNode k c], burns c.1)) ++
    i.emitters.map (fun e => ([emitterNode e], [⟨tag e.1, .emission, .emission⟩]))

theorem mapM_append_eq {ε α β : Type} (f : α → Except ε β) (a b : List α) (x y : List β) (hx : a.mapM f = .ok x)
    (hy : b.mapM f = .ok y) : (a ++ b).mapM f = .ok (x ++ y) := by
  rw [List.mapM_append, bind_ok _ _ _ hx, bind_ok _ _ _ hy]
  rfl

theorem parts_eq (k : Kinds μ ι) (file : List (YInstallation μ ι)) (p : Period) (f : Nat)
    (z : Nat × YInstallation μ ι) (hz : z ∈ lay sizeI 1 file) (he : ∀ y ∈ z.2.consumers, k.electric y = false) :
    (contents (labelI z)).mapM (part k (graphOf file) (subdiagram k (graphOf file) p (f + 1))) =
      .ok (pieces k (labelI z)) := by
  unfold contents pieces
  refine mapM_append_eq _ _ _ _ _ (mapM_append_eq _ _ _ _ _ ?_ ?_) ?_
  · simp only [labelI, List.map_map]
    rw [List.mapM_map]
    exact mapM_eq _ _ _ fun g hg => part_genset k file p f z hz g hg
  · rw [List.mapM_map]
    exact mapM_eq _ _ _ fun c hc => part_consumer k file p f z hz c hc
      (he _ (mem_lay (k := c.1) (a := c.2) (mem_keptC hc).1).1)
  · rw [List.mapM_map]
    exact mapM_eq _ _ _ fun e he => part_emitter k file p f z hz e he

theorem pieces_nodes (k : Kinds μ ι) (i : LInstallation μ ι) : (pieces k i).flatMap (·.1) =
    i.gensets.flatMap (gensetNodes k) ++ i.consumers.map (consumerNode k) ++ i.emitters.map emitterNode := by
  unfold pieces
  rw [List.flatMap_append, List.flatMap_append, List.flatMap_map, List.flatMap_map, List.flatMap_map,
    List.map_eq_flatMap, List.map_eq_flatMap]

theorem pieces_edges (k : Kinds μ ι) (i : LInstallation μ ι) : (pieces k i).flatMap (·.2) =
    i.gensets.flatMap gensetEdges ++ i.consumers.flatMap (fun c => burns c.1) ++
      i.emitters.map fun e => ⟨tag e.1, .emission, .emission⟩ := by
  unfold pieces
  rw [List.flatMap_append, List.flatMap_append, List.flatMap_map, List.flatMap_map, List.flatMap_map,
    List.map_eq_flatMap]

theorem contents_nil (i : LInstallation μ ι) :
    contents i = [] ↔ (i.gensets.isEmpty && i.consumers.isEmpty && i.emitters.isEmpty) = true := by
  unfold contents
  simp [and_assoc]

theorem node_installation (k : Kinds μ ι) (file : List (YInstallation μ ι)) (p : Period) (f : Nat)
    (z : Nat × YInstallation μ ι) (hz : z ∈ lay sizeI 1 file) (he : ∀ y ∈ z.2.consumers, k.electric y = false) :
    node k (graphOf file) (subdiagram k (graphOf file) p (f + 2)) (.uuid z.1) true =
      .ok (installationNode k p (labelI z)) := by
  have hm := mem_installation file z hz
  unfold node
  rw [bind_ok _ _ _ (getNode_of_mem file _ hm)]
  have hsub : subdiagram k (graphOf file) p (f + 2) (.uuid z.1) = .ok (installationNode k p (labelI z)).2 := by
    rw [subdiagram, bind_ok _ _ _ (successors_installation file z hz)]
    unfold installationNode
    dsimp only
    by_cases h : contents (labelI z) = []
    · rw [if_pos h, if_pos ((contents_nil _).mp h)]; rfl
    · rw [if_neg h, if_neg (fun hh => h ((contents_nil _).mpr hh)), bind_ok _ _ _ (parts_eq k file p f z hz he),
        bind_ok _ _ _ (getNode_of_mem file _ hm), pieces_nodes, pieces_edges]
      rfl
  rw [bind_ok (nodeType k _) NodeType.installation _ rfl]
  simp only [if_true]
  rw [bind_ok _ _ _ hsub]
  rfl

theorem installations_filter (g : Graph (Comp μ ι)) (l : List (NodeID × Comp μ ι))
    (h : ∀ kv ∈ l, g.getNode kv.1 = .ok kv.2) :
    installationsOf g (l.map (·.1)) = .ok ((l.filter fun kv => isInstallation kv.2).map (·.1)) := by
  induction l with
  | nil => rfl
  | cons kv l ih =>
    rw [List.map_cons, installationsOf, bind_ok _ _ _ (h kv List.mem_cons_self),
      bind_ok _ _ _ (ih fun x hx => h x (List.mem_cons_of_mem _ hx)), List.filter_cons]
    by_cases hi : isInstallation kv.2 = true
    · rw [if_pos hi, if_pos hi]; rfl
    · rw [if_neg hi, if_neg hi]; rfl

/-- The installations of a piece. -/
def places (d : Delta μ ι) : List NodeID := (d.nodes.filter fun kv => isInstallation kv.2).map (·.1)

theorem places_app (a b : Delta μ ι) : places (a.app b) = places a ++ places b := by
  simp [places, Delta.app]

theorem places_map {α : Type} (δ : α → Delta μ ι) (L : List α) :
    places (concat (L.map δ)) = L.flatMap fun x => places (δ x) := by
  induction L with
  | nil => rfl
  | cons x L ih => rw [List.map_cons, concat_cons, places_app, ih, List.flatMap_cons]

theorem flat_nil {α β : Type} (l : List α) : l.flatMap (fun _ => ([] : List β)) = [] := by
  induction l with
  | nil => rfl
  | cons a l ih => rw [List.flatMap_cons, ih]; rfl

theorem places_add (d : Delta μ ι) (p n : Nat) (c : Comp μ ι) :
    places (d.add p n c) = places d ++ if isInstallation c then [.uuid n] else [] := by
  by_cases h : isInstallation c = true <;> simp [places, Delta.add, h]

theorem places_C (p : Nat) (x : Nat × YConsumer μ ι) : places (deltaC p x) = [] := by
  unfold deltaC
  by_cases h : x.2.models = []
  · rw [if_pos h]; rfl
  · rw [if_neg h]; simp [places, isInstallation]

theorem places_G (p : Nat) (x : Nat × YGenset μ ι) : places (deltaG p x) = [] := by
  unfold deltaG
  rw [places_add, places_map]
  simp [places_C, isInstallation, flat_nil]

theorem places_E (p : Nat) (x : Nat × String) : places (deltaE p x : Delta μ ι) = [] := by
  unfold deltaE
  rw [places_add]
  simp [places, Delta.nil, isInstallation]

theorem places_I (p : Nat) (x : Nat × YInstallation μ ι) : places (deltaI p x) = [.uuid x.1] := by
  unfold deltaI
  rw [places_add, places_app, places_app, places_map, places_map, places_map]
  simp [places_C, places_G, places_E, isInstallation, flat_nil]

theorem installations_file (file : List (YInstallation μ ι)) :
    installationsOf (graphOf file) (graphOf file).graph.nodes =
      .ok ((lay sizeI 1 file).map fun z => NodeID.uuid z.1) := by
  have h := installations_filter (graphOf file) (allNodes file) (getNode_of_mem file)
  rw [show (graphOf file).graph.nodes = (allNodes file).map (·.1) from rfl, h]
  congr 1
  have e : ((allNodes file).filter fun kv => isInstallation kv.2).map (·.1) = places (deltaF file) := by
    simp [allNodes, places, isInstallation]
  rw [e, deltaF, places_map, List.map_eq_flatMap]
  exact List.flatMap_congr fun x _ => places_I 0 x

/-- The consumers named as fuel consumers are such. -/
def Typed (k : Kinds μ ι) (file : List (YInstallation μ ι)) : Prop := ∀ i ∈ file, ∀ y ∈ i.consumers, k.electric y = false

theorem ofFile_eq (k : Kinds μ ι) (file : List (YInstallation μ ι)) (p : Period)
    (hn : ∀ c ∈ C89.consumersOf file, (c.models.map (·.1)).Nodup) (ht : Typed k file) :
    ofFile k file p = .ok (picture k p (label file)) := by
  unfold ofFile
  rw [mapFile_spec file hn]
  have hb : (toSt (1 + total sizeI file) (⟨(deltaF file).nodes ++ [(.uuid 0, .asset)], (deltaF file).edges,
      (deltaF file).regs⟩ : Delta μ ι)).builder.build = .ok (graphOf file) := build_file file
  rw [bind_ok _ _ _ hb]
  unfold flowDiagram
  rw [bind_ok _ _ _ (installations_file file)]
  have hnodes : ((lay sizeI 1 file).map fun z => NodeID.uuid z.1).mapM (fun n => node k (graphOf file)
      (subdiagram k (graphOf file) p (graphOf file).graph.nodes.length) n true) =
      .ok ((label file).map (installationNode k p)) := by
    rw [List.mapM_map, label, List.map_map]
    refine mapM_eq _ _ _ fun z hz => ?_
    have h2 : ∃ f, (graphOf file).graph.nodes.length = f + 2 := by
      have hm := mem_installation file z hz
      have : 1 ≤ (deltaF file).nodes.length := by
        unfold allNodes at hm
        rcases List.mem_append.mp hm with h | h
        · exact List.length_pos_of_mem h
        · simp at h
      refine ⟨(deltaF file).nodes.length - 1, ?_⟩
      simp only [graphOf, allNodes, List.length_map, List.length_append, List.length_singleton]
      omega
    obtain ⟨f, hf⟩ := h2
    rw [hf]
    exact node_installation k file p f z hz (ht _ (mem_lay (k := z.1) (a := z.2) hz).1)
  rw [bind_ok _ _ _ hnodes]
  simp only [picture, List.flatMap_map]
  rfl

/-! ## The theorems -/

/-- **C108.** Every file has a flow diagram, and it is the picture of the file: all installations, in each its generator
sets with their consumers beside them, its fuel consumers and its emitters; fuel flows to whatever burns it, emissions
from it and from the emitters, electricity from generator sets to their consumers. -/
theorem C108_picture (k : Kinds μ ι) (file : List (YInstallation μ ι)) (p : Period)
    (hn : ∀ c ∈ C89.consumersOf file, (c.models.map (·.1)).Nodup) (ht : Typed k file) :
    ∃ L, Labels L file ∧ ofFile k file p = .ok (picture k p L) :=
  ⟨label file, label_labels file, ofFile_eq k file p hn ht⟩

theorem proper_append (a b : List (Info × Option Chart)) : proper (a ++ b) = proper a ++ proper b := by
  simp [proper]

theorem proper_cons (x : Info × Option Chart) (b : List (Info × Option Chart)) : proper (x :: b) = proper [x] ++ proper b :=
  proper_append [x] b

theorem proper_one (x : Info × Option Chart) (h : x.1.type ≠ .inputOutput) : proper [x] = [x.1] := by
  simp [proper, h]

theorem proper_io : proper [(fuelNode, none)] = [] ∧ proper [(emissionNode, none)] = [] := by
  decide +kernel

theorem proper_io_io (l : List (Info × Option Chart)) :
    proper ((fuelNode, none) :: (emissionNode, none) :: l) = proper l := by
  simp [proper, fuelNode, emissionNode]

theorem symbol_ne (k : Components.Kind) : symbol k ≠ .inputOutput := by cases k <;> decide

theorem proper_consumers (k : Kinds μ ι) (cs : List (Nat × YConsumer μ ι)) :
    proper (cs.map (consumerNode k)) = cs.map fun c => (consumerNode k c).1 := by
  induction cs with
  | nil => rfl
  | cons c cs ih => rw [List.map_cons, proper_cons, ih, proper_one _ (symbol_ne _)]; rfl

theorem proper_emitters (es : List (Nat × String)) : proper (es.map emitterNode) = es.map fun e => (emitterNode e).1 := by
  induction es with
  | nil => rfl
  | cons c cs ih => rw [List.map_cons, proper_cons, ih, proper_one _ (by simp [emitterNode])]; rfl

theorem proper_gensets (k : Kinds μ ι) (gs : List (LGenset μ ι)) :
    proper (gs.flatMap (gensetNodes k)) = gs.flatMap fun g => ⟨tag g.id, g.y.name, .generator⟩ ::
      g.consumers.map fun c => (consumerNode k c).1 := by
  induction gs with
  | nil => rfl
  | cons g gs ih =>
    rw [List.flatMap_cons, proper_append, ih, gensetNodes, proper_cons, proper_consumers, proper_one _ (by simp)]
    rfl

/-- The components inside an installation. -/
def insides (k : Kinds μ ι) (i : LInstallation μ ι) : List Info :=
  (i.gensets.flatMap fun g => ⟨tag g.id, g.y.name, .generator⟩ :: g.consumers.map fun c => (consumerNode k c).1) ++
    i.consumers.map (fun c => (consumerNode k c).1) ++ i.emitters.map fun e => (emitterNode e).1

theorem proper_inside (k : Kinds μ ι) (p : Period) (i : LInstallation μ ι) :
    proper (nodes (inside k p i)) = insides k i := by
  unfold inside nodes insides
  dsimp only
  rw [proper_io_io, proper_append, proper_append, proper_gensets, proper_consumers, proper_emitters]

theorem shown_picture (k : Kinds μ ι) (p : Period) (L : List (LInstallation μ ι)) :
    shown (picture k p L) = L.flatMap fun i => (installationNode k p i).1 :: insides k i := by
  have key : ∀ L : List (LInstallation μ ι), ((L.map (installationNode k p)).flatMap fun x => proper [x] ++ below x.2) = L.flatMap fun i => (installationNode k p i).1 :: insides k i := by
    intro L
    induction L with
    | nil => rfl
    | cons i L ih =>
      rw [List.map_cons, List.flatMap_cons, List.flatMap_cons, ih, proper_one _ (by simp [installationNode])]
      congr 1
      rw [List.singleton_append]
      congr 1
      unfold installationNode
      dsimp only
      by_cases h : (i.gensets.isEmpty && i.consumers.isEmpty && i.emitters.isEmpty) = true
      · rw [if_pos h]
        simp only [Bool.and_eq_true, List.isEmpty_iff] at h
        simp [below, insides, h.1.1, h.1.2, h.2]
      · rw [if_neg h]
        exact proper_inside k p i
  unfold shown picture nodes
  dsimp only
  rw [List.cons_append, List.flatMap_cons, List.flatMap_append, key]
  simp [proper_io.1, proper_io.2, below]

/-- **C108.** The diagram shows every component of the file once, by its name and in the order of the file; ids tell
components apart. -/
theorem C108_once (k : Kinds μ ι) (file : List (YInstallation μ ι)) (p : Period)
    (hn : ∀ c ∈ C89.consumersOf file, (c.models.map (·.1)).Nodup) (ht : Typed k file) :
    ∃ d, ofFile k file p = .ok d ∧ (shown d).map (·.title) = names file ∧ ((shown d).map (·.id)).Nodup := by
  obtain ⟨L, hL, h⟩ := C108_picture k file p hn ht
  refine ⟨_, h, ?_, ?_⟩
  · rw [shown_picture, ← hL.installations, names, List.flatMap_map, List.map_flatMap]
    refine List.flatMap_congr fun i hi => ?_
    simp only [List.map_cons, insides, List.map_append, List.map_map, List.map_flatMap]
    rw [← hL.gensets i hi, ← hL.consumers i hi, ← hL.emitters i hi]
    simp only [List.flatMap_map, List.map_map]
    congr 1
    congr 1
    congr 1
    refine List.flatMap_congr fun g hg => ?_
    rw [← hL.electric i hi g hg, List.map_map]
    rfl
  · have e : (shown (picture k p L)).map (·.id) = (L.flatMap LInstallation.ids).map tag := by
      rw [shown_picture, List.map_flatMap, List.map_flatMap]
      refine List.flatMap_congr fun i _ => ?_
      simp only [List.map_cons, insides, List.map_append, List.map_map, List.map_flatMap, LInstallation.ids, LGenset.ids]
      rfl
    rw [e]
    exact hL.nodup.map fun a b h => by simpa [tag] using h

theorem tag_inj : Function.Injective tag := fun a b h => by simpa [tag] using h

theorem burns_mem {n : Nat} {e : Edge} (h : e ∈ burns n) : e = ⟨.fuel, tag n, .fuel⟩ ∨ e = ⟨tag n, .emission, .emission⟩ := by
  simpa [burns] using h

theorem ids_inside (k : Kinds μ ι) (p : Period) (i : LInstallation μ ι) :
    (nodes (inside k p i)).map (·.1.id) = .fuel :: .emission ::
      (i.gensets.flatMap LGenset.ids ++ i.consumers.map (·.1) ++ i.emitters.map (·.1)).map tag := by
  simp only [nodes, inside, List.map_cons, List.map_append, List.map_flatMap, List.map_map, gensetNodes, LGenset.ids]
  rfl

/-- Edges that do not go to the emissions. -/
def inward (es : List Edge) : List Id := (es.filter fun e => decide (e.target ≠ .emission)).map (·.target)

/-- Edges that do. -/
def outward (es : List Edge) : List Id := (es.filter fun e => decide (e.target = .emission)).map (·.source)

theorem inward_append (a b : List Edge) : inward (a ++ b) = inward a ++ inward b := by simp [inward]

theorem outward_append (a b : List Edge) : outward (a ++ b) = outward a ++ outward b := by simp [outward]

theorem inward_flatMap {α : Type} (f : α → List Edge) (l : List α) : inward (l.flatMap f) = l.flatMap fun a => inward (f a) := by
  induction l with
  | nil => rfl
  | cons a l ih => rw [List.flatMap_cons, inward_append, ih, List.flatMap_cons]

theorem outward_flatMap {α : Type} (f : α → List Edge) (l : List α) :
    outward (l.flatMap f) = l.flatMap fun a => outward (f a) := by
  induction l with
  | nil => rfl
  | cons a l ih => rw [List.flatMap_cons, outward_append, ih, List.flatMap_cons]

theorem inward_burns (n : Nat) : inward (burns n) = [tag n] := by simp [inward, burns, tag]

theorem outward_burns (n : Nat) : outward (burns n) = [tag n] := by simp [outward, burns, tag]

theorem inward_feed {α : Type} (n : Nat) (f : α → Nat) (l : List α) :
    inward (l.map fun c => ⟨tag n, tag (f c), .electricity⟩) = l.map fun c => tag (f c) := by
  induction l with
  | nil => rfl
  | cons a l ih =>
    rw [List.map_cons, ← List.singleton_append, inward_append, ih]
    simp [inward, tag]

theorem outward_feed {α : Type} (n : Nat) (f : α → Nat) (l : List α) :
    outward (l.map fun c => ⟨tag n, tag (f c), .electricity⟩) = [] := by
  induction l with
  | nil => rfl
  | cons a l ih =>
    rw [List.map_cons, ← List.singleton_append, outward_append, ih]
    simp [outward, tag]

theorem inward_vent {α : Type} (f : α → Nat) (l : List α) :
    inward (l.map fun c => ⟨tag (f c), .emission, .emission⟩) = [] := by
  induction l with
  | nil => rfl
  | cons a l ih =>
    rw [List.map_cons, ← List.singleton_append, inward_append, ih]
    simp [inward]

theorem outward_vent {α : Type} (f : α → Nat) (l : List α) :
    outward (l.map fun c => ⟨tag (f c), .emission, .emission⟩) = l.map fun c => tag (f c) := by
  induction l with
  | nil => rfl
  | cons a l ih =>
    rw [List.map_cons, ← List.singleton_append, outward_append, ih]
    simp [outward]

theorem edges_inside (k : Kinds μ ι) (p : Period) (i : LInstallation μ ι) (e : Edge) : e ∈ edges (inside k p i) ↔
    (∃ g ∈ i.gensets, e ∈ burns g.id ∨ ∃ c ∈ g.consumers, e = ⟨tag g.id, tag c.1, .electricity⟩) ∨
    (∃ c ∈ i.consumers, e ∈ burns c.1) ∨ ∃ x ∈ i.emitters, e = ⟨tag x.1, .emission, .emission⟩ := by
  simp only [edges, inside, List.mem_append, List.mem_flatMap, List.mem_map, gensetEdges, or_assoc, eq_comm]

theorem sound_inside (k : Kinds μ ι) (p : Period) (i : LInstallation μ ι) (h : i.ids.Nodup) : Sound (inside k p i) := by
  have hn := (List.nodup_cons.mp h).2
  have fuelIn : Id.fuel ∈ (nodes (inside k p i)).map (·.1.id) := by rw [ids_inside]; simp
  have emIn : Id.emission ∈ (nodes (inside k p i)).map (·.1.id) := by rw [ids_inside]; simp
  have tagIn : ∀ n, n ∈ i.gensets.flatMap LGenset.ids ++ i.consumers.map (·.1) ++ i.emitters.map (·.1) →
      tag n ∈ (nodes (inside k p i)).map (·.1.id) := by
    intro n hn
    rw [ids_inside]
    exact List.mem_cons_of_mem _ (List.mem_cons_of_mem _ (List.mem_map_of_mem hn))
  have inG : ∀ g ∈ i.gensets, ∀ n ∈ g.ids, tag n ∈ (nodes (inside k p i)).map (·.1.id) := fun g hg n hn =>
    tagIn n (List.mem_append_left _ (List.mem_append_left _ (List.mem_flatMap.mpr ⟨g, hg, hn⟩)))
  have inC : ∀ c ∈ i.consumers, tag c.1 ∈ (nodes (inside k p i)).map (·.1.id) := fun c hc =>
    tagIn _ (List.mem_append_left _ (List.mem_append_right _ (List.mem_map_of_mem hc)))
  have inE : ∀ c ∈ i.emitters, tag c.1 ∈ (nodes (inside k p i)).map (·.1.id) := fun c hc =>
    tagIn _ (List.mem_append_right _ (List.mem_map_of_mem hc))
  have fl : ∀ f : Flow, f ∈ flows (inside k p i) := by intro f; cases f <;> simp [flows, inside]
  have bj : ∀ n, tag n ∈ (nodes (inside k p i)).map (·.1.id) → ∀ e ∈ burns n,
      e.source ∈ (nodes (inside k p i)).map (·.1.id) ∧ e.target ∈ (nodes (inside k p i)).map (·.1.id) ∧
      e.flow ∈ flows (inside k p i) := by
    intro n hn e he
    rcases burns_mem he with rfl | rfl
    · exact ⟨fuelIn, hn, fl _⟩
    · exact ⟨hn, emIn, fl _⟩
  refine ⟨?_, ?_, ?_, ?_, ?_, ?_⟩
  · rw [ids_inside]
    refine List.nodup_cons.mpr ⟨by simp [tag], List.nodup_cons.mpr ⟨by simp [tag], hn.map tag_inj⟩⟩
  · intro e he
    rcases (edges_inside k p i e).mp he with ⟨g, hg, he | ⟨c, hc, rfl⟩⟩ | ⟨c, hc, he⟩ | ⟨x, hx, rfl⟩
    · exact bj _ (inG g hg _ (by simp [LGenset.ids])) e he
    · refine ⟨inG g hg _ (by simp [LGenset.ids]), inG g hg _ ?_, fl _⟩
      exact List.mem_cons_of_mem _ (List.mem_map_of_mem hc)
    · exact bj _ (inC c hc) e he
    · exact ⟨inE x hx, emIn, fl _⟩
  · show (inward _).Nodup
    have e : inward (edges (inside k p i)) = (i.gensets.flatMap LGenset.ids ++ i.consumers.map (·.1)).map tag := by
      simp only [edges, inside, inward_append, inward_flatMap, inward_burns, gensetEdges, inward_feed, inward_vent,
        List.append_nil, List.map_append, List.map_flatMap, LGenset.ids, List.map_map, List.map_cons]
      rw [← List.map_eq_flatMap]
      rfl
    rw [e]
    exact (List.nodup_append.mp hn).1.map tag_inj
  · show (outward _).Nodup
    have e : outward (edges (inside k p i)) =
        (i.gensets.map (·.id) ++ i.consumers.map (·.1) ++ i.emitters.map (·.1)).map tag := by
      simp only [edges, inside, outward_append, outward_flatMap, outward_burns, gensetEdges, outward_feed, outward_vent,
        List.append_nil, List.map_append, List.map_map]
      rw [← List.map_eq_flatMap, ← List.map_eq_flatMap]
      rfl
    rw [e]
    refine List.Nodup.map tag_inj (hn.sublist ?_)
    refine List.Sublist.append (List.Sublist.append ?_ (List.Sublist.refl _)) (List.Sublist.refl _)
    rw [List.map_eq_flatMap]
    generalize i.gensets = gs
    induction gs with
    | nil => exact List.Sublist.refl _
    | cons g gs ih =>
      rw [List.flatMap_cons, List.flatMap_cons]
      exact List.Sublist.append (by simp [LGenset.ids]) ih
  · rw [proper_inside]
    intro x hx
    unfold insides at hx
    simp only [List.mem_append, List.mem_flatMap, List.mem_cons, List.mem_map] at hx
    rcases hx with (⟨g, hg, rfl | ⟨c, hc, rfl⟩⟩ | ⟨c, hc, rfl⟩) | ⟨c, hc, rfl⟩
    · exact ⟨⟨.fuel, tag g.id, .fuel⟩, (edges_inside ..).mpr (.inl ⟨g, hg, .inl (by simp [burns])⟩), .inl rfl⟩
    · exact ⟨_, (edges_inside ..).mpr (.inl ⟨g, hg, .inr ⟨c, hc, rfl⟩⟩), .inl rfl⟩
    · exact ⟨⟨.fuel, tag c.1, .fuel⟩, (edges_inside ..).mpr (.inr (.inl ⟨c, hc, by simp [burns]⟩)), .inl rfl⟩
    · exact ⟨_, (edges_inside ..).mpr (.inr (.inr ⟨c, hc, rfl⟩)), .inr rfl⟩
  · intro e he hf
    rcases (edges_inside k p i e).mp he with ⟨g, hg, he | ⟨c, hc, rfl⟩⟩ | ⟨c, hc, he⟩ | ⟨x, hx, rfl⟩
    · rcases burns_mem he with rfl | rfl <;> cases hf
    · exact ⟨(edges_inside ..).mpr (.inl ⟨g, hg, .inl (by simp [burns])⟩),
        (edges_inside ..).mpr (.inl ⟨g, hg, .inl (by simp [burns])⟩)⟩
    · rcases burns_mem he with rfl | rfl <;> cases hf
    · cases hf

theorem sound_picture (k : Kinds μ ι) (p : Period) (L : List (LInstallation μ ι)) (h : (L.map (·.id)).Nodup) :
    Sound (picture k p L) := by
  have hids : (nodes (picture k p L)).map (·.1.id) = .fuel :: ((L.map (·.id)).map tag ++ [.emission]) := by
    simp only [nodes, picture, List.cons_append, List.map_cons, List.map_append, List.map_map]
    rfl
  have hedges : ∀ e, e ∈ edges (picture k p L) ↔ ∃ i ∈ L, e ∈ burns i.id := by
    intro e
    simp only [edges, picture, List.mem_flatMap]
  refine ⟨?_, ?_, ?_, ?_, ?_, ?_⟩
  · rw [hids]
    refine List.nodup_cons.mpr ⟨by simp [tag], List.nodup_append.mpr ⟨h.map tag_inj, by simp, ?_⟩⟩
    intro a ha b hb
    obtain ⟨n, -, rfl⟩ := List.mem_map.mp ha
    simp only [List.mem_singleton] at hb
    rw [hb]
    simp [tag]
  · intro e he
    rw [hids]
    obtain ⟨i, hi, he⟩ := (hedges e).mp he
    have hm : tag i.id ∈ (.fuel :: ((L.map (·.id)).map tag ++ [.emission]) : List Id) :=
      List.mem_cons_of_mem _ (List.mem_append_left _ (List.mem_map_of_mem (List.mem_map_of_mem hi)))
    rcases burns_mem he with rfl | rfl
    · exact ⟨by simp, hm, by simp [flows, picture]⟩
    · exact ⟨hm, by simp, by simp [flows, picture]⟩
  · show (inward _).Nodup
    simp only [edges, picture, inward_flatMap, inward_burns]
    rw [← List.map_eq_flatMap]
    have := h.map tag_inj
    rwa [List.map_map] at this
  · show (outward _).Nodup
    simp only [edges, picture, outward_flatMap, outward_burns]
    rw [← List.map_eq_flatMap]
    have := h.map tag_inj
    rwa [List.map_map] at this
  · intro x hx
    unfold proper nodes picture at hx
    rw [List.mem_filter] at hx
    obtain ⟨hx, ht⟩ := hx
    simp only [List.cons_append, List.map_cons, List.map_append, List.map_nil, List.mem_cons, List.mem_append, List.mem_map,
      List.not_mem_nil, or_false] at hx
    rcases hx with rfl | ⟨_, ⟨i, hi, rfl⟩, rfl⟩ | rfl
    · simp [fuelNode] at ht
    · exact ⟨⟨.fuel, tag i.id, .fuel⟩, (hedges _).mpr ⟨i, hi, by simp [burns]⟩, .inl rfl⟩
    · simp [emissionNode] at ht
  · intro e he hf
    obtain ⟨i, hi, he⟩ := (hedges e).mp he
    rcases burns_mem he with rfl | rfl <;> cases hf

/-- **C108.** The diagram, and the diagram of each installation in it, can be drawn: nodes have different ids, edges join
nodes of the same diagram, no component has two sources, none hangs loose, and electricity comes from what burns fuel. The
diagram in a node has its id and name; there are no further levels. -/
theorem C108_sound (k : Kinds μ ι) (file : List (YInstallation μ ι)) (p : Period)
    (hn : ∀ c ∈ C89.consumersOf file, (c.models.map (·.1)).Nodup) (ht : Typed k file) :
    ∃ d, ofFile k file p = .ok d ∧ Sound d ∧ heading d = (.area, "Area", p) ∧
      ∀ x ∈ nodes d, ∀ s, x.2 = some s → Sound s ∧ heading s = (x.1.id, x.1.title, p) ∧ ∀ y ∈ nodes s, y.2 = none := by
  obtain ⟨L, hL, h⟩ := C108_picture k file p hn ht
  refine ⟨_, h, sound_picture k p L ?_, rfl, ?_⟩
  · refine hL.nodup.sublist ?_
    clear h hL
    rw [List.map_eq_flatMap]
    induction L with
    | nil => exact List.Sublist.refl _
    | cons i L ih =>
      rw [List.flatMap_cons, List.flatMap_cons]
      exact List.Sublist.append (by simp [LInstallation.ids]) ih
  · intro x hx s hs
    simp only [nodes, picture, List.cons_append, List.mem_cons, List.mem_append, List.mem_map, List.not_mem_nil,
      or_false] at hx
    rcases hx with rfl | ⟨i, hi, rfl⟩ | rfl
    · cases hs
    · unfold installationNode at hs
      dsimp only at hs
      by_cases he : (i.gensets.isEmpty && i.consumers.isEmpty && i.emitters.isEmpty) = true
      · rw [if_pos he] at hs; cases hs
      · rw [if_neg he] at hs
        have hs := Option.some.inj hs
        subst hs
        refine ⟨sound_inside k p i ?_, rfl, ?_⟩
        · exact (List.nodup_flatMap.mp hL.nodup).1 i hi
        · intro y hy
          simp only [nodes, inside, List.mem_cons, List.mem_append, List.mem_flatMap, List.mem_map, gensetNodes] at hy
          rcases hy with rfl | rfl | (⟨g, hg, rfl | ⟨c, hc, rfl⟩⟩ | ⟨c, hc, rfl⟩) | ⟨c, hc, rfl⟩ <;> rfl
    · cases hs

/-! ## Examples -/

/-- A consumer with one model, or none. -/
def someone (name : String) (has : Bool) : YConsumer Nat Nat :=
  ⟨name, if has then [(⟨0, 10⟩, ⟨.function, 0, 0⟩)] else []⟩

/-- Two installations, the second of which has nothing in the period. -/
def sample : List (YInstallation Nat Nat) :=
  [⟨"A", [⟨"G", [someone "pump" true, someone "late" false, someone "base" true]⟩], [someone "flare" true], ["vent"]⟩,
    ⟨"B", [], [someone "later" false], []⟩]

/-- Pumps are pumps, all else is direct; electricity consumers are those of `G`. -/
def sampleKinds : Kinds Nat Nat :=
  ⟨fun y => if y.name = "pump" then .pump else .generic, fun y => y.name = "pump" ∨ y.name = "base"⟩

/-- The first diagram in a diagram. -/
def firstSub (c : Chart) : Option Chart := (nodes c).findSome? (·.2)

example : Typed sampleKinds sample ∧ (∀ c ∈ C89.consumersOf sample, (c.models.map (·.1)).Nodup) := by
  unfold Typed
  decide +kernel

example : ((ofFile sampleKinds sample ⟨0, 10⟩).toOption.map fun d => (shown d).map fun x => (x.title, x.type)) =
    some [("A", .installation), ("G", .generator), ("pump", .pump), ("base", .direct), ("flare", .direct),
      ("vent", .direct), ("B", .installation)] := by
  decide +kernel

/-- In `A`, fuel goes to `G` (2) and `flare` (6); the consumers of `G` are 3 and 5; `vent` is 7. -/
example : ((ofFile sampleKinds sample ⟨0, 10⟩).toOption.bind firstSub).map edges =
    some [⟨.fuel, tag 2, .fuel⟩, ⟨tag 2, .emission, .emission⟩, ⟨tag 2, tag 3, .electricity⟩,
      ⟨tag 2, tag 5, .electricity⟩, ⟨.fuel, tag 6, .fuel⟩, ⟨tag 6, .emission, .emission⟩,
      ⟨tag 7, .emission, .emission⟩] := by
  decide +kernel

/-- `B` has no diagram, but burns fuel. -/
example : ((ofFile sampleKinds sample ⟨0, 10⟩).toOption.map fun d => (edges d).length) = some 4 ∧
    ((ofFile sampleKinds sample ⟨0, 10⟩).toOption.map fun d => (nodes d).map fun x => x.2.isSome) =
      some [false, true, false, false] := by
  decide +kernel

end Verif.C108
