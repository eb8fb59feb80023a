import Verif.Model.References
import Verif.Props.C35
import Mathlib.Data.List.Nodup

/-!
# C91: references in the file stand for what the file declares under that name
-/

namespace Verif.C91
open Verif.Names Verif.References

/-! ## Specification -/

/-- The file declares the name `n` to be `i`. -/
inductive Declared (f : File) : String → Item → Prop
  | facility {n i} : (n, i) ∈ f.facilityInputs → Declared f n i
  | model {n i} : (n, i) ∈ f.models → Declared f n i
  | fuel {n} : n ∈ f.fuelTypes → Declared f n .fuel
  | stream {k n} : (k, n) ∈ f.inletStreams → Declared f n .stream
  | unit {n} : n ∈ f.processUnits → Declared f n .processUnit
  | fluidDefinition {n} : n ∈ f.fluids → Declared f n .fluidDefinition
  | pipeline {k n} : (k, n) ∈ f.pipelines → Declared f n .pipeline
  | simulation {n} : n ∈ f.simulations → Declared f n .simulation
  | pumpSimulation {n} : n ∈ f.pumpSimulations → Declared f n .pumpSimulation
  | fluidModel {n} : n ∈ f.fluidModels → Declared f n .fluid

/-- The place in the file where `n` is declared. -/
inductive DeclaredAt (f : File) : String → Path → Prop
  | facility {n i k} : f.facilityInputs[k]? = some (n, i) → DeclaredAt f n ⟨["FACILITY_INPUTS"], .index k⟩
  | model {n i k} : f.models[k]? = some (n, i) → DeclaredAt f n ⟨["MODELS"], .index k⟩
  | fuel {n k} : f.fuelTypes[k]? = some n → DeclaredAt f n ⟨["FUEL_TYPES"], .index k⟩
  | stream {k n} : (k, n) ∈ f.inletStreams → DeclaredAt f n ⟨["INLET_STREAMS"], .key k⟩
  | unit {n} : n ∈ f.processUnits → DeclaredAt f n ⟨["DEFINITIONS", "PROCESS_UNITS"], .key n⟩
  | fluidDefinition {n} : n ∈ f.fluids → DeclaredAt f n ⟨["DEFINITIONS", "FLUIDS"], .key n⟩
  | pipeline {k n} : (k, n) ∈ f.pipelines → DeclaredAt f n ⟨["PROCESS_PIPELINES"], .key k⟩
  | simulation {n k} : f.simulations[k]? = some n → DeclaredAt f n ⟨["PROCESS_SIMULATIONS"], .index k⟩
  | pumpSimulation {n k} : f.pumpSimulations[k]? = some n → DeclaredAt f n ⟨["PUMP_PROCESS_SIMULATIONS"], .index k⟩
  | fluidModel {n} : n ∈ f.fluidModels → DeclaredAt f n ⟨["FLUID_MODELS"], .key n⟩

/-- Streams and pipelines are called what their key says. -/
def NamesAgree (f : File) : Prop := (∀ e ∈ f.inletStreams, e.2 = e.1) ∧ ∀ e ∈ f.pipelines, e.2 = e.1

/-- The charts a kind of train can have: measured ones, or generic ones for simplified trains, where those made from
input need operational data. -/
def Fit : Train → Bool → Chart → Prop
  | .simplified, data, c | .unknownStages, data, c => c = .genericDesign ∨ (c = .genericInput ∧ data = true)
  | _, _, c => c = .singleSpeed ∨ c = .variableSpeed

/-- A compressor model made of what the file declares. -/
inductive Makes (f : File) (data : Bool) : String → Made → Prop
  | sampled {n} : Declared f n .compressorTabular → Makes f data n (.sampled n)
  | train {n t fluids charts cs} : Declared f n (.train t fluids charts) → (∀ x ∈ fluids, Declared f x .fluid) →
      List.Forall₂ (fun c p => p.1 = c ∧ Declared f c (.chart p.2) ∧ Fit t data p.2) charts cs →
      (t = .unknownStages → data = true) → (t = .multipleStreams → fluids ≠ []) →
      Makes f data n (.train t n fluids cs)
  | driven {n c t m} : Declared f n (.withTurbine c t) → Makes f data c m → (∀ m' t', m ≠ .driven m' t') →
      Declared f t .turbine → Makes f data n (.driven m t)

/-! ## Dicts -/

theorem lookup_put {β : Type} (d : List (String × β)) (k n : String) (v : β) :
    (put d k v).lookup n = if n = k then some v else d.lookup n := by
  induction d with
  | nil =>
    by_cases h : n = k
    · simp [put, h]
    · have : (n == k) = false := by simpa using h
      simp [put, h, List.lookup, this]
  | cons e d ih =>
    obtain ⟨k', v'⟩ := e
    simp only [put]
    by_cases hk : k' = k
    · rw [if_pos hk, List.lookup_cons, List.lookup_cons]
      by_cases h : n = k
      · simp [h]
      · have : (n == k) = false := by simpa using h
        rw [hk, this]; simp [h]
    · rw [if_neg hk, List.lookup_cons, List.lookup_cons, ih]
      by_cases h : n = k'
      · have hnk : n ≠ k := fun h' => hk (h.symm.trans h')
        simp [h, hk]
      · have : (n == k') = false := by simpa using h
        rw [this]

theorem lookup_foldl {β : Type} (kvs : List (String × β)) (n : String) : ∀ d : List (String × β),
    (kvs.foldl (fun d kv => put d kv.1 kv.2) d).lookup n = (kvs.reverse.lookup n).or (d.lookup n) := by
  induction kvs with
  | nil => intro d; simp
  | cons e kvs ih =>
    intro d
    rw [List.foldl_cons, ih, lookup_put, List.reverse_cons, List.lookup_append, Option.or_assoc]
    congr 1
    obtain ⟨k, v⟩ := e
    rw [List.lookup_cons]
    by_cases h : n = k
    · simp [h]
    · have : (n == k) = false := by simpa using h
      rw [this]; simp [h]

/-- A dict has the value assigned last. -/
theorem lookup_fill {β : Type} (kvs : List (String × β)) (n : String) : (fill kvs).lookup n = kvs.reverse.lookup n := by
  unfold fill
  rw [lookup_foldl]
  simp

theorem lookup_mem {β : Type} {kvs : List (String × β)} {n : String} {v : β} (h : kvs.lookup n = some v) : (n, v) ∈ kvs := by
  induction kvs with
  | nil => cases h
  | cons e kvs ih =>
    obtain ⟨k, w⟩ := e
    rw [List.lookup_cons] at h
    by_cases hk : n = k
    · simp [hk] at h
      simp [hk, h]
    · have : (n == k) = false := by simpa using hk
      rw [this] at h
      exact List.mem_cons_of_mem _ (ih h)

theorem lookup_of_mem {β : Type} {kvs : List (String × β)} {n : String} {v : β} (h : (n, v) ∈ kvs) :
    ∃ w, kvs.lookup n = some w := by
  induction kvs with
  | nil => cases h
  | cons e kvs ih =>
    obtain ⟨k, w⟩ := e
    rw [List.lookup_cons]
    by_cases hk : n = k
    · simp [hk]
    · have : (n == k) = false := by simpa using hk
      rw [this]
      rcases List.mem_cons.1 h with h | h
      · cases h; exact absurd rfl hk
      · exact ih h

theorem nodup_value {β : Type} {kvs : List (String × β)} (hn : (kvs.map (·.1)).Nodup) {n : String} {v w : β}
    (h1 : (n, v) ∈ kvs) (h2 : (n, w) ∈ kvs) : v = w := by
  have := List.inj_on_of_nodup_map hn h1 h2 rfl
  exact (Prod.mk.inj this).2

/-- With different names, a dict has exactly what was assigned. -/
theorem lookup_unique {β : Type} {kvs : List (String × β)} (hn : (kvs.map (·.1)).Nodup) (n : String) (v : β) :
    (fill kvs).lookup n = some v ↔ (n, v) ∈ kvs := by
  rw [lookup_fill]
  constructor
  · intro h; exact List.mem_reverse.1 (lookup_mem h)
  · intro h
    obtain ⟨w, hw⟩ := lookup_of_mem (List.mem_reverse.2 h)
    rw [hw, nodup_value hn (List.mem_reverse.1 (lookup_mem hw)) h]

/-! ## The service -/

theorem listed_names (place : List String) (l : List (String × Item)) : ∀ s, (listed place s l).map (·.1) = l.map (·.1) := by
  induction l with
  | nil => intro s; rfl
  | cons e l ih => intro s; obtain ⟨n, i⟩ := e; simp [listed, ih]

theorem mem_listed (place : List String) (l : List (String × Item)) : ∀ s n p i,
    (n, p, i) ∈ listed place s l ↔ ∃ k, l[k]? = some (n, i) ∧ p = ⟨place, .index (s + k)⟩ := by
  induction l with
  | nil => intro s n p i; simp [listed]
  | cons e l ih =>
    intro s n p i
    obtain ⟨m, j⟩ := e
    simp only [listed, List.mem_cons, Prod.mk.injEq, ih]
    constructor
    · rintro (⟨rfl, rfl, rfl⟩ | ⟨k, hk, rfl⟩)
      · exact ⟨0, rfl, rfl⟩
      · exact ⟨k + 1, hk, by congr 2; omega⟩
    · rintro ⟨k, hk, rfl⟩
      cases k with
      | zero => left; cases hk; exact ⟨rfl, rfl, rfl⟩
      | succ k => right; exact ⟨k, hk, by congr 2; omega⟩

theorem mem_keyed {place : List String} {item : Item} {l : List String} {n : String} {p : Path} {i : Item} :
    (n, p, i) ∈ keyed place item l ↔ n ∈ l ∧ p = ⟨place, .key n⟩ ∧ i = item := by
  simp only [keyed, List.mem_map, Prod.mk.injEq]
  constructor
  · rintro ⟨k, hk, rfl, rfl, rfl⟩; exact ⟨hk, rfl, rfl⟩
  · rintro ⟨hk, rfl, rfl⟩; exact ⟨n, hk, rfl, rfl, rfl⟩

theorem mem_named {place : List String} {item : Item} {l : List (String × String)} {n : String} {p : Path} {i : Item} :
    (n, p, i) ∈ named place item l ↔ ∃ k, (k, n) ∈ l ∧ p = ⟨place, .key k⟩ ∧ i = item := by
  simp only [named, List.mem_map, Prod.mk.injEq]
  constructor
  · rintro ⟨⟨k, m⟩, hk, rfl, rfl, rfl⟩; exact ⟨k, hk, rfl, rfl⟩
  · rintro ⟨k, hk, rfl, rfl⟩; exact ⟨(k, n), hk, rfl, rfl, rfl⟩

theorem map_fst_snd {l : List (String × String)} (h : ∀ e ∈ l, e.2 = e.1) : l.map (·.2) = l.map (·.1) :=
  List.map_congr_left fun e he => h e he

/-- The names assigned are those checked for duplicates. -/
theorem assigned_perm {f : File} (ha : NamesAgree f) : (f.assignments.map (·.1)).Perm
    (f.names.facilityInputs ++ f.names.models ++ f.names.fuelTypes ++ f.names.processPipelines ++ f.names.processUnits ++
      f.names.fluids ++ f.names.processSimulations ++ f.names.pumpSimulations ++ f.names.fluidModels ++
      f.names.inletStreams) := by
  rw [List.perm_iff_count]
  intro x
  simp only [File.assignments, List.map_append, List.count_append, listed_names, keyed, named, List.map_map,
    Function.comp_def, File.names, List.map_id']
  rw [map_fst_snd ha.1, map_fst_snd ha.2]
  omega

theorem assigned_nodup {f : File} (ha : NamesAgree f) (hu : validateReferences f.names = .ok ()) :
    (f.assignments.map (·.1)).Nodup := by
  rw [(assigned_perm ha).nodup_iff, List.nodup_iff_count_le_one, ← C35.no_duplicates]
  unfold validateReferences at hu
  by_contra hne
  simp only [if_neg hne] at hu
  cases hu

theorem declared_iff (f : File) (n : String) (i : Item) : Declared f n i ↔ ∃ p, (n, p, i) ∈ f.assignments := by
  simp only [File.assignments, List.mem_append, mem_listed, mem_keyed, mem_named, or_assoc]
  constructor
  · intro h
    have idx : ∀ {α : Type} {l : List α} {x : α}, x ∈ l → ∃ k : Nat, l[k]? = some x := fun h => List.mem_iff_getElem?.1 h
    cases h with
    | facility h => obtain ⟨k, hk⟩ := idx h; exact ⟨_, .inl ⟨k, hk, rfl⟩⟩
    | model h => obtain ⟨k, hk⟩ := idx h; exact ⟨_, .inr (.inl ⟨k, hk, rfl⟩)⟩
    | fuel h => obtain ⟨k, hk⟩ := idx h; exact ⟨_, .inr (.inr (.inl ⟨k, by simp [hk], rfl⟩))⟩
    | stream h => exact ⟨_, .inr (.inr (.inr (.inl ⟨_, h, rfl, rfl⟩)))⟩
    | unit h => exact ⟨_, .inr (.inr (.inr (.inr (.inl ⟨h, rfl, rfl⟩))))⟩
    | fluidDefinition h => exact ⟨_, .inr (.inr (.inr (.inr (.inr (.inl ⟨h, rfl, rfl⟩)))))⟩
    | pipeline h => exact ⟨_, .inr (.inr (.inr (.inr (.inr (.inr (.inl ⟨_, h, rfl, rfl⟩))))))⟩
    | simulation h => obtain ⟨k, hk⟩ := idx h; exact ⟨_, .inr (.inr (.inr (.inr (.inr (.inr (.inr (.inl ⟨k, by simp [hk], rfl⟩)))))))⟩
    | pumpSimulation h => obtain ⟨k, hk⟩ := idx h; exact ⟨_, .inr (.inr (.inr (.inr (.inr (.inr (.inr (.inr (.inl ⟨k, by simp [hk], rfl⟩))))))))⟩
    | fluidModel h => exact ⟨_, .inr (.inr (.inr (.inr (.inr (.inr (.inr (.inr (.inr ⟨h, rfl, rfl⟩))))))))⟩
  · rintro ⟨p, h⟩
    have mem : ∀ {α : Type} {l : List α} {x : α} {k : Nat}, l[k]? = some x → x ∈ l :=
      fun h => List.mem_iff_getElem?.2 ⟨_, h⟩
    rcases h with ⟨k, h, -⟩ | ⟨k, h, -⟩ | ⟨k, h, -⟩ | ⟨k, h, -, rfl⟩ | ⟨h, -, rfl⟩ | ⟨h, -, rfl⟩ | ⟨k, h, -, rfl⟩ |
      ⟨k, h, -⟩ | ⟨k, h, -⟩ | ⟨h, -, rfl⟩
    · exact .facility (mem h)
    · exact .model (mem h)
    · rw [List.getElem?_map, Option.map_eq_some_iff] at h
      obtain ⟨x, hx, e⟩ := h
      cases e
      exact .fuel (mem hx)
    · exact .stream h
    · exact .unit h
    · exact .fluidDefinition h
    · exact .pipeline h
    · rw [List.getElem?_map, Option.map_eq_some_iff] at h
      obtain ⟨x, hx, e⟩ := h
      cases e
      exact .simulation (mem hx)
    · rw [List.getElem?_map, Option.map_eq_some_iff] at h
      obtain ⟨x, hx, e⟩ := h
      cases e
      exact .pumpSimulation (mem hx)
    · exact .fluidModel h

theorem declaredAt_iff (f : File) (n : String) (p : Path) : DeclaredAt f n p ↔ ∃ i, (n, p, i) ∈ f.assignments := by
  simp only [File.assignments, List.mem_append, mem_listed, mem_keyed, mem_named, Nat.zero_add, or_assoc]
  constructor
  · intro h
    cases h with
    | facility h => exact ⟨_, .inl ⟨_, h, rfl⟩⟩
    | model h => exact ⟨_, .inr (.inl ⟨_, h, rfl⟩)⟩
    | fuel h => exact ⟨.fuel, .inr (.inr (.inl ⟨_, by simp [h], rfl⟩))⟩
    | stream h => exact ⟨_, .inr (.inr (.inr (.inl ⟨_, h, rfl, rfl⟩)))⟩
    | unit h => exact ⟨_, .inr (.inr (.inr (.inr (.inl ⟨h, rfl, rfl⟩))))⟩
    | fluidDefinition h => exact ⟨_, .inr (.inr (.inr (.inr (.inr (.inl ⟨h, rfl, rfl⟩)))))⟩
    | pipeline h => exact ⟨_, .inr (.inr (.inr (.inr (.inr (.inr (.inl ⟨_, h, rfl, rfl⟩))))))⟩
    | simulation h => exact ⟨.simulation, .inr (.inr (.inr (.inr (.inr (.inr (.inr (.inl ⟨_, by simp [h], rfl⟩)))))))⟩
    | pumpSimulation h => exact ⟨.pumpSimulation, .inr (.inr (.inr (.inr (.inr (.inr (.inr (.inr (.inl ⟨_, by simp [h], rfl⟩))))))))⟩
    | fluidModel h => exact ⟨_, .inr (.inr (.inr (.inr (.inr (.inr (.inr (.inr (.inr ⟨h, rfl, rfl⟩))))))))⟩
  · rintro ⟨i, h⟩
    rcases h with ⟨k, h, rfl⟩ | ⟨k, h, rfl⟩ | ⟨k, h, rfl⟩ | ⟨k, h, rfl, -⟩ | ⟨h, rfl, -⟩ | ⟨h, rfl, -⟩ | ⟨k, h, rfl, -⟩ |
      ⟨k, h, rfl⟩ | ⟨k, h, rfl⟩ | ⟨h, rfl, -⟩
    · exact .facility h
    · exact .model h
    · rw [List.getElem?_map, Option.map_eq_some_iff] at h
      obtain ⟨x, hx, e⟩ := h
      cases e
      exact .fuel hx
    · exact .stream h
    · exact .unit h
    · exact .fluidDefinition h
    · exact .pipeline h
    · rw [List.getElem?_map, Option.map_eq_some_iff] at h
      obtain ⟨x, hx, e⟩ := h
      cases e
      exact .simulation hx
    · rw [List.getElem?_map, Option.map_eq_some_iff] at h
      obtain ⟨x, hx, e⟩ := h
      cases e
      exact .pumpSimulation hx
    · exact .fluidModel h

/-- **Property C91, names.** In a file without duplicated names a reference stands for exactly what is declared under
that name, errors point to where it is declared, and every other reference is refused. -/
theorem C91_resolves {f : File} (hu : validateReferences f.names = .ok ()) (ha : NamesAgree f) (n : String) :
    (∀ i, f.resolve n = .ok i ↔ Declared f n i) ∧ (∀ p, f.path n = some p ↔ DeclaredAt f n p) ∧
    (f.resolve n = .error .invalid ↔ ∀ i, ¬ Declared f n i) := by
  have key := lookup_unique (assigned_nodup ha hu) n
  have h1 : ∀ i, f.resolve n = .ok i ↔ Declared f n i := by
    intro i
    unfold File.resolve File.service
    rw [declared_iff]
    constructor
    · intro h
      cases hl : (fill f.assignments).lookup n with
      | none => rw [hl] at h; cases h
      | some e =>
        rw [hl] at h
        cases h
        exact ⟨e.1, (key e).1 hl⟩
    · rintro ⟨p, hp⟩
      rw [(key (p, i)).2 hp]
  refine ⟨h1, fun p => ?_, ?_⟩
  · unfold File.path File.service
    rw [declaredAt_iff, Option.map_eq_some_iff]
    constructor
    · rintro ⟨e, he, rfl⟩
      exact ⟨e.2, (key e).1 he⟩
    · rintro ⟨i, hi⟩
      exact ⟨(p, i), (key (p, i)).2 hi, rfl⟩
  · constructor
    · intro h i hd
      rw [(h1 i).2 hd] at h
      cases h
    · intro h
      have : ∀ i, f.resolve n ≠ .ok i := fun i hi => h i ((h1 i).1 hi)
      unfold File.resolve at this ⊢
      cases hl : f.service.lookup n with
      | none => rfl
      | some e => rw [hl] at this; exact absurd rfl (this e.2)

/-! ## Validation -/

/-- A facility input or a model of the file. -/
def DeclaredModel (f : File) (n : String) (i : Item) : Prop := (n, i) ∈ f.facilityInputs ∨ (n, i) ∈ f.models

/-- The reference `n` names a facility input or model of one of the types. -/
def OfType (f : File) (allowed : List ModelType) (n : String) (i : Item) : Prop :=
  DeclaredModel f n i ∧ ∃ t, i.type = some t ∧ t ∈ allowed

theorem DeclaredModel.declared {f : File} {n : String} {i : Item} (h : DeclaredModel f n i) : Declared f n i :=
  h.elim .facility .model

theorem names_nodup {f : File} (hu : validateReferences f.names = .ok ()) :
    ((f.models ++ f.facilityInputs).map (·.1)).Nodup := by
  rw [List.nodup_iff_count_le_one]
  intro x
  have h : getDuplicates (f.names.facilityInputs ++ f.names.models ++ f.names.fuelTypes ++ f.names.processPipelines ++
      f.names.processUnits ++ f.names.fluids ++ f.names.processSimulations ++ f.names.pumpSimulations ++
      f.names.fluidModels ++ f.names.inletStreams) = [] := by
    unfold validateReferences at hu
    by_contra hne
    simp only [if_neg hne] at hu
    cases hu
  have := (C35.no_duplicates _).1 h x
  simp only [List.count_append, File.names, List.map_append] at this ⊢
  omega

theorem modelTypes_iff {f : File} (hu : validateReferences f.names = .ok ()) (n : String) (i : Item) :
    f.modelTypes.lookup n = some i ↔ DeclaredModel f n i := by
  unfold File.modelTypes
  rw [lookup_unique (names_nodup hu), List.mem_append]
  exact or_comm

theorem checkReference_iff {f : File} (hu : validateReferences f.names = .ok ()) (allowed : List ModelType) (n : String)
    (i : Item) : checkReference f allowed n = .ok i ↔ OfType f allowed n i := by
  unfold checkReference OfType
  constructor
  · intro h
    cases hl : f.modelTypes.lookup n with
    | none => rw [hl] at h; cases h
    | some j =>
      rw [hl] at h
      dsimp only at h
      cases ht : j.type with
      | none => rw [ht] at h; cases h
      | some t =>
        rw [ht] at h
        dsimp only at h
        by_cases hm : t ∈ allowed
        · rw [if_pos hm] at h
          cases h
          exact ⟨(modelTypes_iff hu n _).1 hl, t, ht, hm⟩
        · rw [if_neg hm] at h; cases h
  · rintro ⟨hd, t, ht, hm⟩
    rw [(modelTypes_iff hu n i).2 hd]
    dsimp only
    rw [ht]
    dsimp only
    rw [if_pos hm]

theorem DeclaredModel.unique {f : File} (hu : validateReferences f.names = .ok ()) {n : String} {i j : Item}
    (hi : DeclaredModel f n i) (hj : DeclaredModel f n j) : i = j := by
  have h1 := (modelTypes_iff hu n i).2 hi
  rw [(modelTypes_iff hu n j).2 hj] at h1
  exact (Option.some.inj h1).symm

/-- **Property C91, accepted references.** The field is accepted exactly when it names a facility input or model of a type
allowed there, and when that is a compressor with turbine, its compressor is of a type allowed there too and has no
turbine of its own. -/
theorem C91_accepted {f : File} (hu : validateReferences f.names = .ok ()) (allowed : List ModelType) (n : String) :
    checkField f allowed n = .ok () ↔ ∃ i, OfType f allowed n i ∧
      ∀ c t, i = .withTurbine c t → ∃ j, OfType f allowed c j ∧ ∀ c' t', j ≠ .withTurbine c' t' := by
  have filt : ∀ c j, OfType f (allowed.filter (· ≠ .compressorWithTurbine)) c j ↔
      OfType f allowed c j ∧ ∀ c' t', j ≠ .withTurbine c' t' := by
    intro c j
    unfold OfType
    constructor
    · rintro ⟨hd, t, ht, hm⟩
      rw [List.mem_filter] at hm
      refine ⟨⟨hd, t, ht, hm.1⟩, fun c' t' hj => ?_⟩
      subst hj
      cases ht
      simp at hm
    · rintro ⟨⟨hd, t, ht, hm⟩, hn⟩
      refine ⟨hd, t, ht, List.mem_filter.2 ⟨hm, ?_⟩⟩
      simp only [decide_eq_true_eq]
      intro he
      subst he
      cases j with
      | withTurbine c' t' => exact hn c' t' rfl
      | train t _ _ => cases t <;> cases ht
      | _ => cases ht
  unfold checkField
  cases hc : checkReference f allowed n with
  | error e =>
    constructor
    · intro h; cases h
    · rintro ⟨i, hi, -⟩
      rw [(checkReference_iff hu _ _ _).2 hi] at hc
      cases hc
  | ok i =>
    have hi := (checkReference_iff hu _ _ _).1 hc
    have uniq : ∀ j, OfType f allowed n j → j = i := fun j hj => hj.1.unique hu hi.1
    have triv : (∀ c t, i ≠ .withTurbine c t) → ((Except.ok () : Except RErr Unit) = .ok () ↔ ∃ i, OfType f allowed n i ∧
        ∀ c t, i = .withTurbine c t → ∃ j, OfType f allowed c j ∧ ∀ c' t', j ≠ .withTurbine c' t') :=
      fun hn => ⟨fun _ => ⟨i, hi, fun c t h => absurd h (hn c t)⟩, fun _ => rfl⟩
    cases i with
    | withTurbine c t =>
      show (checkReference f _ c >>= fun _ => pure ()) = Except.ok () ↔ _
      constructor
      · intro h
        cases hj : checkReference f (allowed.filter (· ≠ .compressorWithTurbine)) c with
        | error e => rw [hj] at h; cases h
        | ok j =>
          have := (filt c j).1 ((checkReference_iff hu _ _ _).1 hj)
          refine ⟨_, hi, fun c' t' he => ?_⟩
          cases he
          exact ⟨j, this⟩
      · rintro ⟨i', hi', h⟩
        cases uniq i' hi'
        obtain ⟨j, hj⟩ := h c t rfl
        rw [(checkReference_iff hu _ _ _).2 ((filt c j).2 hj)]
        rfl
    | _ => exact triv (by intro c t h; cases h)

/-! ## Getters -/

theorem get_ok {f : File} (hu : validateReferences f.names = .ok ()) (ha : NamesAgree f) (isA : Item → Bool) (n : String)
    (i : Item) : f.get isA n = .ok i ↔ Declared f n i ∧ isA i = true := by
  unfold File.get
  constructor
  · intro h
    cases hr : f.resolve n with
    | error e => rw [hr] at h; cases h
    | ok j =>
      rw [hr] at h
      change (if isA j then pure j else Except.error RErr.invalid) = Except.ok i at h
      by_cases hj : isA j = true
      · rw [if_pos hj] at h
        cases h
        exact ⟨((C91_resolves hu ha n).1 _).1 hr, hj⟩
      · rw [if_neg hj] at h; cases h
  · rintro ⟨hd, hi⟩
    rw [((C91_resolves hu ha n).1 i).2 hd]
    change (if isA i then pure i else Except.error RErr.invalid) = Except.ok i
    rw [if_pos hi]
    rfl

/-- What the code asks of a reference used for something (yaml_reference_service.py:163-223). -/
def getterOf : Use → Item → Bool
  | .generatorSet => isGeneratorSet
  | .compressor => isCompressor
  | .multipleStreams => isCompressor
  | .pump => isPump
  | .tabulated => isTabular
  | .stage => isChart
  | .fluid => isFluid
  | .turbine => isTurbine

/-- **Property C91, accepted references are found.** A reference accepted when the file is read is found when models are
created, except for pumps and stages that name a table. -/
theorem C91_found {f : File} (hu : validateReferences f.names = .ok ()) (ha : NamesAgree f) (u : Use) (n : String)
    (h : checkField f u.allowed n = .ok ()) :
    (∃ i, f.get (getterOf u) n = .ok i ∧ DeclaredModel f n i) ∨
    (u = .pump ∧ Declared f n .tabular) ∨ (u = .stage ∧ (Declared f n .tabular ∨ Declared f n .compressorTabular)) := by
  obtain ⟨i, ⟨hd, t, ht, hm⟩, -⟩ := (C91_accepted hu _ n).1 h
  have good : getterOf u i = true → ∃ i, f.get (getterOf u) n = .ok i ∧ DeclaredModel f n i :=
    fun hg => ⟨i, (get_ok hu ha _ _ _).2 ⟨hd.declared, hg⟩, hd⟩
  cases i with
  | train k _ _ =>
    cases k <;> cases ht <;> cases u <;>
      first
      | exact .inl (good rfl)
      | exact .inr (.inl ⟨rfl, hd.declared⟩)
      | exact .inr (.inr ⟨rfl, .inl hd.declared⟩)
      | exact .inr (.inr ⟨rfl, .inr hd.declared⟩)
      | (exfalso; revert hm; decide)
  | _ =>
    cases ht <;> cases u <;>
      first
      | exact .inl (good rfl)
      | exact .inr (.inl ⟨rfl, hd.declared⟩)
      | exact .inr (.inr ⟨rfl, .inl hd.declared⟩)
      | exact .inr (.inr ⟨rfl, .inr hd.declared⟩)
      | (exfalso; revert hm; decide)

/-! ## Creating models -/

theorem mapM_ok {α β : Type} {g : α → Except RErr β} {l : List α} {r : List β} :
    l.mapM g = .ok r ↔ List.Forall₂ (fun a b => g a = .ok b) l r := by
  induction l generalizing r with
  | nil =>
    rw [List.mapM_nil]
    constructor
    · intro h; cases h; exact .nil
    · intro h; cases h; rfl
  | cons a l ih =>
    rw [List.mapM_cons]
    constructor
    · intro h
      cases ha : g a with
      | error e => rw [ha] at h; cases h
      | ok b =>
        rw [ha] at h
        change (l.mapM g >>= fun bs => pure (b :: bs)) = Except.ok r at h
        cases hl : l.mapM g with
        | error e => rw [hl] at h; cases h
        | ok bs =>
          rw [hl] at h
          cases h
          exact .cons ha (ih.1 hl)
    · intro h
      cases h with
      | cons h1 h2 =>
        rw [h1, ih.2 h2]
        rfl

theorem suits_iff (t : Train) (data : Bool) (c : Chart) : suits t data c = true ↔ Fit t data c := by
  cases t <;> cases c <;> simp [suits, Fit]

theorem chartOf_iff {f : File} (hu : validateReferences f.names = .ok ()) (ha : NamesAgree f) (t : Train) (data : Bool)
    (n : String) (p : String × Chart) :
    chartOf f t data n = .ok p ↔ p.1 = n ∧ Declared f n (.chart p.2) ∧ Fit t data p.2 := by
  unfold chartOf
  constructor
  · intro h
    cases hg : f.get isChart n with
    | error e => rw [hg] at h; cases h
    | ok i =>
      rw [hg] at h
      obtain ⟨hd, hi⟩ := (get_ok hu ha _ _ _).1 hg
      cases i <;> try (cases hi; done)
      rename_i c
      change (if suits t data c then pure (n, c) else Except.error RErr.assertion) = Except.ok p at h
      by_cases hs : suits t data c = true
      · rw [if_pos hs] at h
        cases h
        exact ⟨rfl, hd, (suits_iff _ _ _).1 hs⟩
      · rw [if_neg hs] at h; cases h
  · obtain ⟨m, c⟩ := p
    rintro ⟨rfl, hd, hs⟩
    rw [(get_ok hu ha isChart _ _).2 ⟨hd, rfl⟩]
    change (if suits t data c then pure (_, c) else Except.error RErr.assertion) = Except.ok (_, c)
    rw [if_pos ((suits_iff _ _ _).2 hs)]
    rfl

theorem fluidOf_iff {f : File} (hu : validateReferences f.names = .ok ()) (ha : NamesAgree f) (n m : String) :
    fluidOf f n = .ok m ↔ m = n ∧ Declared f n .fluid := by
  unfold fluidOf
  constructor
  · intro h
    cases hg : f.get isFluid n with
    | error e => rw [hg] at h; cases h
    | ok i =>
      rw [hg] at h
      cases h
      obtain ⟨hd, hi⟩ := (get_ok hu ha _ _ _).1 hg
      cases i <;> try (cases hi; done)
      exact ⟨rfl, hd⟩
  · rintro ⟨rfl, hd⟩
    rw [(get_ok hu ha isFluid _ _).2 ⟨hd, rfl⟩]
    rfl

theorem fluids_iff {f : File} (hu : validateReferences f.names = .ok ()) (ha : NamesAgree f) (l r : List String) :
    l.mapM (fluidOf f) = .ok r ↔ r = l ∧ ∀ x ∈ l, Declared f x .fluid := by
  rw [mapM_ok]
  induction l generalizing r with
  | nil =>
    constructor
    · intro h; cases h; exact ⟨rfl, by simp⟩
    · rintro ⟨rfl, -⟩; exact .nil
  | cons a l ih =>
    constructor
    · intro h
      cases h with
      | cons h1 h2 =>
        obtain ⟨rfl, hd⟩ := (fluidOf_iff hu ha _ _).1 h1
        obtain ⟨rfl, hl⟩ := (ih _).1 h2
        exact ⟨rfl, fun x hx => (List.mem_cons.1 hx).elim (fun e => e ▸ hd) (hl x)⟩
    · rintro ⟨rfl, h⟩
      exact .cons ((fluidOf_iff hu ha _ _).2 ⟨rfl, h a (by simp)⟩)
        ((ih _).2 ⟨rfl, fun x hx => h x (List.mem_cons_of_mem _ hx)⟩)

theorem charts_iff {f : File} (hu : validateReferences f.names = .ok ()) (ha : NamesAgree f) (t : Train) (data : Bool)
    (l : List String) (r : List (String × Chart)) : l.mapM (chartOf f t data) = .ok r ↔
      List.Forall₂ (fun c p => p.1 = c ∧ Declared f c (.chart p.2) ∧ Fit t data p.2) l r := by
  rw [mapM_ok]
  simp only [chartOf_iff hu ha]

theorem bind_ok {α β : Type} {x : Except RErr α} {g : α → Except RErr β} {b : β} :
    (x >>= g) = .ok b ↔ ∃ a, x = .ok a ∧ g a = .ok b := by
  cases x with
  | error e => constructor <;> intro h; cases h; obtain ⟨a, h, -⟩ := h; cases h
  | ok a => exact ⟨fun h => ⟨a, rfl, h⟩, fun ⟨_, h, h'⟩ => by cases h; exact h'⟩

theorem isDriven_iff (m : Made) : m.isDriven = false ↔ ∀ m' t', m ≠ .driven m' t' := by
  cases m <;> simp [Made.isDriven]

theorem create_train {f : File} {data : Bool} {d : Nat} {n : String} {t : Train} {fluids charts : List String}
    (hg : f.get isCompressor n = .ok (.train t fluids charts)) (m : Made) :
    create f data (d + 1) n = .ok m ↔ ∃ fs cs, fluids.mapM (fluidOf f) = .ok fs ∧ charts.mapM (chartOf f t data) = .ok cs ∧
      (t = .unknownStages → data = true) ∧ (t = .multipleStreams → fs ≠ []) ∧ m = .train t n fs cs := by
  unfold create
  rw [hg]
  cases t with
  | multipleStreams =>
    change (charts.mapM (chartOf f .multipleStreams data) >>= fun cs => fluids.mapM (fluidOf f) >>= fun fs =>
      if fs = [] then Except.error RErr.validation else pure (Made.train .multipleStreams n fs cs)) = _ ↔ _
    rw [bind_ok]
    simp only [bind_ok]
    constructor
    · rintro ⟨cs, hcs, fs, hfs, h⟩
      by_cases he : fs = []
      · rw [if_pos he] at h; cases h
      · rw [if_neg he] at h
        cases h
        exact ⟨fs, cs, hfs, hcs, by simp, fun _ => he, rfl⟩
    · rintro ⟨fs, cs, hfs, hcs, -, he, rfl⟩
      refine ⟨cs, hcs, fs, hfs, ?_⟩
      rw [if_neg (by simpa using he)]
      rfl
  | unknownStages =>
    change (fluids.mapM (fluidOf f) >>= fun fs => if !data then Except.error RErr.assertion else
      charts.mapM (chartOf f .unknownStages data) >>= fun cs => pure (Made.train .unknownStages n fs cs)) = _ ↔ _
    rw [bind_ok]
    constructor
    · rintro ⟨fs, hfs, h⟩
      cases data with
      | false => cases h
      | true =>
        change (charts.mapM (chartOf f .unknownStages true) >>= fun cs => pure (Made.train .unknownStages n fs cs)) = _ at h
        rw [bind_ok] at h
        obtain ⟨cs, hcs, h⟩ := h
        cases h
        exact ⟨fs, cs, hfs, hcs, fun _ => rfl, by simp, rfl⟩
    · rintro ⟨fs, cs, hfs, hcs, hdata, -, rfl⟩
      refine ⟨fs, hfs, ?_⟩
      rw [hdata rfl] at hcs ⊢
      change (charts.mapM (chartOf f .unknownStages true) >>= fun cs => pure (Made.train .unknownStages n fs cs)) = _
      rw [bind_ok]
      exact ⟨cs, hcs, rfl⟩
  | simplified | singleSpeed | variableSpeed =>
    change (fluids.mapM (fluidOf f) >>= fun fs => charts.mapM (chartOf f _ data) >>= fun cs =>
      pure (Made.train _ n fs cs)) = _ ↔ _
    rw [bind_ok]
    simp only [bind_ok]
    constructor
    · rintro ⟨fs, hfs, cs, hcs, h⟩
      cases h
      exact ⟨fs, cs, hfs, hcs, by simp, by simp, rfl⟩
    · rintro ⟨fs, cs, hfs, hcs, -, -, rfl⟩
      exact ⟨fs, hfs, cs, hcs, rfl⟩

theorem create_driven {f : File} {data : Bool} {d : Nat} {n c t : String}
    (hg : f.get isCompressor n = .ok (.withTurbine c t)) (m : Made) :
    create f data (d + 1) n = .ok m ↔ ∃ m', create f data d c = .ok m' ∧ m'.isDriven = false ∧
      (∃ i, f.get isTurbine t = .ok i) ∧ m = .driven m' t := by
  rw [create, hg]
  change (create f data d c >>= fun m => if m.isDriven then Except.error RErr.assertion else
    f.get isTurbine t >>= fun _ => pure (Made.driven m t)) = _ ↔ _
  rw [bind_ok]
  constructor
  · rintro ⟨m', hm', h⟩
    cases hd : m'.isDriven with
    | true => rw [hd] at h; cases h
    | false =>
      rw [hd] at h
      change (f.get isTurbine t >>= fun _ => pure (Made.driven m' t)) = _ at h
      rw [bind_ok] at h
      obtain ⟨i, hi, h⟩ := h
      cases h
      exact ⟨m', hm', hd, ⟨i, hi⟩, rfl⟩
  · rintro ⟨m', hm', hd, ⟨i, hi⟩, rfl⟩
    refine ⟨m', hm', ?_⟩
    rw [hd]
    change (f.get isTurbine t >>= fun _ => pure (Made.driven m' t)) = _
    rw [bind_ok]
    exact ⟨i, hi, rfl⟩

theorem create_sampled {f : File} {data : Bool} {d : Nat} {n : String}
    (hg : f.get isCompressor n = .ok .compressorTabular) : create f data (d + 1) n = .ok (.sampled n) := by
  rw [create, hg]
  rfl

/-- **Property C91, models.** A compressor model is created exactly when the file declares everything it is made of, and
then it is made of that: the fluids and charts of the train named, and the turbine named. -/
theorem C91_made {f : File} (hu : validateReferences f.names = .ok ()) (ha : NamesAgree f) (data : Bool) (n : String)
    (m : Made) : (∃ depth, create f data depth n = .ok m) ↔ Makes f data n m := by
  constructor
  · rintro ⟨depth, h⟩
    induction depth generalizing n m with
    | zero => cases h
    | succ d ih =>
      cases hg : f.get isCompressor n with
      | error e => rw [create, hg] at h; cases h
      | ok i =>
        obtain ⟨hd, hi⟩ := (get_ok hu ha _ _ _).1 hg
        cases i <;> try (cases hi; done)
        · rw [create_sampled hg] at h
          cases h
          exact .sampled hd
        · obtain ⟨fs, cs, hfs, hcs, hdata, hne, rfl⟩ := (create_train hg m).1 h
          obtain ⟨rfl, hf⟩ := (fluids_iff hu ha _ _).1 hfs
          exact .train hd hf ((charts_iff hu ha _ _ _ _).1 hcs) hdata hne
        · obtain ⟨m', hm', hnd, ⟨j, hj⟩, rfl⟩ := (create_driven hg m).1 h
          obtain ⟨htd, hti⟩ := (get_ok hu ha _ _ _).1 hj
          cases j <;> try (cases hti; done)
          exact .driven hd (ih _ _ hm') ((isDriven_iff _).1 hnd) htd
  · intro h
    induction h with
    | sampled hd => exact ⟨1, create_sampled ((get_ok hu ha _ _ _).2 ⟨hd, rfl⟩)⟩
    | train hd hf hc hdata hne =>
      exact ⟨1, (create_train ((get_ok hu ha _ _ _).2 ⟨hd, rfl⟩) _).2
        ⟨_, _, (fluids_iff hu ha _ _).2 ⟨rfl, hf⟩, (charts_iff hu ha _ _ _ _).2 hc, hdata, hne, rfl⟩⟩
    | driven hd _ hnd htd ih =>
      obtain ⟨d, hm⟩ := ih
      exact ⟨d + 1, (create_driven ((get_ok hu ha _ _ _).2 ⟨hd, rfl⟩) _).2
        ⟨_, hm, (isDriven_iff _).2 hnd, ⟨_, (get_ok hu ha _ _ _).2 ⟨htd, rfl⟩⟩, rfl⟩⟩

/-! ## What validation guarantees -/

/-- What is created for `n`, without the turbine. -/
def Underlying (f : File) (n : String) (i : Item) : Prop :=
  (Declared f n i ∧ ∀ c t, i ≠ .withTurbine c t) ∨ ∃ c t, Declared f n (.withTurbine c t) ∧ Declared f c i

/-- Every stage names a chart that suits the train. -/
def StagesFit (f : File) (data : Bool) : Item → Prop
  | .train t fluids charts => (∀ c ∈ charts, ∃ k, Declared f c (.chart k) ∧ Fit t data k) ∧
      (t = .unknownStages → data = true) ∧ (t = .multipleStreams → fluids ≠ [])
  | _ => True

theorem forM_iff {α : Type} {g : α → Except RErr Unit} {l : List α} : l.forM g = .ok () ↔ ∀ x ∈ l, g x = .ok () := by
  induction l with
  | nil => exact ⟨fun _ => by simp, fun _ => rfl⟩
  | cons a l ih =>
    show (g a >>= fun _ => l.forM g) = .ok () ↔ _
    rw [bind_ok, List.forall_mem_cons, ← ih]
    exact ⟨fun ⟨_, h1, h2⟩ => ⟨h1, h2⟩, fun ⟨h1, h2⟩ => ⟨_, h1, h2⟩⟩

theorem validate_ok {f : File} (hv : f.validate = .ok ()) :
    validateReferences f.names = .ok () ∧ ∀ n i, DeclaredModel f n i → validateItem f n i = .ok () := by
  unfold File.validate at hv
  rw [bind_ok] at hv
  obtain ⟨_, h1, hv⟩ := hv
  rw [bind_ok] at hv
  obtain ⟨_, h2, hv⟩ := hv
  rw [forM_iff] at h1 h2
  constructor
  · cases hn : validateReferences f.names with
    | ok _ => rfl
    | error e => rw [hn] at hv; cases hv
  · intro n i hd
    exact hd.elim (h1 (n, i)) (h2 (n, i))

theorem validateItem_train {f : File} {n : String} {t : Train} {fluids charts : List String}
    (h : validateItem f n (.train t fluids charts) = .ok ()) :
    (∀ x ∈ fluids, checkField f Use.fluid.allowed x = .ok ()) ∧ (∀ x ∈ charts, checkField f Use.stage.allowed x = .ok ()) := by
  unfold validateItem at h
  rw [bind_ok] at h
  obtain ⟨_, h1, h⟩ := h
  rw [bind_ok] at h
  obtain ⟨_, h2, h⟩ := h
  exact ⟨forM_iff.1 h1, forM_iff.1 h2⟩

theorem fluid_declared {f : File} (hu : validateReferences f.names = .ok ()) {x : String}
    (h : checkField f Use.fluid.allowed x = .ok ()) : Declared f x .fluid := by
  obtain ⟨i, ⟨hd, t, ht, hm⟩, -⟩ := (C91_accepted hu _ x).1 h
  cases i with
  | fluid => exact hd.declared
  | train k _ _ => cases k <;> cases ht <;> (exfalso; revert hm; decide)
  | _ => cases ht <;> (exfalso; revert hm; decide)

theorem turbine_declared {f : File} (hu : validateReferences f.names = .ok ()) {x : String}
    (h : checkField f Use.turbine.allowed x = .ok ()) : Declared f x .turbine := by
  obtain ⟨i, ⟨hd, t, ht, hm⟩, -⟩ := (C91_accepted hu _ x).1 h
  cases i with
  | turbine => exact hd.declared
  | train k _ _ => cases k <;> cases ht <;> (exfalso; revert hm; decide)
  | _ => cases ht <;> (exfalso; revert hm; decide)

theorem Declared.unique {f : File} (hu : validateReferences f.names = .ok ()) (ha : NamesAgree f) {n : String} {i j : Item}
    (hi : Declared f n i) (hj : Declared f n j) : i = j := by
  have h1 := ((C91_resolves hu ha n).1 i).2 hi
  rw [((C91_resolves hu ha n).1 j).2 hj] at h1
  exact (Except.ok.inj h1).symm

theorem exists_charts {f : File} {t : Train} {data : Bool} {charts : List String}
    (h : ∀ c ∈ charts, ∃ k, Declared f c (.chart k) ∧ Fit t data k) :
    ∃ cs, List.Forall₂ (fun c (p : String × Chart) => p.1 = c ∧ Declared f c (.chart p.2) ∧ Fit t data p.2) charts cs := by
  induction charts with
  | nil => exact ⟨[], .nil⟩
  | cons a l ih =>
    obtain ⟨k, hk⟩ := h a (by simp)
    obtain ⟨cs, hcs⟩ := ih fun c hc => h c (List.mem_cons_of_mem _ hc)
    exact ⟨(a, k) :: cs, .cons ⟨rfl, hk⟩ hcs⟩

theorem charts_fit {f : File} {t : Train} {data : Bool} {charts : List String} {cs : List (String × Chart)}
    (h : List.Forall₂ (fun c (p : String × Chart) => p.1 = c ∧ Declared f c (.chart p.2) ∧ Fit t data p.2) charts cs) :
    ∀ c ∈ charts, ∃ k, Declared f c (.chart k) ∧ Fit t data k := by
  induction h with
  | nil => simp
  | cons h _ ih => exact List.forall_mem_cons.2 ⟨⟨_, h.2⟩, ih⟩

theorem create_plain {f : File} (hv : f.validate = .ok ()) (ha : NamesAgree f) (data : Bool) {n : String} {i : Item}
    (hd : DeclaredModel f n i) (hc : isCompressor i = true) (hp : ∀ c t, i ≠ .withTurbine c t) (d : Nat) :
    (∃ m, create f data (d + 1) n = .ok m ∧ m.isDriven = false) ↔ StagesFit f data i := by
  obtain ⟨hu, hitems⟩ := validate_ok hv
  have hg := (get_ok hu ha isCompressor n i).2 ⟨hd.declared, hc⟩
  cases i <;> try (cases hc; done)
  · exact ⟨fun _ => trivial, fun _ => ⟨_, create_sampled hg, rfl⟩⟩
  · rename_i t fluids charts
    have hf := (validateItem_train (hitems _ _ hd)).1
    constructor
    · rintro ⟨m, hm, -⟩
      obtain ⟨fs, cs, hfs, hcs, h1, h2, rfl⟩ := (create_train hg m).1 hm
      obtain ⟨rfl, -⟩ := (fluids_iff hu ha _ _).1 hfs
      exact ⟨charts_fit ((charts_iff hu ha _ _ _ _).1 hcs), h1, h2⟩
    · rintro ⟨h, h1, h2⟩
      obtain ⟨cs, hcs⟩ := exists_charts h
      exact ⟨_, (create_train hg _).2 ⟨fluids, cs, (fluids_iff hu ha _ _).2
        ⟨rfl, fun x hx => fluid_declared hu (hf x hx)⟩, (charts_iff hu ha _ _ _ _).2 hcs, h1, h2, rfl⟩, rfl⟩
  · exact absurd rfl (hp _ _)

theorem accepted_compressor {f : File} {u : Use} (hu' : u = .compressor ∨ u = .multipleStreams) {n : String} {i : Item}
    (h : OfType f u.allowed n i) : isCompressor i = true := by
  obtain ⟨-, t, ht, hm⟩ := h
  rcases hu' with rfl | rfl
  all_goals
    cases i with
    | train k _ _ => rfl
    | withTurbine _ _ => rfl
    | compressorTabular => rfl
    | _ => cases ht <;> (exfalso; revert hm; decide)

/-- **Property C91, accepted files.** In an accepted file the model a consumer refers to is created exactly when every
stage of the train names a chart that suits it: nothing else a reference may do can go wrong, and two calls are deep
enough. -/
theorem C91_created {f : File} (hv : f.validate = .ok ()) (ha : NamesAgree f) (data : Bool) {u : Use}
    (hu' : u = .compressor ∨ u = .multipleStreams) {n : String} (h : checkField f u.allowed n = .ok ()) (d : Nat) :
    (∃ m, create f data (d + 2) n = .ok m) ↔ ∃ i, Underlying f n i ∧ StagesFit f data i := by
  obtain ⟨hu, hitems⟩ := validate_ok hv
  obtain ⟨i, hi, hin⟩ := (C91_accepted hu _ n).1 h
  by_cases hp : ∃ c t, i = .withTurbine c t
  · obtain ⟨c, t, rfl⟩ := hp
    obtain ⟨j, hj, hjp⟩ := hin c t rfl
    have hg := (get_ok hu ha isCompressor n _).2 ⟨hi.1.declared, rfl⟩
    have ht : checkField f Use.turbine.allowed t = .ok () := hitems _ _ hi.1
    have hplain := create_plain hv ha data hj.1 (accepted_compressor hu' hj) hjp d
    constructor
    · rintro ⟨m, hm⟩
      obtain ⟨m', hm', hnd, -, -⟩ := (create_driven hg m).1 hm
      exact ⟨j, .inr ⟨c, t, hi.1.declared, hj.1.declared⟩, hplain.1 ⟨m', hm', hnd⟩⟩
    · rintro ⟨k, hk, hfit⟩
      have : k = j := by
        rcases hk with ⟨hk, hkp⟩ | ⟨c', t', h1, h2⟩
        · exact absurd (hk.unique hu ha hi.1.declared) (hkp c t)
        · cases h1.unique hu ha hi.1.declared
          exact h2.unique hu ha hj.1.declared
      subst this
      obtain ⟨m', hm', hnd⟩ := hplain.2 hfit
      exact ⟨_, (create_driven hg _).2 ⟨m', hm', hnd,
        ⟨_, (get_ok hu ha _ _ _).2 ⟨turbine_declared hu ht, rfl⟩⟩, rfl⟩⟩
  · have hp' : ∀ c t, i ≠ .withTurbine c t := fun c t he => hp ⟨c, t, he⟩
    have hplain := create_plain hv ha data hi.1 (accepted_compressor hu' hi) hp' (d + 1)
    constructor
    · rintro ⟨m, hm⟩
      refine ⟨i, .inl ⟨hi.1.declared, hp'⟩, hplain.1 ⟨m, hm, ?_⟩⟩
      have hg := (get_ok hu ha isCompressor n i).2 ⟨hi.1.declared, accepted_compressor hu' hi⟩
      cases i with
      | withTurbine c t => exact absurd rfl (hp' c t)
      | compressorTabular => rw [create_sampled hg] at hm; cases hm; rfl
      | train t fl ch => obtain ⟨fs, cs, -, -, -, -, rfl⟩ := (create_train hg m).1 hm; rfl
      | _ => have := accepted_compressor hu' hi; cases this
    · rintro ⟨k, hk, hfit⟩
      have : k = i := by
        rcases hk with ⟨hk, -⟩ | ⟨c', t', h1, -⟩
        · exact hk.unique hu ha hi.1.declared
        · exact absurd (h1.unique hu ha hi.1.declared).symm (hp' c' t')
      subst this
      obtain ⟨m, hm, -⟩ := hplain.2 hfit
      exact ⟨m, hm⟩

theorem simplified_charts {f : File} (hv : f.validate = .ok ()) {n : String} {known : Bool}
    {fluids charts : List String}
    (hd : DeclaredModel f n (.train (if known then .simplified else .unknownStages) fluids charts)) :
    ∀ c ∈ charts, checkSimplifiedChart f known c = .ok () := by
  obtain ⟨hu, hitems⟩ := validate_ok hv
  have h := hitems _ _ hd
  unfold validateItem at h
  rw [bind_ok] at h
  obtain ⟨-, -, h⟩ := h
  rw [bind_ok] at h
  obtain ⟨-, -, h⟩ := h
  have hl := (modelTypes_iff hu _ _).2 hd
  cases known with
  | true =>
    simp only [if_true] at hl h
    rw [hl] at h
    exact forM_iff.1 h
  | false =>
    simp only [Bool.false_eq_true, if_false] at hl h
    rw [hl] at h
    exact forM_iff.1 h

theorem simplified_chart {f : File} (hu : validateReferences f.names = .ok ()) {known : Bool} {c : String}
    (h : checkSimplifiedChart f known c = .ok ()) (hk : known = false ∨ ∃ k, DeclaredModel f c (.chart k)) :
    ∃ k, DeclaredModel f c (.chart k) ∧ (k = .genericInput ∨ k = .genericDesign) := by
  unfold checkSimplifiedChart at h
  cases hl : f.modelTypes.lookup c with
  | none => rw [hl] at h; cases h
  | some i =>
    have hd := (modelTypes_iff hu _ _).1 hl
    rw [hl] at h
    cases i with
    | chart k =>
      refine ⟨k, hd, ?_⟩
      cases k with
      | genericInput => exact .inl rfl
      | genericDesign => exact .inr rfl
      | _ => cases h
    | _ =>
      exfalso
      rcases hk with rfl | ⟨k, hk⟩
      · cases h
      · cases hk.unique hu hd

/-- The stages of a train name charts, not tables. -/
def NamesCharts (f : File) : Item → Prop
  | .train _ _ charts => ∀ c ∈ charts, ∃ k, DeclaredModel f c (.chart k)
  | _ => True

/-- **Property C91, simplified trains.** With operational data, a simplified train of an accepted file is created: with
unknown stages always, with known stages when they name charts. -/
theorem C91_simplified {f : File} (hv : f.validate = .ok ()) (ha : NamesAgree f) {n : String} {known : Bool}
    {fluids charts : List String}
    (hd : DeclaredModel f n (.train (if known then .simplified else .unknownStages) fluids charts))
    (hk : known = false ∨ NamesCharts f (.train .simplified fluids charts)) (d : Nat) :
    ∃ m, create f true (d + 1) n = .ok m := by
  obtain ⟨hu, -⟩ := validate_ok hv
  have hc := simplified_charts hv hd
  have hfit : StagesFit f true (.train (if known then .simplified else .unknownStages) fluids charts) := by
    refine ⟨fun c hcm => ?_, fun _ => rfl, ?_⟩
    · obtain ⟨k, hkd, hkk⟩ := simplified_chart hu (hc c hcm) (hk.imp_right fun h => h c hcm)
      refine ⟨k, hkd.declared, ?_⟩
      cases known <;> rcases hkk with rfl | rfl <;> simp [Fit]
    · cases known <;> simp
  obtain ⟨m, hm, -⟩ := (create_plain hv ha true hd rfl (by intro c t h; cases h) d).2 hfit
  exact ⟨m, hm⟩

theorem stagesOk_true {f : File} {cs : List String} {b : Bool} (h : forbid.stagesOk f cs = .ok b) (hb : b = true) :
    ∀ c ∈ cs, ∃ i, f.modelTypes.lookup c = some i ∧ i ≠ .chart .genericInput := by
  induction cs with
  | nil => simp
  | cons a cs ih =>
    unfold forbid.stagesOk at h
    cases hl : f.modelTypes.lookup a with
    | none => rw [hl] at h; cases h; cases hb
    | some i =>
      rw [hl] at h
      cases i with
      | chart k =>
        cases k with
        | genericInput => cases h
        | _ => exact List.forall_mem_cons.2 ⟨⟨_, hl, by simp⟩, ih h⟩
      | _ => exact List.forall_mem_cons.2 ⟨⟨_, hl, by simp⟩, ih h⟩

theorem forbid_train {f : File} {n : String} {t : Train} {fluids charts : List String}
    (hl : f.modelTypes.lookup n = some (.train t fluids charts) ∨ ∃ c u, f.modelTypes.lookup n = some (.withTurbine c u) ∧
      f.modelTypes.lookup c = some (.train t fluids charts)) (ht : t = .simplified ∨ t = .unknownStages)
    (h : forbid f n = .ok true) : t = .simplified ∧ forbid.stagesOk f charts = .ok true := by
  unfold forbid at h
  rcases hl with hl | ⟨c, u, hl, hl'⟩
  · rw [hl] at h
    rcases ht with rfl | rfl
    · cases charts with
      | nil => cases h
      | cons a l => exact ⟨rfl, h⟩
    · cases h
  · rw [hl] at h
    dsimp only at h
    rw [hl'] at h
    rcases ht with rfl | rfl
    · cases charts with
      | nil => cases h
      | cons a l => exact ⟨rfl, h⟩
    · cases h

/-- **Property C91, compressor systems.** A simplified train, with or without turbine, that a compressor system accepts
is created without operational data when its stages name charts. -/
theorem C91_system {f : File} (hv : f.validate = .ok ()) (ha : NamesAgree f) {n : String} {t : Train}
    {fluids charts : List String} (ht : t = .simplified ∨ t = .unknownStages)
    (hacc : checkField f Use.compressor.allowed n = .ok ())
    (hd : Underlying f n (.train t fluids charts)) (hk : NamesCharts f (.train t fluids charts))
    (h : forbid f n = .ok true) (d : Nat) : ∃ m, create f false (d + 2) n = .ok m := by
  obtain ⟨hu, -⟩ := validate_ok hv
  obtain ⟨i, hi, hin⟩ := (C91_accepted hu _ n).1 hacc
  have key : ∃ x, DeclaredModel f x (.train t fluids charts) ∧ (x = n ∨ ∃ u, DeclaredModel f n (.withTurbine x u)) := by
    rcases hd with ⟨hd, -⟩ | ⟨c, u, hd, hd'⟩
    · cases hi.1.declared.unique hu ha hd
      exact ⟨n, hi.1, .inl rfl⟩
    · cases hi.1.declared.unique hu ha hd
      obtain ⟨j, hj, -⟩ := hin c u rfl
      cases hj.1.declared.unique hu ha hd'
      exact ⟨c, hj.1, .inr ⟨u, hi.1⟩⟩
  obtain ⟨x, hx, hxn⟩ := key
  have hl : f.modelTypes.lookup n = some (.train t fluids charts) ∨ ∃ c u, f.modelTypes.lookup n = some (.withTurbine c u) ∧
      f.modelTypes.lookup c = some (.train t fluids charts) := by
    rcases hxn with rfl | ⟨u, hxu⟩
    · exact .inl ((modelTypes_iff hu _ _).2 hx)
    · exact .inr ⟨x, u, (modelTypes_iff hu _ _).2 hxu, (modelTypes_iff hu _ _).2 hx⟩
  obtain ⟨rfl, hstages⟩ := forbid_train hl ht h
  refine (C91_created hv ha false (.inl rfl) hacc d).2 ⟨_, hd, fun c hcm => ?_, by simp, by simp⟩
  obtain ⟨j, hj, hne⟩ := stagesOk_true hstages rfl c hcm
  obtain ⟨k, hkd, hkk⟩ := simplified_chart hu (simplified_charts (known := true) hv hx c hcm) (.inr (hk c hcm))
  cases hkd.unique hu ((modelTypes_iff hu _ _).1 hj)
  refine ⟨k, hkd.declared, ?_⟩
  rcases hkk with rfl | rfl
  · exact absurd rfl hne
  · exact .inl rfl

/-- **Property C91, fuel.** A fuel is found exactly when it is declared as fuel. -/
theorem C91_fuel {f : File} (hu : validateReferences f.names = .ok ()) (ha : NamesAgree f)
    (hs : ∀ n, ¬ DeclaredModel f n .fuel) (n : String) : (∃ i, f.get isFuel n = .ok i) ↔ n ∈ f.fuelTypes := by
  simp only [get_ok hu ha]
  constructor
  · rintro ⟨i, hd, hi⟩
    cases i <;> try (cases hi; done)
    cases hd with
    | facility h => exact absurd (.inl h) (hs n)
    | model h => exact absurd (.inr h) (hs n)
    | fuel h => exact h
  · intro h
    exact ⟨_, .fuel h, rfl⟩

/-! ## Deviations exhibited -/

theorem lookup_none {β : Type} {kvs : List (String × β)} {n : String} (h : ∀ v, (n, v) ∉ kvs) : kvs.lookup n = none := by
  cases hl : kvs.lookup n with
  | none => rfl
  | some v => exact absurd (lookup_mem hl) (h v)

/-- **Deviation.** Streams are found by their `NAME` while uniqueness is asked of their keys: a stream hides whatever of
that name is declared in the sections read before, a fuel for instance. -/
theorem C91_stream_hides {f : File} {k n : String} (hk : (k, n) ∈ f.inletStreams) (h1 : n ∉ f.processUnits)
    (h2 : n ∉ f.fluids) (h3 : ∀ k', (k', n) ∉ f.pipelines) (h4 : n ∉ f.simulations) (h5 : n ∉ f.pumpSimulations)
    (h6 : n ∉ f.fluidModels) : f.resolve n = .ok .stream := by
  unfold File.resolve File.service
  rw [lookup_fill]
  unfold File.assignments
  simp only [List.reverse_append, List.lookup_append]
  rw [lookup_none (n := n) (kvs := (keyed ["FLUID_MODELS"] .fluid f.fluidModels).reverse)
      (fun v h => h6 (mem_keyed.1 (List.mem_reverse.1 h)).1),
    lookup_none (n := n) (kvs := (listed ["PUMP_PROCESS_SIMULATIONS"] 0 (f.pumpSimulations.map (·, .pumpSimulation))).reverse),
    lookup_none (n := n) (kvs := (listed ["PROCESS_SIMULATIONS"] 0 (f.simulations.map (·, .simulation))).reverse),
    lookup_none (n := n) (kvs := (named ["PROCESS_PIPELINES"] .pipeline f.pipelines).reverse)
      (fun v h => by obtain ⟨k', hk', -⟩ := mem_named.1 (List.mem_reverse.1 h); exact h3 k' hk'),
    lookup_none (n := n) (kvs := (keyed ["DEFINITIONS", "FLUIDS"] .fluidDefinition f.fluids).reverse)
      (fun v h => h2 (mem_keyed.1 (List.mem_reverse.1 h)).1),
    lookup_none (n := n) (kvs := (keyed ["DEFINITIONS", "PROCESS_UNITS"] .processUnit f.processUnits).reverse)
      (fun v h => h1 (mem_keyed.1 (List.mem_reverse.1 h)).1)]
  · simp only [Option.none_or]
    obtain ⟨w, hw⟩ := lookup_of_mem (List.mem_reverse.2 (mem_named.2 ⟨k, hk, rfl, rfl⟩ :
      (n, _, _) ∈ named ["INLET_STREAMS"] .stream f.inletStreams))
    obtain ⟨-, -, -, hi⟩ := mem_named.1 (List.mem_reverse.1 (lookup_mem hw))
    rw [hw]
    simp only [Option.some_or]
    rw [hi]
  · rintro ⟨p, i⟩ h
    obtain ⟨k', hk', -⟩ := (mem_listed _ _ _ _ _ _).1 (List.mem_reverse.1 h)
    have := List.mem_iff_getElem?.2 ⟨_, hk'⟩
    rw [List.mem_map] at this
    obtain ⟨x, hx, he⟩ := this
    cases he
    exact h4 hx
  · rintro ⟨p, i⟩ h
    obtain ⟨k', hk', -⟩ := (mem_listed _ _ _ _ _ _).1 (List.mem_reverse.1 h)
    have := List.mem_iff_getElem?.2 ⟨_, hk'⟩
    rw [List.mem_map] at this
    obtain ⟨x, hx, he⟩ := this
    cases he
    exact h5 hx

/-- An accepted file whose fuel is hidden by a stream; the key of the stream is no reference. -/
theorem C91_fuel_hidden : ∃ f : File, f.validate = .ok () ∧ "gas" ∈ f.fuelTypes ∧ f.get isFuel "gas" = .error .invalid ∧
    ("inlet", "gas") ∈ f.inletStreams ∧ f.resolve "inlet" = .error .invalid :=
  ⟨{ fuelTypes := ["gas"], inletStreams := [("inlet", "gas")] }, by decide +kernel⟩

/-- **Deviation.** A pump may refer to a table when the file is read, and no pump is found. -/
theorem C91_pump_table {f : File} (hu : validateReferences f.names = .ok ()) (ha : NamesAgree f) {n : String}
    (hd : DeclaredModel f n .tabular) :
    checkField f Use.pump.allowed n = .ok () ∧ f.get isPump n = .error .invalid := by
  constructor
  · exact (C91_accepted hu _ n).2 ⟨_, ⟨hd, _, rfl, by decide⟩, by intro c t h; cases h⟩
  · unfold File.get
    rw [((C91_resolves hu ha n).1 _).2 hd.declared]
    rfl

/-- **Deviation.** A stage may refer to a table when the file is read, and no chart is found. -/
theorem C91_stage_table {f : File} (hu : validateReferences f.names = .ok ()) (ha : NamesAgree f) {n : String}
    (hd : DeclaredModel f n .tabular ∨ DeclaredModel f n .compressorTabular) (t : Train) (data : Bool) :
    checkField f Use.stage.allowed n = .ok () ∧ chartOf f t data n = .error .invalid := by
  rcases hd with hd | hd
  all_goals
    constructor
    · exact (C91_accepted hu _ n).2 ⟨_, ⟨hd, _, rfl, by decide⟩, by intro c t h; cases h⟩
    · unfold chartOf File.get
      rw [((C91_resolves hu ha n).1 _).2 hd.declared]
      rfl

/-- **Deviation.** A train with speeds may refer to a generic chart when the file is read, and the model is not created. -/
theorem C91_generic_chart : ∃ f : File, f.validate = .ok () ∧ NamesAgree f ∧
    checkField f Use.compressor.allowed "train" = .ok () ∧ ∀ data d, create f data (d + 2) "train" = .error .assertion := by
  refine ⟨{ models := [("train", .train .variableSpeed ["medium"] ["chart"]), ("medium", .fluid),
    ("chart", .chart .genericDesign)] }, by decide +kernel, ⟨by simp, by simp⟩, by decide +kernel, ?_⟩
  intro data d
  cases data <;> rfl

/-- **Deviation.** The validator of a simplified train finds the train by its name: when a facility input has the name
too, reading fails with an attribute error instead of a message about the name. -/
theorem C91_simplified_duplicate : ∃ f : File, f.validate = .error .attribute ∧ validateReferences f.names ≠ .ok () :=
  ⟨{ facilityInputs := [("a", .tabular)], models := [("a", .train .simplified ["medium"] ["chart"]), ("medium", .fluid),
    ("chart", .chart .genericDesign)] }, by decide +kernel⟩

/-- **Deviation.** The compressor of a compressor with turbine that no consumer uses is not looked up when the file is
read. -/
theorem C91_unused_turbine : ∃ f : File, f.validate = .ok () ∧ ("driven", Item.withTurbine "nothing" "turbine") ∈ f.models ∧
    f.resolve "nothing" = .error .invalid :=
  ⟨{ models := [("driven", .withTurbine "nothing" "turbine"), ("turbine", .turbine)] }, by decide +kernel⟩

/-! ## Examples -/

/-- A file with a train driven by a turbine, a table and a system. -/
def site : File where
  facilityInputs := [("genset", .generatorSet), ("table", .compressorTabular), ("pump", .pumpVariable)]
  models := [("medium", .fluid), ("design", .chart .genericDesign), ("input", .chart .genericInput),
    ("measured", .chart .variableSpeed), ("turbine", .turbine), ("simple", .train .simplified ["medium"] ["design", "input"]),
    ("simple2", .train .simplified ["medium"] ["design", "design"]), ("unknown", .train .unknownStages ["medium"] ["input"]),
    ("vsd", .train .variableSpeed ["medium"] ["measured", "measured"]), ("driven", .withTurbine "vsd" "turbine"),
    ("twice", .withTurbine "driven" "turbine"), ("streams", .train .multipleStreams ["medium"] ["measured"])]
  fuelTypes := ["gas", "diesel"]
  inletStreams := [("inlet", "inlet")]

example : site.validate = .ok () := by decide +kernel
example : site.path "turbine" = some ⟨["MODELS"], .index 4⟩ ∧ site.path "diesel" = some ⟨["FUEL_TYPES"], .index 1⟩ ∧
    site.path "inlet" = some ⟨["INLET_STREAMS"], .key "inlet"⟩ := by decide +kernel
example : create site false 2 "driven" =
    .ok (.driven (.train .variableSpeed "vsd" ["medium"] [("measured", .variableSpeed), ("measured", .variableSpeed)]) "turbine") := by
  decide +kernel
example : create site true 2 "simple" =
    .ok (.train .simplified "simple" ["medium"] [("design", .genericDesign), ("input", .genericInput)]) := by decide +kernel
example : create site false 2 "simple" = .error .assertion ∧ forbid site "simple" = .error .value ∧
    forbid site "simple2" = .ok true ∧ forbid site "unknown" = .error .value := by decide +kernel
example : checkField site Use.compressor.allowed "driven" = .ok () ∧
    checkField site Use.compressor.allowed "twice" = .error .invalid ∧
    checkField site Use.compressor.allowed "streams" = .error .invalid ∧
    checkField site Use.multipleStreams.allowed "driven" = .error .invalid := by decide +kernel
example : create site true 5 "twice" = .error .assertion := by decide +kernel
example : site.get isFuel "diesel" = .ok .fuel ∧ site.get isFuel "medium" = .error .invalid := by decide +kernel
/-- A model that is its own compressor recurses until the interpreter gives up. -/
example : ∀ d, create { models := [("a", .withTurbine "a" "t"), ("t", .turbine)] } true d "a" = .error .recursion := by
  intro d
  induction d with
  | zero => rfl
  | succ d ih =>
    show (create _ true d "a" >>= _) = _
    rw [ih]
    rfl

end Verif.C91
