import Verif.Model.ProcessMap
import Mathlib.Data.List.Forall2
import Mathlib.Data.List.Nodup
import Mathlib.Tactic.Ring

/-!
# C109: what the process simulations of a file are made into
-/

namespace Verif.C109
open Verif.Time Verif.Inputs Verif.Pipeline Verif.ProcessMap

/-! ### Specification -/

/-- What a reference, or a definition in place, stands for. -/
inductive Stands {α : Type} (get : String → Except Err α) : Ref α → α → Prop
  | named (n : String) (a : α) : get n = .ok a → Stands get (.named n) a
  | here (a : α) : Stands get (.here a) a

/-- The components of a fluid. -/
inductive Component where
  | water | nitrogen | co2 | methane | ethane | propane | iButane | nButane | iPentane | nPentane | nHexane
  deriving DecidableEq

/-- The amount of a component. -/
def part {α : Type} (m : Mix α) : Component → α
  | .water => m.water
  | .nitrogen => m.nitrogen
  | .co2 => m.co2
  | .methane => m.methane
  | .ethane => m.ethane
  | .propane => m.propane
  | .iButane => m.iButane
  | .nButane => m.nButane
  | .iPentane => m.iPentane
  | .nPentane => m.nPentane
  | .nHexane => m.nHexane

/-- The fluid has the equation of state and every component of the definition. -/
inductive FluidIs : FluidDef → TFluid → Prop
  | predefined (eos : EoS) (gas : Gas) (f : TFluid) : f.eos = eos →
      (∀ c, part f.mix c = .number (part gas.composition c)) → FluidIs (.predefined eos gas) f
  | composition (eos : EoS) (mix : Mix ExprInput) (f : TFluid) : f.eos = eos →
      (∀ c, part f.mix c = part mix c) → FluidIs (.composition eos mix) f

/-- The rate has the value and type of the file, and its condition or all of its conditions. -/
structure RateIs (r : Rate) (t : TRate) : Prop where
  value : t.value = r.value
  calendar : t.calendar = r.calendar
  condition : r.conditions = none → t.condition = r.condition
  conditions : ∀ cs, r.conditions = some cs → ∃ e, handleConditionList cs = .ok e ∧ t.condition = some e

variable {κ σ : Type}

/-- The stream has the fluid, pressure, temperature and rate of the file. -/
def StreamIs (env : Env κ σ) (r : Ref Stream) (t : TStream) : Prop :=
  ∃ s f, Stands env.stream r s ∧ Stands env.fluid s.fluid f ∧ FluidIs f t.fluid ∧ t.pressure = s.pressure ∧
    t.temperature = s.temperature ∧ RateIs s.rate t.rate

/-- The chart is made of the curves of the file, the control margin being a fraction; a resource has a column of
speeds. -/
structure ChartIs (env : Env κ σ) (c : ChartDef) (d : ChartData) : Prop where
  curves : d.curves = c.curves
  units : d.units = c.units
  margin : d.margin = c.margin * if c.percent = true then 1 / 100 else 1
  chartable : env.chartable d = .ok ()
  speed : ∀ f, c.curves = .named f → ∃ hs, env.headers f = some hs ∧ "SPEED" ∈ hs

/-- What a definition becomes: the unit and its configuration, if it has one. -/
inductive UnitIs (env : Env κ σ) : Def → Kind → Option Config → Prop
  | compressor (c : ChartDef) (d : ChartData) : ChartIs env c d → UnitIs env (.compressor c) (.compressor d) none
  | dropper (e : ExprInput) : UnitIs env (.dropper e) .dropper (some (.drop e))
  | setter (e : ExprInput) : UnitIs env (.setter e) .setter (some (.celsius e))
  | remover : UnitIs env .remover .remover none
  | mixer (r : Ref Stream) (t : TStream) : StreamIs env r t → UnitIs env (.mixer r) .mixer (some (.side t))
  | splitter (r : Rate) (t : TRate) : RateIs r t → UnitIs env (.splitter r) .splitter (some (.offtake t))

/-- Whether a unit is a compressor. -/
def runs (u : PlantUnit) : Bool :=
  match u.kind with
  | .compressor _ => true
  | _ => false

/-- The id of the unit that bears a name, when the units are numbered from `next`. -/
def idOfName (next : Nat) (items : List Item) (name : String) : Option Nat :=
  (items.findIdx? (fun it => it.name = some name)).map (next + ·)

/-- The first event one of whose process events bears the name. -/
def First (es : List Event) (name : String) (e : Event) : Prop :=
  ∃ before after, es = before ++ e :: after ∧ (∃ q ∈ e.parts, q.name = name) ∧
    ∀ b ∈ before, ∀ q ∈ b.parts, q.name ≠ name

/-- The change to a pipeline is that of the file: at the start of the event, the unit of that name gets the chart of the
named compressor. -/
structure ChangeIs (env : Env κ σ) (ids : String → Option Nat) (id : Nat) (y : YChange) (c : Change) : Prop where
  action : c.action = y.action
  type : c.type = y.type
  target : ids y.target = some c.target
  event : ∃ e, First env.events y.ref e ∧ c.time = e.start
  after : c.after.id = id ∧ ∃ d, env.unit y.after = .ok d ∧ UnitIs env d c.after.kind none ∧ runs c.after = true

/-- The pipeline is that of the file. Ids are counted from `next`. -/
structure PipelineIs (env : Env κ σ) (constraints : List (String × List (Constraint κ))) (next : Nat)
    (y : YPipeline) (p : MPipeline κ σ) : Prop where
  name : p.name = y.name
  count : p.units.length = y.items.length
  unit : ∀ (k : Nat) (it : Item) (u : PlantUnit), y.items[k]? = some it → p.units[k]? = some u → u.id = next + k ∧
    ∃ d, Stands env.unit it.target d ∧ UnitIs env d u.kind (p.configs.lookup u.id)
  configs : p.configs = p.units.filterMap (fun u => (p.configs.lookup u.id).map (u.id, ·))
  shaft : p.shaft = (p.units.filter runs).map (·.id)
  names : ∀ (i j : Nat) (it it' : Item) (n : String), y.items[i]? = some it → y.items[j]? = some it' → it.name = some n → it'.name = some n → i = j
  sections : ∃ cs, constraints.lookup y.name = some cs ∧ cs ≠ [] ∧
    partition (p.units.map fun u => ⟨u.id, runs u⟩) (idOfName next y.items) cs = .ok p.cuts ∧
    env.assemble p.cuts = .ok p.sections
  changes : p.changes.length = y.events.length ∧ ∀ (k : Nat) (e : YChange) (c : Change), y.events[k]? = some e → p.changes[k]? = some c →
    ChangeIs env (idOfName next y.items) (next + y.items.length + k) e c
  id : p.id = next + y.items.length + y.events.length

/-- The pipelines are those of the targets, in order, with ids that follow each other. -/
inductive PipelinesAre (env : Env κ σ) (constraints : List (String × List (Constraint κ))) :
    Nat → List String → List (MPipeline κ σ) → Nat → Prop
  | nil (n : Nat) : PipelinesAre env constraints n [] [] n
  | cons (n m : Nat) (t : String) (ts : List String) (y : YPipeline) (p : MPipeline κ σ) (ps : List (MPipeline κ σ)) :
      env.pipeline t = .ok y → PipelineIs env constraints n y p → PipelinesAre env constraints (p.id + 1) ts ps m →
      PipelinesAre env constraints n (t :: ts) (p :: ps) m

/-- The last pipeline of a name. -/
def Last (ps : List (MPipeline κ σ)) (name : String) (id : Nat) : Prop :=
  ∃ before p after, ps = before ++ p :: after ∧ p.name = name ∧ p.id = id ∧ ∀ q ∈ after, q.name ≠ name

/-- The setting has the fractions of the file and its overflows between the pipelines named. -/
def SettingIs (ps : List (MPipeline κ σ)) (y : YSetting) (s : Setting) : Prop :=
  s.fractions = y.fractions ∧
    List.Forall₂ (fun (o : YOverflow) (r : Nat × Nat) => Last ps o.source r.1 ∧ Last ps o.dest r.2)
      (y.overflow.getD []) s.overflow

/-- The distribution of the streams is that of the file. -/
inductive DistributionIs (env : Env κ σ) (ps : List (MPipeline κ σ)) : YDistribution → Distribution → Prop
  | common (inlet : Ref Stream) (t : TStream) (ys : List YSetting) (ss : List Setting) : StreamIs env inlet t →
      List.Forall₂ (SettingIs ps) ys ss → DistributionIs env ps (.common inlet ys) (.common t ss)
  | individual (rs : List (Ref Stream)) (ts : List TStream) : List.Forall₂ (StreamIs env) rs ts →
      DistributionIs env ps (.individual rs) (.individual ts)

/-- The simulation is that of the file. -/
structure SimulationIs (env : Env κ σ) (next : Nat) (y : YSimulation κ) (s : Simulation κ σ) (next' : Nat) : Prop where
  name : s.name = y.name
  pipelines : PipelinesAre env y.constraints next y.targets s.pipelines next'
  constraints : ∀ c ∈ y.constraints, ∃ p ∈ s.pipelines, p.name = c.1
  distribution : DistributionIs env s.pipelines y.distribution s.distribution

/-! ### Helpers -/

theorem bind_iff {α β : Type} (x : Except Err α) (f : α → Except Err β) (b : β) :
    (x >>= f) = .ok b ↔ ∃ a, x = .ok a ∧ f a = .ok b := by
  cases x with
  | error e => simp [Bind.bind, Except.bind]
  | ok a => simp [Bind.bind, Except.bind]

theorem pure_iff {α : Type} (a b : α) : (pure a : Except Err α) = .ok b ↔ a = b := by
  simp [pure, Except.pure]

theorem ok_iff {α : Type} (a b : α) : (Except.ok a : Except Err α) = .ok b ↔ a = b := by simp

theorem map_iff {α β : Type} (x : Except Err α) (f : α → β) (b : β) :
    x.map f = .ok b ↔ ∃ a, x = .ok a ∧ f a = b := by
  cases x <;> simp [Except.map]

theorem mapM_iff {α β : Type} (f : α → Except Err β) : ∀ (l : List α) (r : List β),
    l.mapM f = .ok r ↔ List.Forall₂ (fun a b => f a = .ok b) l r
  | [], r => by rw [List.mapM_nil, pure_iff]; constructor
                · rintro rfl; exact .nil
                · intro h; cases h; rfl
  | a :: l, r => by
    rw [List.mapM_cons, bind_iff]
    constructor
    · rintro ⟨b, hb, h⟩
      rw [bind_iff] at h
      obtain ⟨bs, hbs, h⟩ := h
      rw [pure_iff] at h
      subst h
      exact .cons hb ((mapM_iff f l bs).mp hbs)
    · intro h
      cases h with
      | cons h1 h2 =>
        refine ⟨_, h1, ?_⟩
        rw [bind_iff]
        exact ⟨_, (mapM_iff f l _).mpr h2, by rw [pure_iff]⟩

theorem resolve_iff {α : Type} (get : String → Except Err α) (r : Ref α) (a : α) :
    resolve get r = .ok a ↔ Stands get r a := by
  cases r with
  | named n => exact ⟨fun h => .named n a h, fun h => by cases h; assumption⟩
  | here b => exact ⟨fun h => by have := Except.ok.inj h; subst this; exact .here _, fun h => by cases h; rfl⟩

theorem mapRate_iff (r : Rate) (t : TRate) : mapRate r = .ok t ↔ RateIs r t := by
  obtain ⟨v, ca, c, cs⟩ := r
  obtain ⟨v', ca', c'⟩ := t
  unfold mapRate
  rw [bind_iff]
  simp only [pure_iff]
  cases cs with
  | none =>
    constructor
    · rintro ⟨a, h1, h2⟩
      simp only [mapConditions, ok_iff] at h1
      simp only [TRate.mk.injEq] at h2
      obtain ⟨rfl, rfl, rfl⟩ := h2
      exact ⟨rfl, rfl, fun _ => h1.symm, fun cs h => by cases h⟩
    · rintro ⟨h1, h2, h3, -⟩
      have h3 := h3 rfl
      exact ⟨c, rfl, by simp only at h1 h2 h3; rw [h1, h2, h3]⟩
  | some cs =>
    constructor
    · rintro ⟨a, h1, h2⟩
      simp only [mapConditions, map_iff] at h1
      simp only [TRate.mk.injEq] at h2
      obtain ⟨rfl, rfl, rfl⟩ := h2
      obtain ⟨e, he, rfl⟩ := h1
      exact ⟨rfl, rfl, fun h => (by cases h), fun cs' h => (by cases h; exact ⟨e, he, rfl⟩)⟩
    · rintro ⟨h1, h2, -, h4⟩
      obtain ⟨e, he, h⟩ := h4 cs rfl
      refine ⟨some e, ?_, by simp only at h1 h2 h; rw [h1, h2, h]⟩
      simp only [mapConditions, map_iff]
      exact ⟨e, he, rfl⟩

theorem mix_ext {α : Type} (m m' : Mix α) (h : ∀ c, part m c = part m' c) : m = m' := by
  obtain ⟨⟩ := m
  obtain ⟨⟩ := m'
  have h1 := h .water
  have h2 := h .nitrogen
  have h3 := h .co2
  have h4 := h .methane
  have h5 := h .ethane
  have h6 := h .propane
  have h7 := h .iButane
  have h8 := h .nButane
  have h9 := h .iPentane
  have h10 := h .nPentane
  have h11 := h .nHexane
  clear h
  simp only [part] at h1 h2 h3 h4 h5 h6 h7 h8 h9 h10 h11
  subst h1 h2 h3 h4 h5 h6 h7 h8 h9 h10 h11
  rfl

theorem mapFluid_iff (d : FluidDef) (f : TFluid) : mapFluid d = f ↔ FluidIs d f := by
  obtain ⟨e, m⟩ := f
  cases d with
  | predefined eos gas =>
    constructor
    · intro h
      rw [← h]
      exact .predefined _ _ _ rfl (fun c => by cases c <;> rfl)
    · intro h
      cases h with
      | predefined _ _ _ h1 h2 =>
        have : m = (mapFluid (.predefined eos gas)).mix :=
          mix_ext _ _ (fun c => (h2 c).trans (by cases c <;> rfl))
        simp only at h1
        rw [this, h1]
        rfl
  | composition eos mix =>
    constructor
    · intro h
      rw [← h]
      exact .composition _ _ _ rfl (fun c => by cases c <;> rfl)
    · intro h
      cases h with
      | composition _ _ _ h1 h2 =>
        have : m = (mapFluid (.composition eos mix)).mix :=
          mix_ext _ _ (fun c => (h2 c).trans (by cases c <;> rfl))
        simp only at h1
        rw [this, h1]
        rfl

theorem mapStream_iff (env : Env κ σ) (r : Ref Stream) (t : TStream) : mapStream env r = .ok t ↔ StreamIs env r t := by
  unfold mapStream
  simp only [bind_iff, pure_iff]
  constructor
  · rintro ⟨s, h1, f, h2, q, h3, rfl⟩
    exact ⟨s, f, (resolve_iff _ _ _).mp h1, (resolve_iff _ _ _).mp h2, (mapFluid_iff _ _).mp rfl, rfl, rfl,
      (mapRate_iff _ _).mp h3⟩
  · rintro ⟨s, f, h1, h2, h3, h4, h5, h6⟩
    refine ⟨s, (resolve_iff _ _ _).mpr h1, f, (resolve_iff _ _ _).mpr h2, t.rate, (mapRate_iff _ _).mpr h6, ?_⟩
    rw [(mapFluid_iff _ _).mpr h3, ← h4, ← h5]

theorem chartOf_iff (env : Env κ σ) (c : ChartDef) (d : ChartData) : chartOf env c = .ok d ↔ ChartIs env c d := by
  have hm : marginFraction c = c.margin * if c.percent = true then 1 / 100 else 1 := by
    unfold marginFraction
    by_cases h : c.percent = true
    · rw [if_pos h, if_pos h]; ring
    · rw [if_neg h, if_neg h]; ring
  obtain ⟨curves, units, margin, percent⟩ := c
  obtain ⟨curves', units', margin'⟩ := d
  simp only at hm
  have key : ((env.chartable ⟨curves, units, marginFraction ⟨curves, units, margin, percent⟩⟩).map
      (fun _ => (⟨curves, units, marginFraction ⟨curves, units, margin, percent⟩⟩ : ChartData)) =
        .ok ⟨curves', units', margin'⟩) ↔ curves' = curves ∧ units' = units ∧
        margin' = margin * (if percent = true then 1 / 100 else 1) ∧
        env.chartable ⟨curves', units', margin'⟩ = .ok () := by
    rw [map_iff, hm]
    simp only [ChartData.mk.injEq]
    constructor
    · rintro ⟨u, h, rfl, rfl, rfl⟩
      exact ⟨rfl, rfl, rfl, h⟩
    · rintro ⟨rfl, rfl, rfl, h⟩
      exact ⟨(), h, rfl, rfl, rfl⟩
  cases curves with
  | here s =>
    unfold chartOf
    simp only
    rw [key]
    constructor
    · rintro ⟨h1, h2, h3, h4⟩
      exact ⟨h1, h2, h3, h4, fun f h => by cases h⟩
    · rintro ⟨h1, h2, h3, h4, -⟩
      exact ⟨h1, h2, h3, h4⟩
  | named f =>
    unfold chartOf
    simp only
    cases hh : env.headers f with
    | none =>
      simp only
      constructor
      · intro h; cases h
      · rintro ⟨-, -, -, -, h⟩
        obtain ⟨hs, h, -⟩ := h f rfl
        rw [hh] at h
        cases h
    | some hs =>
      simp only
      by_cases hsp : "SPEED" ∈ hs
      · rw [if_pos hsp, key]
        constructor
        · rintro ⟨h1, h2, h3, h4⟩
          exact ⟨h1, h2, h3, h4, fun f' h => by cases h; exact ⟨hs, hh, hsp⟩⟩
        · rintro ⟨h1, h2, h3, h4, -⟩
          exact ⟨h1, h2, h3, h4⟩
      · rw [if_neg hsp]
        constructor
        · intro h; cases h
        · rintro ⟨-, -, -, -, h⟩
          obtain ⟨hs', h, h'⟩ := h f rfl
          rw [hh] at h
          cases h
          exact absurd h' hsp

theorem makeUnit_iff (env : Env κ σ) (d : Def) (m : Kind × Option Config) :
    makeUnit env d = .ok m ↔ UnitIs env d m.1 m.2 := by
  obtain ⟨k, c⟩ := m
  cases d with
  | compressor cd =>
    simp only [makeUnit, bind_iff, pure_iff, Prod.mk.injEq]
    constructor
    · rintro ⟨x, h, rfl, rfl⟩
      exact .compressor _ _ ((chartOf_iff _ _ _).mp h)
    · intro h
      cases h with
      | compressor _ x h => exact ⟨x, (chartOf_iff _ _ _).mpr h, rfl, rfl⟩
  | dropper e =>
    simp only [makeUnit, ok_iff, Prod.mk.injEq]
    exact ⟨by rintro ⟨rfl, rfl⟩; exact .dropper e, by intro h; cases h; exact ⟨rfl, rfl⟩⟩
  | setter e =>
    simp only [makeUnit, ok_iff, Prod.mk.injEq]
    exact ⟨by rintro ⟨rfl, rfl⟩; exact .setter e, by intro h; cases h; exact ⟨rfl, rfl⟩⟩
  | remover =>
    simp only [makeUnit, ok_iff, Prod.mk.injEq]
    exact ⟨by rintro ⟨rfl, rfl⟩; exact .remover, by intro h; cases h; exact ⟨rfl, rfl⟩⟩
  | mixer r =>
    simp only [makeUnit, bind_iff, pure_iff, Prod.mk.injEq]
    constructor
    · rintro ⟨x, h, rfl, rfl⟩
      exact .mixer _ _ ((mapStream_iff _ _ _).mp h)
    · intro h
      cases h with
      | mixer _ x h => exact ⟨x, (mapStream_iff _ _ _).mpr h, rfl, rfl⟩
  | splitter r =>
    simp only [makeUnit, bind_iff, pure_iff, Prod.mk.injEq]
    constructor
    · rintro ⟨x, h, rfl, rfl⟩
      exact .splitter _ _ ((mapRate_iff _ _).mp h)
    · intro h
      cases h with
      | splitter _ x h => exact ⟨x, (mapRate_iff _ _).mpr h, rfl, rfl⟩

/-! ### The units of a pipeline -/

/-- What an item is made into. -/
def MadeOf (env : Env κ σ) (it : Item) (m : Kind × Option Config) : Prop :=
  ∃ d, Stands env.unit it.target d ∧ UnitIs env d m.1 m.2

/-- Units numbered from `n`. -/
def unitsOf (n : Nat) : List (Kind × Option Config) → List PlantUnit
  | [] => []
  | m :: ms => ⟨n, m.1⟩ :: unitsOf (n + 1) ms

/-- Their configurations. -/
def configsOf (n : Nat) : List (Kind × Option Config) → List (Nat × Config)
  | [] => []
  | m :: ms => (m.2.map (n, ·)).toList ++ configsOf (n + 1) ms

/-- The ids of the named items. -/
def namesOf (n : Nat) : List Item → List (String × Nat)
  | [] => []
  | it :: its => (it.name.map (·, n)).toList ++ namesOf (n + 1) its

theorem unitsOf_length (n : Nat) (ms : List (Kind × Option Config)) : (unitsOf n ms).length = ms.length := by
  induction ms generalizing n with
  | nil => rfl
  | cons m ms ih => simp [unitsOf, ih]

theorem unitsOf_get (n k : Nat) (ms : List (Kind × Option Config)) :
    (unitsOf n ms)[k]? = ms[k]?.map fun m => (⟨n + k, m.1⟩ : PlantUnit) := by
  induction ms generalizing n k with
  | nil => simp [unitsOf]
  | cons m ms ih =>
    cases k with
    | zero => simp [unitsOf]
    | succ k =>
      simp only [unitsOf, List.getElem?_cons_succ]
      rw [ih, show n + 1 + k = n + (k + 1) by omega]

theorem configsOf_ge (n : Nat) (ms : List (Kind × Option Config)) : ∀ e ∈ configsOf n ms, n ≤ e.1 := by
  induction ms generalizing n with
  | nil => intro e h; simp [configsOf] at h
  | cons m ms ih =>
    intro e h
    simp only [configsOf, List.mem_append, Option.mem_toList, Option.map_eq_some_iff] at h
    rcases h with ⟨c, -, rfl⟩ | h
    · exact le_refl _
    · have := ih (n + 1) e h
      omega

theorem lookup_none {β : Type} (l : List (Nat × β)) (i : Nat) (h : ∀ e ∈ l, e.1 ≠ i) : l.lookup i = none := by
  induction l with
  | nil => rfl
  | cons e l ih =>
    obtain ⟨j, b⟩ := e
    have h1 : ¬ i = j := fun hh => h (j, b) (by simp) hh.symm
    rw [List.lookup_cons, beq_false_of_ne h1]
    exact ih (fun e he => h e (by simp [he]))

theorem lookup_configsOf (n k : Nat) (ms : List (Kind × Option Config)) (m : Kind × Option Config)
    (h : ms[k]? = some m) : (configsOf n ms).lookup (n + k) = m.2 := by
  induction ms generalizing n k with
  | nil => simp at h
  | cons m' ms ih =>
    obtain ⟨kd, c⟩ := m'
    cases k with
    | zero =>
      simp only [List.getElem?_cons_zero, Option.some.injEq] at h
      subst h
      cases c with
      | none =>
        simp only [configsOf, Option.map_none, Option.toList_none, List.nil_append]
        exact lookup_none _ _ (fun e he => by have := configsOf_ge _ _ e he; omega)
      | some c => simp [configsOf]
    | succ k =>
      simp only [List.getElem?_cons_succ] at h
      have := ih (n + 1) k h
      rw [show n + 1 + k = n + (k + 1) by omega] at this
      cases c with
      | none => simpa [configsOf] using this
      | some c =>
        have hne : (n + (k + 1) == n) = false := beq_false_of_ne (by omega)
        simpa [configsOf, List.lookup_cons, hne] using this

theorem configsOf_units (n : Nat) (ms : List (Kind × Option Config)) (g : Nat → Option Config)
    (hg : ∀ (k : Nat) (m : Kind × Option Config), ms[k]? = some m → g (n + k) = m.2) :
    configsOf n ms = (unitsOf n ms).filterMap (fun u => (g u.id).map (u.id, ·)) := by
  induction ms generalizing n with
  | nil => rfl
  | cons m ms ih =>
    have h0 := hg 0 m rfl
    rw [Nat.add_zero] at h0
    have ih := ih (n + 1) (fun k m' h => by
      have := hg (k + 1) m' (by simpa using h)
      rwa [show n + (k + 1) = n + 1 + k by omega] at this)
    rw [configsOf, unitsOf, List.filterMap_cons, ih]
    simp only [h0]
    cases m.2 <;> rfl

theorem idOfName_nil (n : Nat) (s : String) : idOfName n [] s = none := rfl

theorem idOfName_cons (n : Nat) (it : Item) (its : List Item) (s : String) :
    idOfName n (it :: its) s = if it.name = some s then some n else idOfName (n + 1) its s := by
  unfold idOfName
  rw [List.findIdx?_cons]
  by_cases h : it.name = some s
  · simp [h]
  · simp only [h, decide_false, if_false]
    cases its.findIdx? (fun it => decide (it.name = some s)) with
    | none => simp
    | some i => simp; omega

theorem lookup_namesOf (n : Nat) (its : List Item) (s : String) : (namesOf n its).lookup s = idOfName n its s := by
  induction its generalizing n with
  | nil => rfl
  | cons it its ih =>
    rw [idOfName_cons, ← ih]
    cases hn : it.name with
    | none => simp [namesOf, hn]
    | some t =>
      simp only [namesOf, hn, Option.map_some, Option.toList_some, List.cons_append, List.nil_append,
        List.lookup_cons, Option.some.injEq]
      by_cases h : t = s
      · subst h; simp
      · rw [if_neg h, beq_false_of_ne (fun hh => h hh.symm)]

/-- The state after the loop over the units. -/
def after (st : St) (its : List Item) (ms : List (Kind × Option Config)) : St where
  next := st.next + its.length
  units := st.units ++ unitsOf st.next ms
  compressors := st.compressors ++ ((unitsOf st.next ms).filter runs).map (·.id)
  names := st.names ++ namesOf st.next its
  configs := st.configs ++ configsOf st.next ms

theorem addItem_iff (env : Env κ σ) (st st' : St) (it : Item) :
    addItem env st it = .ok st' ↔ ∃ m, MadeOf env it m ∧ (∀ n, it.name = some n → n ∉ st.names.map (·.1)) ∧
      st' = after st [it] [m] := by
  unfold addItem MadeOf
  have hstate : ∀ m : Kind × Option Config, (after st [it] [m]) =
      { next := st.next + 1
        units := st.units ++ [⟨st.next, m.1⟩]
        compressors := if m.1.isCompressor then st.compressors ++ [st.next] else st.compressors
        names := st.names ++ (it.name.map (·, st.next)).toList
        configs := withConfig st.configs st.next m.2 } := by
    rintro ⟨k, c⟩
    have hr : [(⟨st.next, k⟩ : PlantUnit)].filter runs = if k.isCompressor = true then [⟨st.next, k⟩] else [] := by
      cases k <;> rfl
    simp only [after, unitsOf, configsOf, namesOf, hr]
    cases hk : k.isCompressor <;> cases c <;> simp [withConfig]
  simp only [bind_iff, resolve_iff, makeUnit_iff]
  constructor
  · rintro ⟨d, hd, m, hm, h⟩
    refine ⟨m, ⟨d, hd, hm⟩, ?_⟩
    rw [hstate]
    cases hn : it.name with
    | none =>
      simp only [hn, pure_iff] at h
      exact ⟨fun n h => (by cases h), by rw [← h]; simp⟩
    | some n =>
      simp only [hn] at h
      by_cases hc : st.names.any (fun x => decide (x.1 = n)) = true
      · rw [if_pos hc] at h; cases h
      · rw [if_neg hc, pure_iff] at h
        refine ⟨fun n' h' => ?_, by rw [← h]; simp⟩
        cases h'
        intro hmem
        apply hc
        simp only [List.mem_map] at hmem
        obtain ⟨x, hx, rfl⟩ := hmem
        exact List.any_eq_true.mpr ⟨x, hx, by simp⟩
  · rintro ⟨m, ⟨d, hd, hm⟩, h1, h2⟩
    refine ⟨d, hd, m, hm, ?_⟩
    rw [hstate] at h2
    cases hn : it.name with
    | none =>
      simp only [pure_iff]
      rw [h2]; simp [hn]
    | some n =>
      simp only
      have hc : ¬ st.names.any (fun x => decide (x.1 = n)) = true := by
        intro hc
        obtain ⟨x, hx, hxn⟩ := List.any_eq_true.mp hc
        exact h1 n hn (List.mem_map.mpr ⟨x, hx, by simpa using hxn⟩)
      rw [if_neg hc, pure_iff, h2]
      simp [hn]

theorem after_after (st : St) (it : Item) (its : List Item) (m : Kind × Option Config)
    (ms : List (Kind × Option Config)) :
    after (after st [it] [m]) its ms = after st (it :: its) (m :: ms) := by
  simp only [after, List.length_cons, List.length_nil, namesOf, unitsOf, configsOf, List.append_nil, List.append_assoc,
    St.mk.injEq, List.filter_cons, List.filter_nil]
  refine ⟨by omega, by simp, ?_, by simp, by simp⟩
  by_cases h : runs ⟨st.next, m.1⟩ = true <;> simp [h]

/-- Whether the items bear different names, none of them among those given. -/
def Fresh (taken : List String) (its : List Item) : Prop :=
  (taken ++ its.filterMap (·.name)).Nodup

theorem addItems_iff (env : Env κ σ) (its : List Item) : ∀ (st st' : St), (st.names.map (·.1)).Nodup →
    (addItems env st its = .ok st' ↔ ∃ ms, List.Forall₂ (MadeOf env) its ms ∧ Fresh (st.names.map (·.1)) its ∧
      st' = after st its ms) := by
  induction its with
  | nil =>
    intro st st' hnd
    rw [addItems, ok_iff]
    constructor
    · rintro rfl
      exact ⟨[], .nil, by simpa [Fresh] using hnd, by simp [after, unitsOf, namesOf, configsOf]⟩
    · rintro ⟨ms, h, -, rfl⟩
      cases h
      simp [after, unitsOf, namesOf, configsOf]
  | cons it its ih =>
    intro st st' hnd
    rw [addItems, bind_iff]
    have hfresh : ∀ (m : Kind × Option Config), (∀ n, it.name = some n → n ∉ st.names.map (·.1)) →
        (((after st [it] [m]).names.map (·.1)).Nodup ∧
        (Fresh ((after st [it] [m]).names.map (·.1)) its ↔ Fresh (st.names.map (·.1)) (it :: its))) := by
      intro m hm
      cases hn : it.name with
      | none =>
        have h1 : (after st [it] [m]).names = st.names := by simp [after, namesOf, hn]
        rw [h1]
        exact ⟨hnd, by simp [Fresh, hn]⟩
      | some n =>
        have h1 : (after st [it] [m]).names = st.names ++ [(n, st.next)] := by simp [after, namesOf, hn]
        rw [h1]
        refine ⟨?_, by simp [Fresh, hn]⟩
        rw [List.map_append, List.map_cons, List.map_nil]
        refine List.Nodup.append hnd (by simp) ?_
        intro x hx hx'
        simp only [List.mem_singleton] at hx'
        subst hx'
        exact hm _ hn hx
    constructor
    · rintro ⟨st1, h1, h2⟩
      obtain ⟨m, hm, hn, rfl⟩ := (addItem_iff env st st1 it).mp h1
      obtain ⟨ms, hms, hf, rfl⟩ := (ih _ _ (hfresh m hn).1).mp h2
      exact ⟨m :: ms, .cons hm hms, (hfresh m hn).2.mp hf, after_after _ _ _ _ _⟩
    · rintro ⟨ms, hms, hf, rfl⟩
      cases hms with
      | cons hm hms =>
        have hn : ∀ n, it.name = some n → n ∉ st.names.map (·.1) := by
          intro n hn hmem
          unfold Fresh at hf
          rw [List.filterMap_cons, hn] at hf
          exact (List.nodup_append.mp hf).2.2 n hmem n (by simp) rfl
        refine ⟨_, (addItem_iff env st _ it).mpr ⟨_, hm, hn, rfl⟩, ?_⟩
        exact (ih _ _ (hfresh _ hn).1).mpr ⟨_, hms, (hfresh _ hn).2.mpr hf, (after_after _ _ _ _ _).symm⟩

theorem fresh_iff (its : List Item) : Fresh [] its ↔
    ∀ (i j : Nat) (it it' : Item) (n : String), its[i]? = some it → its[j]? = some it' → it.name = some n →
      it'.name = some n → i = j := by
  unfold Fresh
  rw [List.nil_append]
  induction its with
  | nil => simp
  | cons a its ih =>
    have htail : (∀ (i j : Nat) (it it' : Item) (n : String), (a :: its)[i]? = some it → (a :: its)[j]? = some it' →
        it.name = some n → it'.name = some n → i = j) ↔
        ((∀ (i j : Nat) (it it' : Item) (n : String), its[i]? = some it → its[j]? = some it' → it.name = some n →
          it'.name = some n → i = j) ∧ ∀ n, a.name = some n → n ∉ its.filterMap (·.name)) := by
      constructor
      · intro h
        refine ⟨fun i j it it' n h1 h2 h3 h4 => ?_, fun n hn hmem => ?_⟩
        · have := h (i + 1) (j + 1) it it' n (by simpa using h1) (by simpa using h2) h3 h4
          omega
        · obtain ⟨x, hx, hxn⟩ := List.mem_filterMap.mp hmem
          obtain ⟨i, hi, hxi⟩ := List.mem_iff_getElem.mp hx
          have := h 0 (i + 1) a x n rfl (by simp [hi, hxi]) hn hxn
          omega
      · rintro ⟨h1, h2⟩ i j it it' n hi hj hn hn'
        cases i with
        | zero =>
          cases j with
          | zero => rfl
          | succ j =>
            exfalso
            simp only [List.getElem?_cons_zero, Option.some.injEq] at hi
            subst hi
            exact h2 n hn (List.mem_filterMap.mpr ⟨it', List.mem_of_getElem? (by simpa using hj), hn'⟩)
        | succ i =>
          cases j with
          | zero =>
            exfalso
            simp only [List.getElem?_cons_zero, Option.some.injEq] at hj
            subst hj
            exact h2 n hn' (List.mem_filterMap.mpr ⟨it, List.mem_of_getElem? (by simpa using hi), hn⟩)
          | succ j =>
            have := h1 i j it it' n (by simpa using hi) (by simpa using hj) hn hn'
            omega
    rw [htail, ← ih]
    cases hn : a.name with
    | none => simp [hn]
    | some n =>
      rw [List.filterMap_cons, hn]
      simp only [List.nodup_cons, Option.some.injEq]
      constructor
      · rintro ⟨h1, h2⟩
        exact ⟨h2, fun n' h => h ▸ h1⟩
      · rintro ⟨h1, h2⟩
        exact ⟨h2 n rfl, h1⟩

/-! ### The changes of a pipeline -/

theorem eventByPart_iff (es : List Event) (name : String) (e : Event) :
    eventByPart es name = some e ↔ First es name e := by
  induction es with
  | nil =>
    constructor
    · intro h; cases h
    · rintro ⟨b, a, h, -⟩
      simp at h
  | cons x es ih =>
    rw [eventByPart]
    by_cases hx : x.parts.any (fun q => decide (q.name = name)) = true
    · rw [if_pos hx]
      obtain ⟨q, hq, hqn⟩ := List.any_eq_true.mp hx
      have hqn : q.name = name := by simpa using hqn
      constructor
      · intro h
        cases h
        exact ⟨[], es, rfl, ⟨q, hq, hqn⟩, fun b hb => by simp at hb⟩
      · rintro ⟨b, a, h, -, hb⟩
        cases b with
        | nil => simp only [List.nil_append, List.cons.injEq] at h; rw [h.1]
        | cons y b =>
          simp only [List.cons_append, List.cons.injEq] at h
          exact absurd hqn (hb y (by simp) q (h.1 ▸ hq))
    · rw [if_neg hx, ih]
      have hx' : ∀ q ∈ x.parts, q.name ≠ name := fun q hq hh =>
        hx (List.any_eq_true.mpr ⟨q, hq, by simpa using hh⟩)
      constructor
      · rintro ⟨b, a, rfl, h, hb⟩
        refine ⟨x :: b, a, rfl, h, fun y hy => ?_⟩
        rcases List.mem_cons.mp hy with rfl | hy
        · exact hx'
        · exact hb y hy
      · rintro ⟨b, a, h, ⟨q, hq, hqn⟩, hb⟩
        cases b with
        | nil =>
          simp only [List.nil_append, List.cons.injEq] at h
          exact absurd hqn (hx' q (h.1 ▸ hq))
        | cons y b =>
          simp only [List.cons_append, List.cons.injEq] at h
          exact ⟨b, a, h.2, ⟨q, hq, hqn⟩, fun z hz => hb z (by simp [hz])⟩

theorem mapChange_iff (env : Env κ σ) (names : List (String × Nat)) (id : Nat) (y : YChange) (c : Change) :
    mapChange env names id y = .ok c ↔ ChangeIs env (fun n => names.lookup n) id y c := by
  unfold mapChange
  constructor
  · intro h
    cases he : eventByPart env.events y.ref with
    | none => rw [he] at h; cases h
    | some e =>
      rw [he] at h
      simp only at h
      rw [bind_iff] at h
      obtain ⟨d, hd, h⟩ := h
      cases d with
      | compressor cd =>
        simp only at h
        rw [bind_iff] at h
        obtain ⟨ch, hch, h⟩ := h
        cases ht : names.lookup y.target with
        | none => rw [ht] at h; cases h
        | some t =>
          rw [ht] at h
          simp only [pure_iff] at h
          subst h
          exact ⟨rfl, rfl, ht, ⟨e, (eventByPart_iff _ _ _).mp he, rfl⟩, rfl, _, hd,
            .compressor _ _ ((chartOf_iff _ _ _).mp hch), rfl⟩
      | _ => cases h
  · rintro ⟨h1, h2, h3, ⟨e, he, h4⟩, h5, d, hd, hu, hr⟩
    rw [(eventByPart_iff _ _ _).mpr he]
    simp only
    rw [bind_iff]
    refine ⟨d, hd, ?_⟩
    obtain ⟨ac, tg, ⟨i, k⟩, ty, tm⟩ := c
    simp only at h1 h2 h3 h4 h5 hu
    cases hu with
    | compressor cd ch hch =>
      simp only
      rw [bind_iff]
      refine ⟨ch, (chartOf_iff _ _ _).mpr hch, ?_⟩
      rw [h3]
      simp only [pure_iff]
      rw [h1, h2, h4, h5]
    | remover => cases hr

theorem mapChanges_iff (env : Env κ σ) (names : List (String × Nat)) (ys : List YChange) :
    ∀ (id : Nat) (cs : List Change), mapChanges env names id ys = .ok cs ↔ (cs.length = ys.length ∧
      ∀ (k : Nat) (e : YChange) (c : Change), ys[k]? = some e → cs[k]? = some c →
        ChangeIs env (fun n => names.lookup n) (id + k) e c) := by
  induction ys with
  | nil =>
    intro id cs
    rw [mapChanges, ok_iff]
    constructor
    · rintro rfl; exact ⟨rfl, fun k e c h => by simp at h⟩
    · rintro ⟨h, -⟩; exact (List.length_eq_zero_iff.mp h).symm
  | cons y ys ih =>
    intro id cs
    rw [mapChanges, bind_iff]
    constructor
    · rintro ⟨c, hc, h⟩
      rw [bind_iff] at h
      obtain ⟨cs', hcs, h⟩ := h
      rw [pure_iff] at h
      subst h
      obtain ⟨h1, h2⟩ := (ih _ _).mp hcs
      refine ⟨by simp [h1], fun k e c' he hc' => ?_⟩
      cases k with
      | zero =>
        simp only [List.getElem?_cons_zero, Option.some.injEq] at he hc'
        subst he hc'
        exact (mapChange_iff _ _ _ _ _).mp hc
      | succ k =>
        have := h2 k e c' (by simpa using he) (by simpa using hc')
        rwa [show id + 1 + k = id + (k + 1) by omega] at this
    · rintro ⟨hl, h⟩
      cases cs with
      | nil => simp at hl
      | cons c cs =>
        refine ⟨c, (mapChange_iff _ _ _ _ _).mpr (h 0 y c rfl rfl), ?_⟩
        rw [bind_iff]
        refine ⟨cs, (ih _ _).mpr ⟨by simpa using hl, fun k e c' he hc' => ?_⟩, by rw [pure_iff]⟩
        have := h (k + 1) e c' (by simpa using he) (by simpa using hc')
        rwa [show id + (k + 1) = id + 1 + k by omega] at this

/-! ### Pipelines -/

theorem runs_eq (u : PlantUnit) : runs u = u.kind.isCompressor := by
  unfold runs Kind.isCompressor
  cases u.kind <;> rfl

theorem constraints_iff (constraints : List (String × List (Constraint κ))) (name : String)
    (cs : List (Constraint κ)) :
    constraintsFor constraints name = .ok cs ↔ constraints.lookup name = some cs ∧ cs ≠ [] := by
  unfold constraintsFor
  cases h : constraints.lookup name with
  | none => simp
  | some l =>
    cases l with
    | nil => simp only [reduceCtorEq, Option.some.injEq, ne_eq, false_iff, not_and, not_not]; exact fun h => h.symm
    | cons c l =>
      simp only [Except.ok.injEq, Option.some.injEq, ne_eq]
      constructor
      · rintro rfl; exact ⟨rfl, by simp⟩
      · exact fun h => h.1

theorem mapTarget_iff (env : Env κ σ) (constraints : List (String × List (Constraint κ))) (next next' : Nat)
    (t : String) (p : MPipeline κ σ) :
    mapTarget env constraints next t = .ok (p, next') ↔
      next' = p.id + 1 ∧ ∃ y, env.pipeline t = .ok y ∧ PipelineIs env constraints next y p := by
  unfold mapTarget
  constructor
  · intro h
    rw [bind_iff] at h
    obtain ⟨y, hy, h⟩ := h
    rw [bind_iff] at h
    obtain ⟨st, hst, h⟩ := h
    rw [bind_iff] at h
    obtain ⟨cs, hcs, h⟩ := h
    rw [bind_iff] at h
    obtain ⟨cuts, hcuts, h⟩ := h
    rw [bind_iff] at h
    obtain ⟨sections, hsec, h⟩ := h
    rw [bind_iff] at h
    obtain ⟨changes, hch, h⟩ := h
    rw [pure_iff] at h
    obtain ⟨ms, hms, hf, rfl⟩ := (addItems_iff env y.items _ st (by simp)).mp hst
    have hlen := hms.length_eq
    obtain ⟨hl1, hl2⟩ := (constraints_iff _ _ _).mp hcs
    simp only [after, List.nil_append, Prod.mk.injEq] at h hcuts hch
    obtain ⟨rfl, rfl⟩ := h
    have hnames : (fun n => (namesOf next y.items).lookup n) = idOfName next y.items := by
      funext n; exact lookup_namesOf _ _ _
    refine ⟨rfl, y, hy, ⟨rfl, by simp [unitsOf_length, hlen], ?_, ?_, rfl, ?_, ?_, ?_, rfl⟩⟩
    · intro k it u hit hu
      simp only at hu ⊢
      rw [unitsOf_get, Option.map_eq_some_iff] at hu
      obtain ⟨m, hm, rfl⟩ := hu
      refine ⟨rfl, ?_⟩
      obtain ⟨d, hd1, hd2⟩ : MadeOf env it m := by
        have h1 := List.getElem?_eq_some_iff.mp hit
        have h2 := List.getElem?_eq_some_iff.mp hm
        obtain ⟨h1, rfl⟩ := h1
        obtain ⟨h2, rfl⟩ := h2
        exact (List.forall₂_iff_get.mp hms).2 k h1 h2
      refine ⟨d, hd1, ?_⟩
      rw [lookup_configsOf next k ms m hm]
      exact hd2
    · exact configsOf_units next ms (fun i => (configsOf next ms).lookup i) (fun k m hm => lookup_configsOf next k ms m hm)
    · exact (fresh_iff _).mp (by simpa using hf)
    · refine ⟨cs, hl1, hl2, ?_, hsec⟩
      rw [← hcuts, ← hnames]
      simp only [runs_eq]
    · rw [hnames.symm]
      exact (mapChanges_iff _ _ _ _ _).mp hch
  · rintro ⟨rfl, y, hy, ⟨h1, h2, h3, h4, h5, h6, ⟨cs, hl1, hl2, hcuts, hsec⟩, h8, h9⟩⟩
    obtain ⟨id, name, units, shaft, cuts, sections, changes, configs⟩ := p
    simp only at h1 h2 h3 h4 h5 hcuts hsec h8 h9
    subst h1
    let ms : List (Kind × Option Config) := units.map fun u => (u.kind, configs.lookup u.id)
    have hunits : units = unitsOf next ms := by
      apply List.ext_getElem?
      intro k
      rw [unitsOf_get, List.getElem?_map]
      cases hu : units[k]? with
      | none => rfl
      | some u =>
        have hk : k < y.items.length := by
          rw [← h2]
          exact (List.getElem?_eq_some_iff.mp hu).1
        obtain ⟨hid, -⟩ := h3 k _ u (List.getElem?_eq_getElem hk) hu
        simp only [Option.map_some, Option.some.injEq]
        rw [← hid]
    have hms : List.Forall₂ (MadeOf env) y.items ms := by
      apply List.forall₂_iff_get.mpr
      refine ⟨by simp [ms, h2], fun k hk hk' => ?_⟩
      have hk2 : k < units.length := by rw [h2]; exact hk
      obtain ⟨-, d, hd1, hd2⟩ := h3 k _ units[k] (List.getElem?_eq_getElem hk) (List.getElem?_eq_getElem hk2)
      exact ⟨d, by simpa using hd1, by simpa [ms] using hd2⟩
    have hconfigs : configs = configsOf next ms := by
      rw [configsOf_units next ms (fun i => configs.lookup i), ← hunits]
      · exact h4
      · intro k m hm
        simp only [ms, List.getElem?_map, Option.map_eq_some_iff] at hm
        obtain ⟨u, hu, rfl⟩ := hm
        have hk : k < y.items.length := by
          rw [← h2]
          exact (List.getElem?_eq_some_iff.mp hu).1
        obtain ⟨hid, -⟩ := h3 k _ u (List.getElem?_eq_getElem hk) hu
        rw [← hid]
    have hnames : (fun n => (namesOf next y.items).lookup n) = idOfName next y.items := by
      funext n; exact lookup_namesOf _ _ _
    rw [bind_iff]
    refine ⟨y, hy, ?_⟩
    rw [bind_iff]
    refine ⟨_, (addItems_iff env y.items _ _ (by simp)).mpr ⟨ms, hms, by simpa using (fresh_iff _).mpr h6, rfl⟩, ?_⟩
    rw [bind_iff]
    refine ⟨cs, (constraints_iff _ _ _).mpr ⟨hl1, hl2⟩, ?_⟩
    rw [bind_iff]
    refine ⟨cuts, ?_, ?_⟩
    · rw [← hcuts, ← hnames]
      simp only [after, List.nil_append, runs_eq, ← hunits]
    rw [bind_iff]
    refine ⟨sections, hsec, ?_⟩
    rw [bind_iff]
    refine ⟨changes, (mapChanges_iff _ _ _ _ _).mpr ?_, ?_⟩
    · simp only [after, List.nil_append, hnames]
      exact h8
    rw [pure_iff]
    simp only [after, List.nil_append, Prod.mk.injEq, MPipeline.mk.injEq, true_and, ← hunits, ← hconfigs]
    exact ⟨⟨h9.symm, h5.symm, trivial⟩, by rw [h9]⟩

theorem mapTargets_iff (env : Env κ σ) (constraints : List (String × List (Constraint κ))) (ts : List String) :
    ∀ (next next' : Nat) (ps : List (MPipeline κ σ)), mapTargets env constraints next ts = .ok (ps, next') ↔
      PipelinesAre env constraints next ts ps next' := by
  induction ts with
  | nil =>
    intro next next' ps
    rw [mapTargets, ok_iff]
    constructor
    · intro h; cases h; exact .nil _
    · intro h; cases h; rfl
  | cons t ts ih =>
    intro next next' ps
    rw [mapTargets, bind_iff]
    constructor
    · rintro ⟨⟨p, n⟩, hp, h⟩
      rw [bind_iff] at h
      obtain ⟨⟨ps', n'⟩, hps, h⟩ := h
      rw [pure_iff] at h
      cases h
      obtain ⟨rfl, y, hy, hp⟩ := (mapTarget_iff _ _ _ _ _ _).mp hp
      exact .cons _ _ _ _ y _ _ hy hp ((ih _ _ _).mp hps)
    · intro h
      cases h with
      | cons _ _ _ _ y p ps' hy hp hps =>
        refine ⟨(p, p.id + 1), (mapTarget_iff _ _ _ _ _ _).mpr ⟨rfl, y, hy, hp⟩, ?_⟩
        rw [bind_iff]
        exact ⟨(ps', next'), (ih _ _ _).mpr hps, by rw [pure_iff]⟩

theorem idOf_iff (ps : List (MPipeline κ σ)) (name : String) (i : Nat) : idOf ps name = some i ↔ Last ps name i := by
  unfold idOf Last
  rw [Option.map_eq_some_iff]
  constructor
  · rintro ⟨p, hp, rfl⟩
    obtain ⟨hn, as, bs, hr, hb⟩ := List.find?_eq_some_iff_append.mp hp
    refine ⟨bs.reverse, p, as.reverse, ?_, by simpa using hn, rfl, fun q hq hqn => ?_⟩
    · have := congrArg List.reverse hr
      simpa using this
    · have := hb q (by simpa using hq)
      simp [hqn] at this
  · rintro ⟨b, p, a, rfl, hn, rfl, ha⟩
    refine ⟨p, List.find?_eq_some_iff_append.mpr ⟨by simpa using hn, a.reverse, b.reverse, by simp, ?_⟩, rfl⟩
    intro q hq
    simpa using ha q (by simpa using hq)

theorem idOf_isSome (ps : List (MPipeline κ σ)) (name : String) :
    (idOf ps name).isSome = true ↔ ∃ p ∈ ps, p.name = name := by
  unfold idOf
  simp

theorem mapSetting_iff (ps : List (MPipeline κ σ)) (y : YSetting) (s : Setting) :
    mapSetting (idOf ps) y = .ok s ↔ SettingIs ps y s := by
  unfold mapSetting SettingIs
  rw [bind_iff]
  have hov : ∀ (o : YOverflow) (r : Nat × Nat), mapOverflow (idOf ps) o = .ok r ↔
      (Last ps o.source r.1 ∧ Last ps o.dest r.2) := by
    rintro o ⟨f, t⟩
    rw [← idOf_iff, ← idOf_iff]
    unfold mapOverflow
    cases idOf ps o.dest with
    | none => simp
    | some t' =>
      cases idOf ps o.source with
      | none => simp
      | some f' => simp
  have hall : ∀ (os : List YOverflow) (rs : List (Nat × Nat)), os.mapM (mapOverflow (idOf ps)) = .ok rs ↔
      List.Forall₂ (fun (o : YOverflow) (r : Nat × Nat) => Last ps o.source r.1 ∧ Last ps o.dest r.2) os rs := by
    intro os rs
    rw [mapM_iff]
    constructor
    · exact fun h => h.imp (fun o r h => (hov o r).mp h)
    · exact fun h => h.imp (fun o r h => (hov o r).mpr h)
  obtain ⟨fr, ov⟩ := s
  constructor
  · rintro ⟨os, hos, h⟩
    rw [pure_iff] at h
    cases h
    exact ⟨rfl, (hall _ _).mp hos⟩
  · rintro ⟨h1, h2⟩
    simp only at h1 h2
    exact ⟨ov, (hall _ _).mpr h2, by rw [pure_iff, h1]⟩

theorem mapDistribution_iff (env : Env κ σ) (ps : List (MPipeline κ σ)) (y : YDistribution) (d : Distribution) :
    mapDistribution env (idOf ps) y = .ok d ↔ DistributionIs env ps y d := by
  cases y with
  | common inlet settings =>
    rw [mapDistribution, bind_iff]
    constructor
    · rintro ⟨ss, hss, h⟩
      rw [bind_iff] at h
      obtain ⟨s, hs, h⟩ := h
      rw [pure_iff] at h
      subst h
      exact .common _ _ _ _ ((mapStream_iff _ _ _).mp hs)
        (((mapM_iff _ _ _).mp hss).imp (fun a b h => (mapSetting_iff ps a b).mp h))
    · intro h
      cases h with
      | common _ t _ ss h1 h2 =>
        refine ⟨ss, (mapM_iff _ _ _).mpr (h2.imp (fun a b h => (mapSetting_iff ps a b).mpr h)), ?_⟩
        rw [bind_iff]
        exact ⟨t, (mapStream_iff _ _ _).mpr h1, by rw [pure_iff]⟩
  | individual inlets =>
    rw [mapDistribution, bind_iff]
    constructor
    · rintro ⟨ss, hss, h⟩
      rw [pure_iff] at h
      subst h
      exact .individual _ _ (((mapM_iff _ _ _).mp hss).imp (fun a b h => (mapStream_iff env a b).mp h))
    · intro h
      cases h with
      | individual _ ts h =>
        exact ⟨ts, (mapM_iff _ _ _).mpr (h.imp (fun a b h => (mapStream_iff env a b).mpr h)), by rw [pure_iff]⟩

/-! ### The theorems -/

/-- **C109, a simulation.** What a process simulation is made into is what the file says, and it is accepted exactly
when there is such a thing: every target has its pipeline, every item its unit and its own configuration, the sections
are cut at the units named by the constraints, the changes happen at the start of their events, the overflows lie
between the pipelines named. -/
theorem C109_simulation (env : Env κ σ) (next next' : Nat) (y : YSimulation κ) (s : Simulation κ σ) :
    mapSimulation env next y = .ok (s, next') ↔ SimulationIs env next y s next' := by
  unfold mapSimulation
  rw [bind_iff]
  constructor
  · rintro ⟨⟨ps, n⟩, hps, h⟩
    simp only at h
    by_cases hc : y.constraints.all (fun c => (idOf ps c.1).isSome) = true
    · rw [if_pos hc, bind_iff] at h
      obtain ⟨d, hd, h⟩ := h
      rw [pure_iff] at h
      cases h
      refine ⟨rfl, (mapTargets_iff _ _ _ _ _ _).mp hps, fun c hmem => ?_, (mapDistribution_iff _ _ _ _).mp hd⟩
      exact (idOf_isSome ps c.1).mp (List.all_eq_true.mp hc c hmem)
    · rw [if_neg hc] at h
      cases h
  · rintro ⟨h1, h2, h3, h4⟩
    obtain ⟨name, ps, d⟩ := s
    simp only at h1 h2 h3 h4
    refine ⟨(ps, next'), (mapTargets_iff _ _ _ _ _ _).mpr h2, ?_⟩
    simp only
    have hc : y.constraints.all (fun c => (idOf ps c.1).isSome) = true :=
      List.all_eq_true.mpr (fun c hmem => (idOf_isSome ps c.1).mpr (h3 c hmem))
    rw [if_pos hc, bind_iff]
    exact ⟨d, (mapDistribution_iff _ _ _ _).mpr h4, by rw [pure_iff, h1]⟩

/-- The ids of a pipeline, its units and the units that replace them. -/
def ids (p : MPipeline κ σ) : List Nat := p.units.map (·.id) ++ p.changes.map (·.after.id) ++ [p.id]

theorem map_range (n : Nat) (l : List Nat) (h : ∀ (k a : Nat), l[k]? = some a → a = n + k) :
    l = List.range' n l.length := by
  apply List.ext_getElem?
  intro k
  by_cases hk : k < l.length
  · rw [List.getElem?_eq_getElem hk, List.getElem?_range' hk, h k l[k] (List.getElem?_eq_getElem hk)]
    simp
  · rw [List.getElem?_eq_none (by omega), List.getElem?_eq_none (by simp; omega)]

theorem pipeline_ids (env : Env κ σ) (constraints : List (String × List (Constraint κ))) (n : Nat) (y : YPipeline)
    (p : MPipeline κ σ) (h : PipelineIs env constraints n y p) :
    n ≤ p.id ∧ ids p = List.range' n (p.id + 1 - n) := by
  obtain ⟨-, h2, h3, -, -, -, -, ⟨h8, h9⟩, h10⟩ := h
  have hu : p.units.map (·.id) = List.range' n y.items.length := by
    have := map_range n (p.units.map (·.id)) (fun k a hk => by
      rw [List.getElem?_map, Option.map_eq_some_iff] at hk
      obtain ⟨u, hu, rfl⟩ := hk
      have hlt : k < y.items.length := by rw [← h2]; exact (List.getElem?_eq_some_iff.mp hu).1
      exact (h3 k _ u (List.getElem?_eq_getElem hlt) hu).1)
    rwa [List.length_map, h2] at this
  have hc : p.changes.map (·.after.id) = List.range' (n + y.items.length) y.events.length := by
    have := map_range (n + y.items.length) (p.changes.map (·.after.id)) (fun k a hk => by
      rw [List.getElem?_map, Option.map_eq_some_iff] at hk
      obtain ⟨u, hu, rfl⟩ := hk
      have hlt : k < y.events.length := by rw [← h8]; exact (List.getElem?_eq_some_iff.mp hu).1
      exact (h9 k _ u (List.getElem?_eq_getElem hlt) hu).after.1)
    rwa [List.length_map, h8] at this
  refine ⟨by omega, ?_⟩
  unfold ids
  rw [hu, hc, h10, List.range'_append_1, show [n + y.items.length + y.events.length] =
    List.range' (n + (y.items.length + y.events.length)) 1 by simp [Nat.add_assoc], List.range'_append_1]
  congr 1
  omega

theorem pipelines_ids (env : Env κ σ) (constraints : List (String × List (Constraint κ))) (n m : Nat)
    (ts : List String) (ps : List (MPipeline κ σ)) (h : PipelinesAre env constraints n ts ps m) :
    n ≤ m ∧ ps.flatMap ids = List.range' n (m - n) := by
  induction h with
  | nil n => simp
  | cons n m t ts y p ps hy hp hps ih =>
    obtain ⟨h1, h2⟩ := pipeline_ids _ _ _ _ _ hp
    obtain ⟨h3, h4⟩ := ih
    refine ⟨by omega, ?_⟩
    have : List.range' n (m - n) = List.range' n (p.id + 1 - n) ++ List.range' (p.id + 1) (m - (p.id + 1)) := by
      have e := List.range'_append_1 (s := n) (m := p.id + 1 - n) (n := m - (p.id + 1))
      rw [show n + (p.id + 1 - n) = p.id + 1 by omega] at e
      rw [e]
      congr 1
      omega
    rw [List.flatMap_cons, h2, h4, this]

theorem simulations_are (env : Env κ σ) (ys : List (YSimulation κ)) : ∀ (n : Nat) (ss : List (Simulation κ σ)),
    mapSimulations env n ys = .ok ss → List.Forall₂ (fun y s => ∃ a b, SimulationIs env a y s b) ys ss ∧
      ∃ m, (allPipelines ss).flatMap ids = List.range' n (m - n) ∧ n ≤ m := by
  induction ys with
  | nil =>
    intro n ss h
    cases Except.ok.inj h
    exact ⟨.nil, n, by simp [allPipelines]⟩
  | cons y ys ih =>
    intro n ss h
    rw [mapSimulations, bind_iff] at h
    obtain ⟨⟨s, k⟩, hs, h⟩ := h
    rw [bind_iff] at h
    obtain ⟨ss', hss, h⟩ := h
    rw [pure_iff] at h
    subst h
    have hs := (C109_simulation env n k y s).mp hs
    obtain ⟨h1, m, h2, h3⟩ := ih _ _ hss
    obtain ⟨h4, h5⟩ := pipelines_ids _ _ _ _ _ _ hs.pipelines
    refine ⟨.cons ⟨n, k, hs⟩ h1, m, ?_, by simp only at h3; omega⟩
    unfold allPipelines at h2 ⊢
    rw [List.flatMap_cons, List.flatMap_append, h2, h5]
    simp only at h3 ⊢
    have e := List.range'_append_1 (s := n) (m := k - n) (n := m - k)
    rw [show n + (k - n) = k by omega] at e
    rw [e]
    congr 1
    omega

/-- **C109, all simulations.** The simulations are those of the file, in order, and no two units, replacements or
pipelines of all of them are the same one: a definition that is used at two places gives two units. The pipelines that
are given out with the simulations are all of theirs. -/
theorem C109_simulations (env : Env κ σ) (n : Nat) (ys : List (YSimulation κ)) (ss : List (Simulation κ σ))
    (h : mapSimulations env n ys = .ok ss) :
    List.Forall₂ (fun y s => ∃ a b, SimulationIs env a y s b) ys ss ∧ ((allPipelines ss).flatMap ids).Nodup ∧
      ∀ p, p ∈ allPipelines ss ↔ ∃ s ∈ ss, p ∈ s.pipelines := by
  obtain ⟨h1, m, h2, -⟩ := simulations_are env ys n ss h
  exact ⟨h1, by rw [h2]; exact List.nodup_range', fun p => by simp [allPipelines]⟩

/-- The simulations are all there when each of them can be made. -/
theorem C109_all (env : Env κ σ) (n : Nat) (ys : List (YSimulation κ))
    (h : ∀ y ∈ ys, ∀ a, ∃ s b, SimulationIs env a y s b) : ∃ ss, mapSimulations env n ys = .ok ss := by
  induction ys generalizing n with
  | nil => exact ⟨[], rfl⟩
  | cons y ys ih =>
    obtain ⟨s, b, hs⟩ := h y (by simp) n
    obtain ⟨ss, hss⟩ := ih b (fun y' hy' => h y' (by simp [hy']))
    refine ⟨s :: ss, ?_⟩
    rw [mapSimulations, bind_iff]
    refine ⟨(s, b), (C109_simulation _ _ _ _ _).mpr hs, ?_⟩
    rw [bind_iff]
    exact ⟨ss, hss, by rw [pure_iff]⟩

/-! ### Fluids -/

/-- The equation of state the file asks for. -/
def eosOf : FluidDef → EoS
  | .predefined eos _ => eos
  | .composition eos _ => eos

/-- The amount of a component the file asks for. -/
def amount : FluidDef → Component → ExprInput
  | .predefined _ gas, c => .number (part gas.composition c)
  | .composition _ mix, c => part mix c

theorem at_iff (l : List ℚ) (i : Nat) (v : ℚ) : at? l i = .ok v ↔ l[i]? = some v := by
  unfold at?
  cases l[i]? <;> simp

theorem indexOf_iff (ps : List Period) (p : Period) (i : Nat) :
    indexOf ps p = .ok i ↔ ps[i]? = some p ∧ ∀ j, j < i → ps[j]? ≠ some p := by
  unfold indexOf
  by_cases h : p ∈ ps
  · rw [if_pos h, ok_iff]
    have hlt : ps.idxOf p < ps.length := List.idxOf_lt_length_iff.mpr h
    have hget : ps[ps.idxOf p]? = some p := by
      rw [List.getElem?_eq_getElem hlt, List.getElem_idxOf hlt]
    have hfirst : ∀ j, j < ps.idxOf p → ps[j]? ≠ some p := by
      intro j hj hjp
      have hj' : j < ps.length := by omega
      have := List.not_of_lt_findIdx (p := (· == p)) (xs := ps) (i := j) hj
      rw [List.getElem?_eq_getElem hj', Option.some.injEq] at hjp
      simp [hjp] at this
    constructor
    · rintro rfl
      exact ⟨hget, hfirst⟩
    · rintro ⟨h1, h2⟩
      rcases Nat.lt_trichotomy (ps.idxOf p) i with hlt' | heq | hgt
      · exact absurd hget (h2 _ hlt')
      · exact heq
      · exact absurd h1 (hfirst _ hgt)
  · rw [if_neg h]
    constructor
    · intro h; cases h
    · rintro ⟨h1, -⟩
      exact absurd (List.mem_of_getElem? h1) h

/-- **C109, the fluid of a period.** At a period the fluid has the equation of state of the definition, and of every
component the value that its own expression has at that period. -/
theorem C109_fluid (values : ExprInput → List ℚ) (ps : List Period) (d : FluidDef) (p : Period) (e : EoS) (m : Mix ℚ) :
    fluidAt values ps (mapFluid d) p = .ok (e, m) ↔ ∃ i : Nat, ps[i]? = some p ∧ (∀ j : Nat, j < i → ps[j]? ≠ some p) ∧
      e = eosOf d ∧ ∀ c, (values (amount d c))[i]? = some (part m c) := by
  have heos : (mapFluid d).eos = eosOf d := by cases d <;> rfl
  have hmix : ∀ c, part (mapFluid d).mix c = amount d c := by
    intro c
    cases d <;> cases c <;> rfl
  generalize hf : mapFluid d = f at *
  obtain ⟨eos, w, n, co2, c1, c2, c3, i4, n4, i5, n5, n6⟩ := f
  have hw := hmix .water
  have hn := hmix .nitrogen
  have hco := hmix .co2
  have h1 := hmix .methane
  have h2 := hmix .ethane
  have h3 := hmix .propane
  have h4i := hmix .iButane
  have h4n := hmix .nButane
  have h5i := hmix .iPentane
  have h5n := hmix .nPentane
  have h6 := hmix .nHexane
  simp only [part] at hw hn hco h1 h2 h3 h4i h4n h5i h5n h6
  unfold fluidAt mixAt
  simp only [bind_iff, pure_iff, at_iff, indexOf_iff, hw, hn, hco, h1, h2, h3, h4i, h4n, h5i, h5n, h6]
  simp only at heos
  constructor
  · rintro ⟨m', ⟨i, ⟨hi, hj⟩, a1, b1, a2, b2, a3, b3, a4, b4, a5, b5, a6, b6, a7, b7, a8, b8, a9, b9, a10, b10, a11,
      b11, rfl⟩, h⟩
    cases h
    exact ⟨i, hi, hj, heos, fun c => by cases c <;> assumption⟩
  · rintro ⟨i, hi, hj, he, hc⟩
    refine ⟨m, ⟨i, ⟨hi, hj⟩, _, hc .water, _, hc .nitrogen, _, hc .co2, _, hc .methane, _, hc .ethane, _, hc .propane,
      _, hc .iButane, _, hc .nButane, _, hc .iPentane, _, hc .nPentane, _, hc .nHexane, rfl⟩, ?_⟩
    rw [heos, he]

/-- The molar masses of the components, g/mol. -/
def molarMass : Mix ℚ :=
  ⟨18.0153, 28.0134, 44.0095, 16.0425, 30.069, 44.0956, 58.1222, 58.1222, 72.1488, 72.1488, 86.1754⟩

/-- All components. -/
def components : List Component :=
  [.water, .nitrogen, .co2, .methane, .ethane, .propane, .iButane, .nButane, .iPentane, .nPentane, .nHexane]

/-- The molar mass the name of a predefined gas promises (fluid_mapper.py:30-96). -/
def promised : Gas → ℚ
  | .ultraDry => 17.1
  | .dry => 18.3
  | .medium => 19.4
  | .rich => 21.4
  | .ultraRich => 24.6

/-- **C109, the predefined gases.** Their amounts are percentages of a whole, and their mean molar mass is the one their
name promises, to the digits given. -/
theorem C109_gases (g : Gas) :
    (let whole := (components.map (part g.composition)).sum
     let mass := (components.map fun c => part g.composition c * part molarMass c).sum / whole
     100 - 1 / 100000 < whole ∧ whole < 100 + 1 / 100000 ∧ promised g - 1 / 20 < mass ∧ mass < promised g + 1 / 20) := by
  cases g <;> decide +kernel

/-! ### Events -/

/-- What a process event becomes. -/
def bare (p : YProcessEvent) : ProcessEvent := ⟨p.name, p.type, p.description⟩

theorem eventNames_iff (ys : List YEvent) : ∀ (seen names : List String), seen.Nodup →
    (eventNames seen ys = .ok names ↔ (seen ++ ys.map (·.name)).Nodup ∧ names = seen ++ ys.map (·.name)) := by
  induction ys with
  | nil =>
    intro seen names hs
    simp [eventNames, hs, eq_comm]
  | cons y ys ih =>
    intro seen names hs
    rw [eventNames]
    by_cases h : y.name ∈ seen
    · rw [if_pos h]
      constructor
      · intro h'; cases h'
      · rintro ⟨hn, -⟩
        exact absurd rfl ((List.nodup_append.mp hn).2.2 _ h _ (by simp))
    · rw [if_neg h, ih _ _ (by
        refine List.Nodup.append hs (by simp) ?_
        intro x hx hx'
        simp only [List.mem_singleton] at hx'
        exact h (hx' ▸ hx))]
      simp

theorem attach_iff (ps : List YProcessEvent) : ∀ (d d' : List (String × List ProcessEvent)),
    attach d ps = .ok d' ↔ (∀ p ∈ ps, p.ref ∈ d.map (·.1)) ∧
      d' = d.map (fun e => (e.1, e.2 ++ (ps.filter (fun p => p.ref = e.1)).map bare)) := by
  induction ps with
  | nil =>
    intro d d'
    simp [attach, eq_comm]
  | cons p ps ih =>
    intro d d'
    rw [attach]
    have hkeys : (appendTo d p.ref ⟨p.name, p.type, p.description⟩).map (·.1) = d.map (·.1) := by
      unfold appendTo
      rw [List.map_map]
      apply List.map_congr_left
      intro e _
      simp only [Function.comp]
      by_cases h : e.1 = p.ref
      · rw [if_pos h]
      · rw [if_neg h]
    by_cases h : d.any (fun x => decide (x.1 = p.ref)) = true
    · rw [if_pos h, ih, hkeys]
      have hp : p.ref ∈ d.map (·.1) := by
        obtain ⟨x, hx, hxp⟩ := List.any_eq_true.mp h
        exact List.mem_map.mpr ⟨x, hx, by simpa using hxp⟩
      have hd : (appendTo d p.ref ⟨p.name, p.type, p.description⟩).map
            (fun e => (e.1, e.2 ++ (ps.filter (fun p => p.ref = e.1)).map bare)) =
          d.map (fun e => (e.1, e.2 ++ ((p :: ps).filter (fun p => p.ref = e.1)).map bare)) := by
        unfold appendTo
        rw [List.map_map]
        apply List.map_congr_left
        intro e _
        simp only [Function.comp]
        by_cases he : e.1 = p.ref
        · simp only [if_pos he]
          rw [List.filter_cons_of_pos (by simp [he])]
          simp [bare]
        · simp only [if_neg he]
          rw [List.filter_cons_of_neg (by simp; exact fun hh => he hh.symm)]
      rw [hd]
      constructor
      · rintro ⟨h1, h2⟩
        exact ⟨fun q hq => by rcases List.mem_cons.mp hq with rfl | hq; exacts [hp, h1 q hq], h2⟩
      · rintro ⟨h1, h2⟩
        exact ⟨fun q hq => h1 q (by simp [hq]), h2⟩
    · rw [if_neg h]
      constructor
      · intro h'; cases h'
      · rintro ⟨h1, -⟩
        exfalso
        apply h
        obtain ⟨x, hx, hxp⟩ := List.mem_map.mp (h1 p (by simp))
        exact List.any_eq_true.mpr ⟨x, hx, by simp [hxp]⟩

theorem lookup_named (f : String → List ProcessEvent) (names : List String) (n : String) (h : n ∈ names) :
    (names.map fun k => (k, f k)).lookup n = some (f n) := by
  induction names with
  | nil => simp at h
  | cons k names ih =>
    rw [List.map_cons, List.lookup_cons]
    by_cases hk : n = k
    · subst hk; simp
    · rw [beq_false_of_ne hk]
      exact ih (by simpa [hk] using h)

/-- **C109, the events.** The events are accepted exactly when their names differ and every process event refers to one
of them; each event then has the process events that refer to it, in the order of the file. -/
theorem C109_events (ys : List YEvent) (ps : List YProcessEvent) (es : List Event) :
    mapEvents ys ps = .ok es ↔ (ys.map (·.name)).Nodup ∧ (∀ p ∈ ps, ∃ y ∈ ys, y.name = p.ref) ∧
      es = ys.map fun y => ⟨y.name, y.type, y.start, y.description,
        (ps.filter (fun p => p.ref = y.name)).map fun p => ⟨p.name, p.type, p.description⟩⟩ := by
  unfold mapEvents
  simp only [bind_iff, pure_iff, eventNames_iff ys [] _ List.nodup_nil, List.nil_append, attach_iff]
  have hkeys : ∀ f : String → List ProcessEvent, ((ys.map (·.name)).map (fun k => (k, f k))).map (·.1) =
      ys.map (·.name) := by
    intro f
    rw [List.map_map]
    exact List.map_id'' (fun _ => rfl) _
  have hes : ∀ d, d = ((ys.map (·.name)).map (fun x => (x, ([] : List ProcessEvent)))).map
        (fun e => (e.1, e.2 ++ (ps.filter (fun p => p.ref = e.1)).map bare)) →
      (ys.map fun y => (⟨y.name, y.type, y.start, y.description, (d.lookup y.name).getD []⟩ : Event)) =
      ys.map fun y => ⟨y.name, y.type, y.start, y.description,
        (ps.filter (fun p => p.ref = y.name)).map fun p => ⟨p.name, p.type, p.description⟩⟩ := by
    rintro d rfl
    apply List.map_congr_left
    intro y hy
    rw [List.map_map]
    have := lookup_named (fun n => (ps.filter (fun p => p.ref = n)).map bare) (ys.map (·.name)) y.name
      (List.mem_map.mpr ⟨y, hy, rfl⟩)
    simp only [Function.comp_def, List.nil_append]
    rw [this]
    rfl
  constructor
  · rintro ⟨names, ⟨h1, rfl⟩, d, ⟨h2, h3⟩, rfl⟩
    refine ⟨h1, fun p hp => ?_, hes d h3⟩
    have := h2 p hp
    rw [hkeys (fun _ => [])] at this
    obtain ⟨y, hy, hyp⟩ := List.mem_map.mp this
    exact ⟨y, hy, hyp⟩
  · rintro ⟨h1, h2, rfl⟩
    refine ⟨_, ⟨h1, rfl⟩, _, ⟨fun p hp => ?_, rfl⟩, hes _ rfl⟩
    rw [hkeys (fun _ => [])]
    obtain ⟨y, hy, hyp⟩ := h2 p hp
    exact List.mem_map.mpr ⟨y, hy, hyp⟩

/-- **C109, the event of a change.** A process event of a file whose process events have different names belongs to the
one event it refers to. -/
theorem C109_event_of (ys : List YEvent) (ps : List YProcessEvent) (es : List Event) (h : mapEvents ys ps = .ok es)
    (hd : (ps.map (·.name)).Nodup) (p : YProcessEvent) (hp : p ∈ ps) :
    ∃ e, eventByPart es p.name = some e ∧ e.name = p.ref := by
  obtain ⟨h1, h2, rfl⟩ := (C109_events ys ps es).mp h
  obtain ⟨y, hy, hyp⟩ := h2 p hp
  have hall : ∀ y' ∈ ys, (∃ q ∈ (ps.filter (fun p => p.ref = y'.name)).map
      (fun p => (⟨p.name, p.type, p.description⟩ : ProcessEvent)), q.name = p.name) → y'.name = p.ref := by
    rintro y' - ⟨q, hq, hqn⟩
    obtain ⟨p', hp', rfl⟩ := List.mem_map.mp hq
    obtain ⟨hp1, hp2⟩ := List.mem_filter.mp hp'
    have : p' = p := List.inj_on_of_nodup_map hd hp1 hp hqn
    subst this
    simpa using (of_decide_eq_true hp2).symm
  generalize hes : (ys.map fun y => (⟨y.name, y.type, y.start, y.description,
        (ps.filter (fun p => p.ref = y.name)).map fun p => ⟨p.name, p.type, p.description⟩⟩ : Event)) = es
  have hfind : ∃ e ∈ es, ∃ q ∈ e.parts, q.name = p.name := by
    rw [← hes]
    refine ⟨_, List.mem_map.mpr ⟨y, hy, rfl⟩, ⟨p.name, p.type, p.description⟩, ?_, rfl⟩
    exact List.mem_map.mpr ⟨p, List.mem_filter.mpr ⟨hp, by simp [hyp]⟩, rfl⟩
  have hname : ∀ e ∈ es, (∃ q ∈ e.parts, q.name = p.name) → e.name = p.ref := by
    rw [← hes]
    intro e he hq
    obtain ⟨y', hy', rfl⟩ := List.mem_map.mp he
    exact hall y' hy' hq
  clear hes
  induction es with
  | nil => simp at hfind
  | cons e es ih =>
    rw [eventByPart]
    by_cases hx : e.parts.any (fun q => decide (q.name = p.name)) = true
    · rw [if_pos hx]
      obtain ⟨q, hq, hqn⟩ := List.any_eq_true.mp hx
      exact ⟨e, rfl, hname e (by simp) ⟨q, hq, by simpa using hqn⟩⟩
    · rw [if_neg hx]
      refine ih ?_ (fun e' he' => hname e' (by simp [he']))
      obtain ⟨e', he', q, hq, hqn⟩ := hfind
      rcases List.mem_cons.mp he' with rfl | he'
      · exact absurd (List.any_eq_true.mpr ⟨q, hq, by simpa using hqn⟩) hx
      · exact ⟨e', he', q, hq, hqn⟩

/-! ### Findings -/

/-- A chart given in place. -/
def someChart : ChartDef := ⟨.here "curves", "units", 10, true⟩

/-- A stream given in place. -/
def someStream : Stream :=
  ⟨"gas", .here (.predefined .srk .medium), .number 300, .number 20, ⟨.number 1000, false, none, none⟩⟩

/-- Two pipelines: `train` is a cooler and a compressor, with a change to the unit `target` if one is given; `other` is a
compressor. -/
def pipelines (target : Option String) : String → Except Err YPipeline
  | "train" => .ok ⟨"train", [⟨.named "cooler", some "c1"⟩, ⟨.named "machine", some "k1"⟩],
      (target.map fun t => (⟨"CHANGE", t, "machine", "machine", "REBUNDLE", "rebundle"⟩ : YChange)).toList⟩
  | "other" => .ok ⟨"other", [⟨.named "machine", none⟩, ⟨.named "cooler", none⟩, ⟨.named "cooler", none⟩], []⟩
  | _ => .error .validation

/-- The services for the examples; a section is assembled into the ids of its units. -/
def services (target : Option String) : Env Nat (List Nat) where
  pipeline := pipelines target
  unit := fun n => if n = "cooler" then .ok (.setter (.number 30)) else if n = "machine" then .ok (.compressor someChart)
    else .error .validation
  stream := fun _ => .error .validation
  fluid := fun _ => .error .validation
  headers := fun _ => none
  chartable := fun _ => .ok ()
  events := [⟨"e", "OTHER", 5, none, [⟨"rebundle", "OTHER", none⟩]⟩, ⟨"f", "OTHER", 9, none, [⟨"rebundle", "OTHER", none⟩]⟩]
  assemble := fun cuts => .ok (cuts.map fun c => c.units.map (·.id))

/-- A simulation of the given targets with a common stream. -/
def simulation (targets : List String) (fractions : List ExprInput) (overflow : List YOverflow) : YSimulation Nat where
  name := "sim"
  targets := targets
  distribution := .common (.here someStream) [⟨fractions, some overflow⟩]
  constraints := targets.dedup.map fun t => (t, [⟨none, 1⟩])

/-- What is compared of a pipeline in the examples. -/
structure PView where
  id : Nat
  name : String
  units : List Nat
  shaft : List Nat
  configs : List (Nat × Config)
  sections : List (List Nat)
  deriving DecidableEq

/-- What is compared of a simulation in the examples. -/
structure View where
  pipelines : List PView
  overflow : List (List (Nat × Nat))
  changes : List (Nat × DateTime)
  deriving DecidableEq

/-- What is compared in the examples. -/
def view (r : Except Err (Simulation Nat (List Nat) × Nat)) : Except Err View :=
  r.map fun s =>
    ⟨s.1.pipelines.map fun p => ⟨p.id, p.name, p.units.map (·.id), p.shaft, p.configs, p.sections⟩,
      match s.1.distribution with
      | .common _ ss => ss.map (·.overflow)
      | .individual _ => [],
      s.1.pipelines.flatMap fun p => p.changes.map fun c => (c.target, c.time)⟩

instance : DecidableEq (Except Err View) := fun a b =>
  match a, b with
  | .ok a, .ok b => if h : a = b then isTrue (by rw [h]) else isFalse (fun hh => h (Except.ok.inj hh))
  | .error a, .error b => if h : a = b then isTrue (by rw [h]) else isFalse (fun hh => h (Except.error.inj hh))
  | .ok _, .error _ => isFalse (by simp)
  | .error _, .ok _ => isFalse (by simp)

/-- Two pipelines with an overflow and a change: the cooler used three times is three units with a configuration each. -/
example : view (mapSimulation (services (some "k1")) 0 (simulation ["train", "other"] [.number 1] [⟨"train", "other"⟩])) =
    .ok ⟨[⟨3, "train", [0, 1], [1], [(0, .celsius (.number 30))], [[0, 1]]⟩,
        ⟨7, "other", [4, 5, 6], [4], [(5, .celsius (.number 30)), (6, .celsius (.number 30))], [[4, 5, 6]]⟩],
      [[(3, 7)]], [(1, 5)]⟩ := by decide +kernel

/-- FINDING. A change to a unit whose name is not in the pipeline ends in a `KeyError`, not in a message to the user. -/
theorem C109_unknown_unit : ∃ (env : Env Nat (List Nat)) (y : YSimulation Nat),
    (∀ r : Simulation Nat (List Nat) × Nat, mapSimulation env 0 y ≠ .ok r) ∧
      view (mapSimulation env 0 y) = .error .keyError := by
  refine ⟨services (some "k2"), simulation ["train"] [.number 1] [], fun r h => ?_, by decide +kernel⟩
  have : view (mapSimulation (services (some "k2")) 0 (simulation ["train"] [.number 1] [])) = .error .keyError := by
    decide +kernel
  rw [h] at this
  cases this

/-- FINDING. A target that is listed twice is accepted and gives two pipelines of the same name; an overflow from or to
that name concerns the second of them only. -/
theorem C109_twice : view (mapSimulation (services none) 0
      (simulation ["train", "train", "other"] [.number 1] [⟨"other", "train"⟩])) =
    .ok ⟨[⟨2, "train", [0, 1], [1], [(0, .celsius (.number 30))], [[0, 1]]⟩,
        ⟨5, "train", [3, 4], [4], [(3, .celsius (.number 30))], [[3, 4]]⟩,
        ⟨9, "other", [6, 7, 8], [6], [(7, .celsius (.number 30)), (8, .celsius (.number 30))], [[6, 7, 8]]⟩],
      [[(9, 5)]], []⟩ := by decide +kernel

/-- FINDING. The number of rate fractions is not compared with the number of targets: with a simulation that is accepted,
so is the one with any other list of fractions in its settings. -/
theorem C109_fractions (env : Env κ σ) (next next' : Nat) (y : YSimulation κ) (inlet : Ref Stream)
    (settings : List YSetting) (hy : y.distribution = .common inlet settings) (s : Simulation κ σ)
    (h : mapSimulation env next y = .ok (s, next')) (f : YSetting → List ExprInput) :
    ∃ s', mapSimulation env next
      { y with distribution := .common inlet (settings.map fun x => { x with fractions := f x }) } = .ok (s', next') := by
  have h := (C109_simulation _ _ _ _ _).mp h
  obtain ⟨h1, h2, h3, h4⟩ := h
  rw [hy] at h4
  generalize hd : s.distribution = d at h4
  cases h4 with
  | common _ t _ ss ht hss =>
    have hex : ∃ ss', List.Forall₂ (SettingIs s.pipelines) (settings.map fun x => { x with fractions := f x }) ss' := by
      clear hd hy
      induction hss with
      | nil => exact ⟨[], .nil⟩
      | @cons a b la lb hab _ ih =>
        obtain ⟨ss', hss'⟩ := ih
        exact ⟨⟨f a, b.overflow⟩ :: ss', .cons ⟨rfl, hab.2⟩ hss'⟩
    obtain ⟨ss', hss'⟩ := hex
    exact ⟨⟨y.name, s.pipelines, .common t ss'⟩, (C109_simulation _ _ _ _ _).mpr ⟨rfl, h2, h3, .common _ _ _ _ ht hss'⟩⟩

/-- FINDING. When two events have a process event of the same name, a change that refers to it happens at the start of
the first of them: here at 5, not at 9. -/
theorem C109_ambiguous : (eventByPart (services none).events "rebundle").map (·.start) = some 5 ∧
    ∃ e ∈ (services none).events, e.start = 9 ∧ ∃ q ∈ e.parts, q.name = "rebundle" :=
  ⟨rfl, _, List.mem_cons_of_mem _ (List.mem_singleton.mpr rfl), rfl, _, List.mem_singleton.mpr rfl, rfl⟩

/-- FINDING. `CHANGE_FROM` has no effect. -/
theorem C109_change_from (env : Env κ σ) (names : List (String × Nat)) (id : Nat) (y : YChange) (before : String)
    (c : Change) : ChangeIs env (fun n => names.lookup n) id { y with before := before } c ↔
      mapChange env names id y = .ok c := by
  rw [mapChange_iff]
  exact ⟨fun ⟨a, b, c, d, e⟩ => ⟨a, b, c, d, e⟩, fun ⟨a, b, c, d, e⟩ => ⟨a, b, c, d, e⟩⟩

example : mapEvents [⟨"e", "OTHER", 5, none⟩, ⟨"f", "OTHER", 9, none⟩]
    [⟨"p", "OTHER", none, "f"⟩, ⟨"q", "OTHER", none, "e"⟩, ⟨"r", "OTHER", none, "f"⟩] =
    .ok [⟨"e", "OTHER", 5, none, [⟨"q", "OTHER", none⟩]⟩,
      ⟨"f", "OTHER", 9, none, [⟨"p", "OTHER", none⟩, ⟨"r", "OTHER", none⟩]⟩] := by
  rw [C109_events]
  exact ⟨by decide, by decide, by decide⟩

example : fluidAt (fun e => match e with
      | .number v => [v, v]
      | .text _ => [1, 2])
    [⟨0, 1⟩, ⟨1, 2⟩] (mapFluid (.composition .pr ⟨.number 0, .number 1, .number 2, .text [], .number 0, .number 0,
      .number 0, .number 0, .number 0, .number 0, .number 0⟩)) ⟨1, 2⟩ =
    .ok (.pr, ⟨0, 1, 2, 2, 0, 0, 0, 0, 0, 0, 0⟩) := by
  rw [C109_fluid]
  refine ⟨1, rfl, by decide, rfl, fun c => by cases c <;> rfl⟩

end Verif.C109
