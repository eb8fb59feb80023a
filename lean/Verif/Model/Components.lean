import Verif.Model.Time
import Mathlib.Data.List.Dedup

/-!
# Fuel and kind of the components made from the file

`presentation/yaml/mappers/component_mapper.py:96-131, 205-254, 268-365, 463-554`,
`domain/infrastructure/energy_components/fuel_consumer/fuel_consumer.py:39-54`,
`domain/infrastructure/energy_components/generator_set/generator_set_component.py:48-77`.

What a reference to a fuel stands for is a parameter (`get_fuel_reference`, see C91); mapping the energy usage models is left out
(see C93), as are emissions (C31), cable loss, maximum usage from shore and the ids of the components (C89). A mapping without
entries and an empty text are things that Python takes to be false.
-/

namespace Verif.Components

open Verif.Time

/-- Errors. `index` is an IndexError, which nothing catches. -/
inductive CErr where
  | missingFuel
  | invalidReference (name : String)
  | temporal (e : Err)
  | notCovered (needed given : Period)
  | index
deriving DecidableEq

/-- Truth of a definition in Python. -/
def truthy : TimeData String → Bool
  | .absent => false
  | .plain s => s ≠ ""
  | .dict kvs => !kvs.isEmpty

/-- `consumer_fuel or default_fuel` (component_mapper.py:210). -/
def chosenFuel (own default : TimeData String) : TimeData String := if truthy own then own else default

/-- `get_fuel_reference` for one entry (component_mapper.py:218-221). -/
def resolveOne {φ : Type} (fuelOf : String → Option φ) (x : Period × String) : Except CErr (Period × φ) :=
  match fuelOf x.2 with
  | some f => .ok (x.1, f)
  | none => .error (.invalidReference x.2)

/-- `_resolve_fuel` (component_mapper.py:205-254). -/
def resolveFuel {φ : Type} (fuelOf : String → Option φ) (target : Period) (own default : TimeData String) :
    Except CErr (List (Period × φ)) :=
  match chosenFuel own default with
  | .absent => .error .missingFuel
  | d =>
    match defineTimeModelForPeriod d target with
    | .error e => .error (.temporal e)
    | .ok none => .error .missingFuel
    | .ok (some ms) => ms.mapM (resolveOne fuelOf)

/-- `TemporalModel(...)` for periods (temporal_model.py:50-85). -/
def temporal {α : Type} (ms : List (Period × α)) : Except CErr (TModel α) :=
  match TModel.create (ms.map fun pm => (Key.period pm.1, pm.2)) with
  | .error e => .error (.temporal e)
  | .ok m => .ok m

/-- `get_period` (temporal_model.py:91-95). -/
def periodOf {α : Type} (m : TModel α) : Except CErr Period :=
  match TModel.getPeriod m with
  | .error _ => .error .index
  | .ok p => .ok p

/-- The check of the fuel in the constructors (fuel_consumer.py:50-54, generator_set_component.py:61-65). -/
def checkCovered {α φ : Type} (used : TModel α) (fuel : TModel φ) : Except CErr Unit := do
  let needed ← periodOf used
  let given ← periodOf fuel
  if given.containsPeriod needed then .ok () else .error (.notCovered needed given)

/-- Kinds of components (component_type.py:9-13) that consumers can have. -/
inductive Kind where
  | compressorSystem | pumpSystem | compressor | pump | generic
deriving DecidableEq, Repr

/-- Energy usage models of the file. -/
inductive Usage where
  | direct | compressor | pump | compressorSystem | pumpSystem | tabulated | multipleStreams
deriving DecidableEq, Repr

/-- `_get_model_type` (component_mapper.py:96-112). -/
def modelKind : Usage → Kind
  | .direct => .generic
  | .compressor => .compressor
  | .pump => .pump
  | .compressorSystem => .compressorSystem
  | .pumpSystem => .pumpSystem
  | .tabulated => .generic
  | .multipleStreams => .compressor

/-- All the models of a definition. -/
def allModels {α : Type} : TimeData α → List α
  | .absent => []
  | .plain a => [a]
  | .dict kvs => kvs.map (·.2)

/-- `_get_component_type` (component_mapper.py:115-131). -/
def componentKind (usage : TimeData Usage) : Kind :=
  match ((allModels usage).map modelKind).dedup with
  | [k] => k
  | _ => .generic

/-- A consumer in the file. -/
structure YConsumer where
  fuel : TimeData String
  usage : TimeData Usage

/-- A consumer of fuel. -/
structure Consumer (φ : Type) where
  kind : Kind
  usage : TModel Usage
  fuel : TModel φ
deriving DecidableEq

/-- `map_consumer` for consumers of fuel (component_mapper.py:463-541); nothing for consumers without a model in the target
period. -/
def mapConsumer {φ : Type} (fuelOf : String → Option φ) (target : Period) (default : TimeData String) (c : YConsumer) :
    Except CErr (Option (Consumer φ)) :=
  match defineTimeModelForPeriod c.usage target with
  | .error e => .error (.temporal e)
  | .ok none => .ok none
  | .ok (some []) => .ok none
  | .ok (some (m :: ms)) => do
    let usage ← temporal (m :: ms)
    let fuel ← resolveFuel fuelOf target c.fuel default
    let fuel ← temporal fuel
    checkCovered usage fuel
    .ok (some ⟨componentKind c.usage, usage, fuel⟩)

/-- A generator set in the file. -/
structure YGenset where
  fuel : TimeData String
  electricity2fuel : TimeData String

/-- A generator set. -/
structure Genset (γ φ : Type) where
  models : TModel γ
  fuel : TModel φ

/-- `map_generator_set` (component_mapper.py:268-365): fuel and models; `modelOf` is `_create_generator_set_model`. -/
def mapGenset {γ φ : Type} (fuelOf : String → Option φ) (modelOf : String → Option γ) (target : Period)
    (default : TimeData String) (g : YGenset) : Except CErr (Genset γ φ) := do
  let fuel ← resolveFuel fuelOf target g.fuel default
  let fuel ← temporal fuel
  match defineTimeModelForPeriod g.electricity2fuel target with
  | .error e => .error (.temporal e)
  | .ok none => .error .index
  | .ok (some ms) =>
    let models ← ms.mapM (resolveOne modelOf)
    let models ← temporal models
    checkCovered models fuel
    .ok ⟨models, fuel⟩

end Verif.Components
