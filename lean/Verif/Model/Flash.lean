import Verif.Model.Cache
import Verif.Model.Numbers
import Verif.Model.ProcessUnits

/-!
# Model of the thermodynamic service and its caches

`src/ecalc_neqsim_wrapper/fluid_service.py`, with the parts of `thermo.py`, `mappings.py` and
`libecalc/process/fluid_stream/fluid_property_validation.py` it uses, and the options for the sizes of the caches in
`ecalc_cli/commands/run.py`.

NeqSim is a parameter (`Backend`): what it does with a system depends only on the system and the arguments. It never
changes a system, since `thermo.py` clones before each flash. Numbers are exact and finite; what is read from a system
may be NaN or infinite (`none`). The call of a method is one step; threads are left out (the caches themselves are
modelled for any interleaving in `Cache.lean`). Log messages and the texts of errors are left out.
-/

namespace Verif.Flash

open Verif.Process Verif.Cache

/-- What a call may raise. -/
inductive FErr where
  /-- An error of a composition or of NeqSim. -/
  | thermo (e : PErr)
  /-- `NeqsimFlashCalculationError` raised by `validate_ph_flash_result`. -/
  | rejected
  /-- `KeyError` of `OrderedDict.popitem` on an empty cache. -/
  | key
  deriving DecidableEq, Repr

/-- NeqSim: creating a system at 1.01325 bara and 288.15 K (`NeqsimFluid._init_thermo_system`, thermo.py:192-220), the
flashes (`set_new_pressure_and_temperature`, thermo.py:396-418; `set_new_pressure_and_enthalpy`, thermo.py:371-394),
the gas phase (`clone_gas_phase`, thermo.py:349-366) and what is read from a system (thermo.py:229-305). -/
structure Backend (σ : Type) where
  system : Eos → List (String × ℚ) → Except PErr σ
  tp : σ → ℚ → ℚ → Except PErr σ
  ph : σ → ℚ → ℚ → Except PErr σ
  gas : σ → Except PErr σ
  components : σ → List (String × ℚ)
  temperature : σ → Option ℚ
  pressure : σ → Option ℚ
  density : σ → Option ℚ
  enthalpy : σ → Option ℚ
  z : σ → Option ℚ
  kappa : σ → Option ℚ
  vapor : σ → Option ℚ

/-- `FluidProperties` (fluid_properties.py:8-38) with all its fields. -/
structure Result where
  temperature : Option ℚ
  pressure : Option ℚ
  density : Option ℚ
  enthalpy : Option ℚ
  z : Option ℚ
  kappa : Option ℚ
  vapor : Option ℚ
  molarMass : ℚ
  stdDensity : Option ℚ
  deriving DecidableEq, Repr

/-! ## Compositions -/

/-- `_map_fluid_component_to_neqsim` (mappings.py:33-45). -/
def neqsimName : Component → String
  | .water => "water" | .nitrogen => "nitrogen" | .CO2 => "CO2" | .methane => "methane" | .ethane => "ethane"
  | .propane => "propane" | .i_butane => "i-butane" | .n_butane => "n-butane" | .i_pentane => "i-pentane"
  | .n_pentane => "n-pentane" | .n_hexane => "n-hexane"

/-- `map_fluid_composition_to_neqsim` (mappings.py:61-73). -/
def toNeqsim (c : Composition) : Except PErr (List (String × ℚ)) :=
  let l := (Component.all.filter fun k => decide (0 < c k)).map fun k => (neqsimName k, c k)
  if l.length < 1 then .error .invalidComposition else .ok l

/-- `composition_dict.get(name, 0.0)` for the dict of names and fractions (thermo.py:280-293, mappings.py:13-26): the
last entry of a name counts. -/
def fractionOf (l : List (String × ℚ)) (name : String) : ℚ :=
  match l.reverse.lookup name with
  | some v => v
  | none => 0

/-- `NeqsimFluid.composition` (thermo.py:271-296) with `NeqsimComposition` and `map_fluid_composition_from_neqsim`
(mappings.py:13-26, 76-88). A name that is no component and a negative fraction are errors. -/
def fromNeqsim (l : List (String × ℚ)) : Except PErr Composition :=
  if l.any (fun e => !(Component.all.map neqsimName).contains e.1) then .error .attribute
  else if Component.all.any (fun k => decide (fractionOf l (neqsimName k) < 0)) then .error .negativeFraction
  else Composition.normalized fun k => fractionOf l (neqsimName k)

/-- `ThermodynamicConstants.COMPONENTS[...].molecular_weight_kg_per_mol` (constants.py:30-97). -/
def weight : Component → ℚ
  | .water => 1801534 / 10 ^ 8 | .nitrogen => 2801340 / 10 ^ 8 | .CO2 => 4400995 / 10 ^ 8
  | .methane => 1604246 / 10 ^ 8 | .ethane => 3006904 / 10 ^ 8 | .propane => 4409562 / 10 ^ 8
  | .i_butane => 5812220 / 10 ^ 8 | .n_butane => 5812220 / 10 ^ 8 | .i_pentane => 7214878 / 10 ^ 8
  | .n_pentane => 7214878 / 10 ^ 8 | .n_hexane => 8617536 / 10 ^ 8

/-- `FluidComposition.molar_mass_mixture` (fluid_model.py:82-95). -/
def molarMass (c : Composition) : Except PErr ℚ :=
  match c.normalized with
  | .error e => .error e
  | .ok n => .ok (((Component.all.filter fun k => decide (0 < n k)).map fun k => n k * weight k).sum)

/-- `round(x, n)` as a number of steps of `10 ^ -n`. -/
def steps (n : ℕ) (x : ℚ) : ℤ := Numbers.halfEven (x * 10 ^ n)

/-- The fields by name, as `sorted(dataclasses.asdict(composition).items())` gives them (fluid_service.py:49). -/
def byName : List Component :=
  [.CO2, .ethane, .i_butane, .i_pentane, .methane, .n_butane, .n_hexane, .n_pentane, .nitrogen, .propane, .water]

/-- `_make_composition_key` (fluid_service.py:44-49), of a normalised composition. -/
def compositionKey (c : Composition) : List (Component × ℤ) := byName.map fun k => (k, steps 8 (c k))

/-- The key of a reference fluid (fluid_service.py:171). -/
abbrev RefKey := List (Component × ℤ) × Eos

/-- The key of a flash (`_make_pt_cache_key`, `_make_ph_cache_key`, fluid_service.py:186-224). -/
inductive Key where
  | tp (c : List (Component × ℤ)) (eos : Eos) (pressure temperature : ℤ)
  | ph (c : List (Component × ℤ)) (eos : Eos) (pressure enthalpy : ℤ)
  deriving DecidableEq, Repr

/-! ## The service -/

/-- The caches of the service (fluid_service.py:137-144). -/
structure Svc (σ : Type) where
  refs : LRU RefKey σ
  flashes : LRU Key Result

/-- A call: the state after it, and what it returns or raises. -/
def M (σ α : Type) := Svc σ → Svc σ × Except FErr α

variable {σ α β : Type}

/-- Run a call, then another with its result. -/
def M.andThen (x : M σ α) (f : α → M σ β) : M σ β := fun s =>
  match x s with
  | (s', .ok a) => f a s'
  | (s', .error e) => (s', .error e)

instance : Monad (M σ) where
  pure a := fun s => (s, .ok a)
  bind := M.andThen

/-- What does not touch the caches. -/
def lift (x : Except PErr α) : M σ α := fun s =>
  match x with
  | .ok a => (s, .ok a)
  | .error e => (s, .error (.thermo e))

/-- `self._reference_cache.get(key)`. -/
def getRef (k : RefKey) : M σ (Option σ) := fun s => ({ s with refs := (s.refs.get k).1 }, .ok (s.refs.get k).2)

/-- `self._reference_cache.put(key, ref)`. -/
def putRef (k : RefKey) (v : σ) : M σ Unit := fun s =>
  ({ s with refs := (s.refs.put k v).1 }, match (s.refs.put k v).2 with | .ok _ => .ok () | .error _ => .error .key)

/-- `self._flash_cache.get(cache_key)`. -/
def getFlash (k : Key) : M σ (Option Result) := fun s =>
  ({ s with flashes := (s.flashes.get k).1 }, .ok (s.flashes.get k).2)

/-- `self._flash_cache.put(cache_key, result)`. -/
def putFlash (k : Key) (v : Result) : M σ Unit := fun s =>
  ({ s with flashes := (s.flashes.put k v).1 },
    match (s.flashes.put k v).2 with | .ok _ => .ok () | .error _ => .error .key)

/-- `NeqsimFluid.create_thermo_system` at standard conditions (thermo.py:132-176). The check for components NeqSim does
not know never fails, since all names come from `neqsimName`. -/
def Backend.create (B : Backend σ) (eos : Eos) (c : Composition) : Except PErr σ :=
  match toNeqsim c with
  | .error e => .error e
  | .ok l => B.system eos l

/-- The part of `_get_reference_fluid` after a miss (fluid_service.py:177-184). -/
def makeReference (B : Backend σ) (k : RefKey) (eos : Eos) (c : Composition) : M σ σ := do
  let ref ← lift (B.create eos c)
  putRef k ref
  return ref

/-- `_get_reference_fluid` (fluid_service.py:164-184). -/
def reference (B : Backend σ) (m : FluidModel) : M σ σ := do
  let c ← lift m.composition.normalized
  let cached ← getRef (compositionKey c, m.eos)
  match cached with
  | some ref => return ref
  | none => makeReference B (compositionKey c, m.eos) m.eos c

/-- The test `ref.vapor_fraction_molar >= PURE_VAPOR_THRESHOLD` (fluid_service.py:247, 397); false for NaN. -/
def allVapor : Option ℚ → Bool
  | some v => decide (pureVapor ≤ v)
  | none => false

/-- The density of the gas of a reference fluid (fluid_service.py:246-252). -/
def Backend.gasDensity (B : Backend σ) (ref : σ) : Except PErr (Option ℚ) :=
  if allVapor (B.vapor ref) then .ok (B.density ref)
  else match B.gas ref with
    | .ok g => .ok (B.density g)
    | .error e => .error e

/-- `_get_standard_density` (fluid_service.py:226-252). -/
def standardDensity (B : Backend σ) (m : FluidModel) : M σ (Option ℚ) := do
  let ref ← reference B m
  lift (B.gasDensity ref)

/-- The properties of a system (fluid_service.py:267-277). -/
def Backend.read (B : Backend σ) (f : σ) (mass : ℚ) (std : Option ℚ) : Result :=
  { temperature := B.temperature f, pressure := B.pressure f, density := B.density f, enthalpy := B.enthalpy f,
    z := B.z f, kappa := B.kappa f, vapor := B.vapor f, molarMass := mass, stdDensity := std }

/-- `_extract_properties` (fluid_service.py:254-277). -/
def extract (B : Backend σ) (f : σ) (m : FluidModel) : M σ Result := do
  let mass ← lift (molarMass m.composition)
  let std ← standardDensity B m
  return B.read f mass std

/-- The part of `flash_pt` after a miss (fluid_service.py:304-312). -/
def computePt (B : Backend σ) (k : Key) (m : FluidModel) (p t : ℚ) : M σ Result := do
  let ref ← reference B m
  let f ← lift (B.tp ref p t)
  let r ← extract B f m
  putFlash k r
  return r

/-- `flash_pt` (fluid_service.py:279-312). -/
def flashPt (B : Backend σ) (m : FluidModel) (p t : ℚ) : M σ Result := do
  let c ← lift m.composition.normalized
  let cached ← getFlash (.tp (compositionKey c) m.eos (steps 6 p) (steps 6 t))
  match cached with
  | some r => return r
  | none => computePt B (.tp (compositionKey c) m.eos (steps 6 p) (steps 6 t)) m p t

/-- `require_positive_finite` (fluid_property_validation.py:22-29). -/
def positive : Option ℚ → Bool
  | some v => decide (0 < v)
  | none => false

/-- `validate_ph_flash_result` (fluid_property_validation.py:7-9, 32-78). -/
def accepted (r : Result) (target : ℚ) : Bool :=
  positive r.pressure && positive r.temperature && positive r.density && positive r.z && positive r.kappa &&
  positive r.stdDensity &&
  (match r.vapor with
    | some v => decide (-(1 / 10 ^ 5) ≤ v) && decide (v ≤ 1 + 1 / 10 ^ 5)
    | none => false) &&
  (match r.enthalpy with
    | some h => decide (|h - target| ≤ max 10 (|target| * (1 / 10 ^ 4)))
    | none => false)

/-- The flash of the reference fluid in `flash_ph`, started at the guessed temperature if one is given
(fluid_service.py:357-370). -/
def Backend.solve (B : Backend σ) (ref : σ) (p h : ℚ) : Option ℚ → Except PErr σ
  | some t => match B.tp ref p t with
    | .ok seeded => B.ph seeded p h
    | .error e => .error e
  | none => B.ph ref p h

/-- `validate_ph_flash_result(result, ...)` raising or not. -/
def check (r : Result) (target : ℚ) : M σ Unit := fun s =>
  (s, if accepted r target then .ok () else .error .rejected)

/-- The part of `flash_ph` after a miss (fluid_service.py:356-380). -/
def computePh (B : Backend σ) (k : Key) (m : FluidModel) (p h : ℚ) (guess : Option ℚ) : M σ Result := do
  let ref ← reference B m
  let f ← lift (B.solve ref p h guess)
  let r ← extract B f m
  check r h
  putFlash k r
  return r

/-- `flash_ph` (fluid_service.py:314-380). -/
def flashPh (B : Backend σ) (m : FluidModel) (p h : ℚ) (guess : Option ℚ) : M σ Result := do
  let c ← lift m.composition.normalized
  let cached ← getFlash (.ph (compositionKey c) m.eos (steps 6 p) (steps 6 h))
  match cached with
  | some r => return r
  | none => computePh B (.ph (compositionKey c) m.eos (steps 6 p) (steps 6 h)) m p h guess

/-- The part of `remove_liquid` for a fluid with liquid (fluid_service.py:400-414). -/
def gasPart (B : Backend σ) (m : FluidModel) (p t : ℚ) : M σ (FluidModel × Result) := do
  let ref ← reference B m
  let f ← lift (B.tp ref p t)
  let g ← lift (B.gas f)
  let c ← lift (fromNeqsim (B.components g))
  let r ← extract B g ⟨m.eos, c⟩
  return (⟨m.eos, c⟩, r)

/-- `remove_liquid` (fluid_service.py:382-414). A flash at a pressure or temperature that is no number is an error of
NeqSim. -/
def removeLiquid (B : Backend σ) (m : FluidModel) (props : Result) : M σ (FluidModel × Result) :=
  if allVapor props.vapor then pure (m, props)
  else match props.pressure, props.temperature with
    | some p, some t => gasPart B m p t
    | _, _ => do
      let _ ← reference B m
      lift (.error .thermo)

/-- `standard_rate_to_mass_rate` (fluid_service.py:480-495); `none` is NaN or infinite. -/
def toMassRate (B : Backend σ) (m : FluidModel) (rate : ℚ) : M σ (Option ℚ) := do
  let d ← standardDensity B m
  return d.map fun x => rate * x / 24

/-- `mass_rate_to_standard_rate` (fluid_service.py:497-512). A density of 0 gives an infinite rate or NaN
(numpy) or a `ZeroDivisionError`; `none` stands for both. -/
def toStandardRate (B : Backend σ) (m : FluidModel) (mass : ℚ) : M σ (Option ℚ) := do
  let d ← standardDensity B m
  return d.bind fun x => if x = 0 then none else some (mass * 24 / x)

/-- `CacheService.clear_all` for the two caches (cache_service.py:164-169), called on shutdown of the JVM. -/
def clearAll : M σ Unit := fun s => (⟨s.refs.clear, s.flashes.clear⟩, .ok ())

/-! ## The instance of the service -/

/-- `CacheConfig` (cache_service.py:29-51). -/
structure Config where
  refs : ℤ
  flashes : ℤ
  deriving DecidableEq, Repr

/-- `CacheConfig.default()` (cache_service.py:45-51). -/
def Config.default : Config := ⟨512, 100000⟩

/-- What is global: the instance (`_instance`), the configuration (`_cache_config`), and the two registered caches. The
caches are created together, by the first instance. -/
structure World (σ : Type) where
  exists_ : Bool
  config : Option Config
  caches : Option (Svc σ)

/-- Nothing has happened yet. -/
def World.start : World σ := ⟨false, none, none⟩

/-- `configure` (fluid_service.py:74-104); `false` for a `RuntimeError`. -/
def World.configure (w : World σ) (c : Config) : World σ × Bool :=
  if w.exists_ then (w, false) else ({ w with config := some c }, true)

/-- `CacheService.create_cache` for both caches (fluid_service.py:122-144, cache_service.py:135-156). -/
def createCaches (old : Option (Svc σ)) (c : Config) : Svc σ :=
  match old with
  | some s => s
  | none => ⟨LRU.new c.refs, LRU.new c.flashes⟩

/-- `instance` (fluid_service.py:146-151) with `__new__` and `__init__` (fluid_service.py:68-72, 106-144). -/
def World.instance_ (w : World σ) : World σ :=
  if w.exists_ then w
  else { w with exists_ := true, caches := some (createCaches w.caches (w.config.getD Config.default)) }

/-- `reset_instance` (fluid_service.py:153-162). -/
def World.reset (w : World σ) : World σ := { w with exists_ := false, config := none }

/-- `a or b` for an optional number. -/
def orElse (a : Option ℤ) (b : ℤ) : ℤ :=
  match a with
  | some x => if x = 0 then b else x
  | none => b

/-- The configuration made from `--reference-cache-size` and `--flash-cache-size`, if any (run.py:132-139). -/
def cliConfig (refs flashes : Option ℤ) : Option Config :=
  if refs.isSome || flashes.isSome then
    some ⟨orElse refs Config.default.refs, orElse flashes Config.default.flashes⟩
  else none

end Verif.Flash
