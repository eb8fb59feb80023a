import Verif.Model.Rates

/-!
# Model of facility models that remember their inputs

`libecalc/domain/process/compressor/core/base.py` (compressor with turbine), `.../core/train/base.py` and
`.../core/sampled/compressor_model_sampled.py` (setting inputs, evaluating, maximum rates),
`libecalc/domain/process/evaluation_input.py` and
`libecalc/domain/infrastructure/energy_components/legacy_consumer/system/types.py` (a component of a consumer system).

Simplifications:
* the calculation of one time step of a train, its maximum rate for one pair of pressures, the calculations of a sampled
  compressor and of a pump, and the turbine are parameters; they see only what the models pass to them (rate
  modifiers and the speed of the shaft are set anew in each time step, see `Verif.Train`);
* rates are given per time step, one value for each stream (`np.transpose` is done);
* the root finder is any procedure that asks for values of the function and then returns or raises, with a largest number
  of questions;
* attributes that have not been set are `none`; reading them is an `AttributeError`.
-/

namespace Verif.Facility
open Verif.Rates

/-- What can be raised. -/
inductive FErr where
  /-- `EcalcValidationException` -/
  | validation
  /-- `ValueError` -/
  | value
  /-- `AttributeError` -/
  | missing
  /-- `TypeError` for a keyword that is not known -/
  | keyword
  /-- `AssertionError` -/
  | assertion
  /-- `EcalcError` of a calculation -/
  | calculation
  /-- the root finder asks without end -/
  | endless
  deriving DecidableEq, Repr

/-- The attributes set by `set_evaluation_input` (train/base.py:149-152, compressor_model_sampled.py:170-172). -/
structure Stored where
  rate : Option (List (List Fl))
  ps : Option (List ℚ)
  pd : Option (List ℚ)
  ip : Option (List ℚ)
  deriving DecidableEq, Repr

/-- What a compressor model remembers. -/
structure State (F : Type) where
  inputs : Option Stored
  fluids : Option (List (Option F))
  deriving DecidableEq, Repr

/-- A model as built. -/
def State.fresh {F : Type} : State F := ⟨none, none⟩

/-- `if fluid_model is not None: self._fluid_model = [fluid_model]` (train/base.py:379-380, core/base.py:97-98). -/
def State.given {F : Type} (s : State F) : Option F → State F
  | some f => { s with fluids := some [some f] }
  | none => s

/-- `CompressorTrainEvaluationInput` as made by `evaluate` (train/base.py:206-211). -/
structure Step where
  rates : List Fl
  ps : ℚ
  ip : Option ℚ
  pd : ℚ
  deriving DecidableEq, Repr

/-- What is used of `CompressorTrainResult`. -/
structure Result (R : Type) where
  steps : List R
  power : Option (List Fl)
  maxRate : List Fl
  deriving DecidableEq, Repr

/-- `CompressorTrainModel` (train/base.py:36-124). -/
structure Train (F R : Type) where
  interstage : Bool
  ports : Nat
  step : List (Option F) → Step → Except FErr R
  power : R → Fl
  factor : ℚ
  constant : ℚ
  maxOne : List (Option F) → ℚ → ℚ → Except FErr Fl
  reportsMax : Bool

/-- `CompressorModelSampled`. -/
structure Sampled (R : Type) where
  eval : Stored → Except FErr (Result R)
  maxRates : List ℚ → List ℚ → Except FErr (List Fl)

/-- A compressor model, the only kinds a turbine may drive (core/base.py:23). -/
inductive Inner (F R : Type) where
  | train (t : Train F R)
  | sampled (m : Sampled R)

/-- The argument `fluid_model`. -/
inductive FluidArg (F : Type) where
  | one (f : Option F)
  | many (fs : List (Option F))

/-- `fluid_model if isinstance(fluid_model, list) else [fluid_model]` (train/base.py:153). -/
def FluidArg.toList {F : Type} : FluidArg F → List (Option F)
  | .one f => [f]
  | .many fs => fs

/-- The arguments of `set_evaluation_input`; `ip` is `none` if the keyword is left out. -/
structure Setting (F : Type) where
  rate : Option (List (List Fl))
  fluid : FluidArg F
  ps : Option (List ℚ)
  pd : Option (List ℚ)
  ip : Option (Option (List ℚ))

/-- `set_evaluation_input` (train/base.py:132-153, compressor_model_sampled.py:159-172). -/
def Inner.set {F R : Type} (m : Inner F R) (s : State F) (x : Setting F) : Except FErr (State F) :=
  match m with
  | .train t =>
    if x.ps = none then .error .validation
    else if x.pd = none then .error .validation
    else if t.interstage ∧ x.ip.join = none then .error .validation
    else if ¬ t.interstage ∧ x.ip.join ≠ none then .error .validation
    else .ok ⟨some ⟨x.rate, x.ps, x.pd, x.ip.join⟩, some x.fluid.toList⟩
  | .sampled _ =>
    if x.ip ≠ none then .error .keyword
    else if x.rate = none ∧ x.ps = none ∧ x.pd = none then .error .value
    else .ok ⟨some ⟨x.rate, x.ps, x.pd, none⟩, s.fluids⟩

/-- The loop of `get_max_standard_rate` (train/base.py:388-410); places without a discharge pressure keep NaN. -/
def Train.maxLoop {F R : Type} (t : Train F R) (fluids : Option (List (Option F))) :
    List ℚ → List ℚ → Except FErr (List Fl)
  | [], _ => .ok []
  | _ :: ps, [] =>
    match t.maxLoop fluids ps [] with
    | .ok l => .ok (none :: l)
    | .error e => .error e
  | p :: ps, q :: qs =>
    match (if p ≤ 0 ∨ q ≤ 0 then .ok (some 0)
      else match fluids with
        | none => .error .missing
        | some f =>
          match t.maxOne f p q with
          | .error .calculation => .ok none
          | r => r : Except FErr Fl) with
    | .error e => .error e
    | .ok x =>
      match t.maxLoop fluids ps qs with
      | .ok l => .ok (x :: l)
      | .error e => .error e

/-- `get_max_standard_rate` with the fluid models the train remembers (train/base.py:382-410). -/
def Train.maxRates {F R : Type} (t : Train F R) (fluids : Option (List (Option F))) (ps pd : List ℚ) :
    Except FErr (List Fl) :=
  if 1 < t.ports then .error .validation else t.maxLoop fluids ps pd

/-- The time steps of `evaluate` (train/base.py:192-211); `zip` stops at the shortest. -/
def stepsOf (rates : List (List Fl)) (ps : List ℚ) (ip : Option (List ℚ)) (pd : List ℚ) : List Step :=
  let ips := match ip with
    | some l => l.map some
    | none => ps.map fun _ => none
  List.zipWith (fun (a : List Fl × ℚ) (b : Option ℚ × ℚ) => ⟨a.1, a.2, b.1, b.2⟩) (rates.zip ps) (ips.zip pd)

/-- `power_mw_adjusted` (train/base.py:215-219). -/
def adjust (factor constant : ℚ) : Fl → Fl
  | none => none
  | some x => if 0 < x then some (x * factor + constant) else some x

/-- The steps in order, up to the first that fails. -/
def collect {α β : Type} (f : α → Except FErr β) : List α → Except FErr (List β)
  | [] => .ok []
  | a :: as =>
    match f a with
    | .error e => .error e
    | .ok b =>
      match collect f as with
      | .ok bs => .ok (b :: bs)
      | .error e => .error e

/-- `evaluate` of a train (train/base.py:159-247). -/
def Train.evaluate {F R : Type} (t : Train F R) (s : State F) : Except FErr (Result R) :=
  match s.inputs, s.fluids with
  | some ⟨some rate, some ps, some pd, ip⟩, some fl =>
    match collect (t.step fl) (stepsOf rate ps ip pd) with
    | .error e => .error e
    | .ok rs =>
      let power := rs.map fun r => adjust t.factor t.constant (t.power r)
      if t.reportsMax then
        match t.maxRates (some fl) ps pd with
        | .error e => .error e
        | .ok m => .ok ⟨rs, some power, m⟩
      else .ok ⟨rs, some power, ps.map fun _ => none⟩
  | _, _ => .error .missing

/-- `evaluate` (train/base.py:159-247, compressor_model_sampled.py:174-...). -/
def Inner.evaluate {F R : Type} (m : Inner F R) (s : State F) : Except FErr (Result R) :=
  match m with
  | .train t => t.evaluate s
  | .sampled c =>
    match s.inputs with
    | some x => c.eval x
    | none => .error .missing

/-- `get_max_standard_rate` without `fluid_model` (train/base.py:357-412, compressor_model_sampled.py:137-158). -/
def Inner.maxRates {F R : Type} (m : Inner F R) (s : State F) (ps pd : List ℚ) : Except FErr (List Fl) :=
  match m with
  | .train t => t.maxRates s.fluids ps pd
  | .sampled c => c.maxRates ps pd

/-- What a root finder does next. -/
inductive Ask where
  | probe (x : ℚ)
  | root (x : ℚ)
  | fail (e : FErr)

/-- `find_root` (common/numeric_methods.py:71-128): what it does for a lower and an upper bound and the values so far. -/
structure Finder where
  next : ℚ → Fl → List (ℚ × Except FErr Fl) → Ask
  limit : Nat

/-- Running a root finder on a function that changes a state. -/
def search {S : Type} (next : List (ℚ × Except FErr Fl) → Ask) (f : S → ℚ → Except FErr Fl × S) :
    Nat → List (ℚ × Except FErr Fl) → S → Except FErr ℚ × S
  | 0, _, s => (.error .endless, s)
  | n + 1, seen, s =>
    match next seen with
    | .root x => (.ok x, s)
    | .fail e => (.error e, s)
    | .probe x => search next f n (seen ++ [(x, (f s x).1)]) (f s x).2

/-- `CompressorWithTurbineModel` without its compressor (core/base.py:19-32); `T` is `TurbineResult`. -/
structure Wrapper (T : Type) where
  factor : ℚ
  constant : ℚ
  maxPower : ℚ
  turbine : List Fl → Except FErr T
  finder : Finder

/-- `POWER_CALCULATION_TOLERANCE` (train/utils/common.py:19). -/
def tolerance : ℚ := 1 / 1000

/-- What is left of the capacity, from a result (core/base.py:82-86). -/
def Wrapper.left {T R : Type} (w : Wrapper T) (r : Result R) : Fl :=
  match r.power with
  | none => some 0
  | some [] => some 0
  | some (v :: _) => v.map fun x => x - (w.maxPower - tolerance)

/-- `_calculate_remaining_capacity_in_train_given_standard_rate` (core/base.py:70-86). -/
def Wrapper.remaining {F R T : Type} (w : Wrapper T) (m : Inner F R) (p q : ℚ) (s : State F) (r : ℚ) :
    Except FErr Fl × State F :=
  match s.fluids with
  | none => (.error .missing, s)
  | some fl =>
    match m.set s ⟨some [[some r]], .many fl, some [p], some [q], none⟩ with
    | .error e => (.error e, s)
    | .ok s' =>
      match m.evaluate s' with
      | .error e => (.error e, s')
      | .ok x => (.ok (w.left x), s')

/-- One round of the loop of `get_max_standard_rate` (core/base.py:117-132): rate and power of the compressor. -/
def Wrapper.limitOne {F R T : Type} (w : Wrapper T) (m : Inner F R) (s : State F) (r v : Fl) (p q : ℚ) :
    Except FErr Fl × State F :=
  match v with
  | none => (.ok r, s)
  | some x =>
    if w.maxPower < x then
      match search (w.finder.next 0 r) (w.remaining m p q) w.finder.limit [] s with
      | (.ok y, s') => (.ok (some y), s')
      | (.error e, s') => (.error e, s')
    else (.ok r, s)

/-- The loop of `get_max_standard_rate` (core/base.py:117-132). -/
def Wrapper.limitRates {F R T : Type} (w : Wrapper T) (m : Inner F R) :
    State F → List Fl → List Fl → List ℚ → List ℚ → Except FErr (List Fl) × State F
  | s, r :: rs, v :: vs, p :: ps, q :: qs =>
    match w.limitOne m s r v p q with
    | (.error e, s') => (.error e, s')
    | (.ok y, s') =>
      match w.limitRates m s' rs vs ps qs with
      | (.ok l, s'') => (.ok (y :: l), s'')
      | (.error e, s'') => (.error e, s'')
  | s, rs, _, _, _ => (.ok rs, s)

/-- `get_max_standard_rate` of a compressor with turbine (core/base.py:88-134). -/
def Wrapper.maxRates {F R T : Type} (w : Wrapper T) (m : Inner F R) (s : State F) (ps pd : List ℚ) (fluid : Option F) :
    Except FErr (List Fl) × State F :=
  let s1 := s.given fluid
  match m.maxRates s1 ps pd with
  | .error e => (.error e, s1)
  | .ok rates =>
    match s1.fluids with
    | none => (.error .missing, s1)
    | some fl =>
      match m.set s1 ⟨some (rates.map fun r => [r]), .many fl, some ps, some pd, none⟩ with
      | .error e => (.error e, s1)
      | .ok s2 =>
        match m.evaluate s2 with
        | .error e => (.error e, s2)
        | .ok x =>
          match x.power with
          | none => (.ok rates, s2)
          | some powers => w.limitRates m s2 rates powers ps pd

/-- A result with that of the turbine. -/
structure Answer (R T : Type) where
  result : Result R
  turbine : Option T
  deriving DecidableEq, Repr

/-- `evaluate_turbine_based_on_compressor_model_result` (core/base.py:48-68). -/
def Wrapper.drive {R T : Type} (w : Wrapper T) (r : Result R) : Except FErr (Answer R T) :=
  match r.power with
  | none => .ok ⟨r, none⟩
  | some powers =>
    match w.turbine (powers.map (adjust w.factor w.constant)) with
    | .ok t => .ok ⟨r, some t⟩
    | .error e => .error e

/-- `PumpModel`, which is asked with all arguments. -/
structure Pump (R : Type) where
  eval : List (List Fl) → List ℚ → List ℚ → List ℚ → Except FErr (Result R)
  maxRates : List ℚ → List ℚ → List ℚ → Except FErr (List Fl)

/-- The facility models of a consumer system (types.py:19). -/
inductive Machine (F R T : Type) where
  | pump (p : Pump R)
  | plain (m : Inner F R)
  | turbine (w : Wrapper T) (m : Inner F R)

/-- `ConsumerSystemComponent` (types.py:15-28). -/
structure Component (F R T : Type) where
  facility : Machine F R T
  fluid : Option F

/-- What a consumer system asks a component. -/
inductive Enquiry where
  | maxRate (ps pd : List ℚ) (density : Option (List ℚ))
  | evaluate (rates : List (List Fl)) (ps pd : List ℚ) (density : Option (List ℚ))

/-- What it answers. -/
inductive Reply (R T : Type) where
  | rates (l : List Fl)
  | result (a : Answer R T)
  deriving DecidableEq, Repr

/-- `get_max_standard_rate` of a component (types.py:30-67). -/
def Component.maxRate {F R T : Type} (c : Component F R T) (s : State F) (ps pd : List ℚ) (density : Option (List ℚ)) :
    Except FErr (List Fl) × State F :=
  match c.facility with
  | .plain (.train t) =>
    (t.maxRates (s.given c.fluid).fluids ps pd, s.given c.fluid)
  | .pump p =>
    match density with
    | none => (.error .assertion, s)
    | some d => (p.maxRates ps pd d, s)
  | .turbine w (.sampled m) => w.maxRates (.sampled m) s ps pd none
  | .turbine w (.train t) => w.maxRates (.train t) s ps pd c.fluid
  | .plain (.sampled m) => (m.maxRates ps pd, s)

/-- Setting the inputs of a compressor and evaluating it (types.py:84-112). -/
def Inner.ask {F R : Type} (m : Inner F R) (s : State F) (rates : List (List Fl)) (ps pd : List ℚ) (fluid : Option F) :
    Except FErr (Result R) × State F :=
  match m with
  | .train _ =>
    if fluid.isNone then (.error .assertion, s)
    else match m.set s ⟨some rates, .one fluid, some ps, some pd, none⟩ with
      | .error e => (.error e, s)
      | .ok s' => (m.evaluate s', s')
  | .sampled _ =>
    match m.set s ⟨some rates, .one none, some ps, some pd, none⟩ with
    | .error e => (.error e, s)
    | .ok s' => (m.evaluate s', s')

/-- `evaluate` of a component (types.py:69-115). -/
def Component.evaluate {F R T : Type} (c : Component F R T) (s : State F) (rates : List (List Fl))
    (ps pd : List ℚ) (density : Option (List ℚ)) : Except FErr (Answer R T) × State F :=
  match c.facility with
  | .pump p =>
    match density with
    | none => (.error .assertion, s)
    | some d =>
      match p.eval rates ps pd d with
      | .ok r => (.ok ⟨r, none⟩, s)
      | .error e => (.error e, s)
  | .plain m =>
    match m.ask s rates ps pd c.fluid with
    | (.ok r, s') => (.ok ⟨r, none⟩, s')
    | (.error e, s') => (.error e, s')
  | .turbine w m =>
    match m.ask s rates ps pd c.fluid with
    | (.ok r, s') => (w.drive r, s')
    | (.error e, s') => (.error e, s')

/-- One enquiry. -/
def Component.answer {F R T : Type} (c : Component F R T) (s : State F) :
    Enquiry → Except FErr (Reply R T) × State F
  | .maxRate ps pd d =>
    match c.maxRate s ps pd d with
    | (.ok l, s') => (.ok (.rates l), s')
    | (.error e, s') => (.error e, s')
  | .evaluate rates ps pd d =>
    match c.evaluate s rates ps pd d with
    | (.ok a, s') => (.ok (.result a), s')
    | (.error e, s') => (.error e, s')

/-- A sequence of enquiries; an exception is caught and the model is asked again. -/
def Component.answers {F R T : Type} (c : Component F R T) : State F → List Enquiry →
    List (Except FErr (Reply R T))
  | _, [] => []
  | s, x :: xs => (c.answer s x).1 :: c.answers (c.answer s x).2 xs

/-- `apply_to_model` and `evaluate` for a compressor outside consumer systems (evaluation_input.py:54-74, 109-133,
model.py:518-558); `compressor` is the kind of evaluation input. -/
def applied {F R T : Type} (w : Option (Wrapper T)) (m : Inner F R) (s : State F) (compressor : Bool)
    (rates : List (List Fl)) (fluid : FluidArg F) (ps pd ip : Option (List ℚ)) : Except FErr (Answer R T) × State F :=
  match m.set s (if compressor then ⟨some rates, fluid, ps, pd, some ip⟩ else ⟨some rates, .one none, ps, pd, none⟩) with
  | .error e => (.error e, s)
  | .ok s' =>
    match m.evaluate s' with
    | .error e => (.error e, s')
    | .ok r =>
      match w with
      | none => (.ok ⟨r, none⟩, s')
      | some w => (w.drive r, s')

/-- `get_requested_inlet_pressure` and `get_requested_outlet_pressure` (train/base.py:414-418, core/base.py:136-140). -/
def requested {F : Type} (s : State F) : Except FErr (Option (List ℚ) × Option (List ℚ)) :=
  match s.inputs with
  | some x => .ok (x.ps, x.pd)
  | none => .error .missing

end Verif.Facility
