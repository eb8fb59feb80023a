import Verif.Model.Search
import Verif.Model.CompressorChart
import Mathlib.Data.Rat.Floor

/-!
# Model of the compressor train with a common shaft

`src/libecalc/domain/process/compressor/core/train/{base,compressor_train_common_shaft,train_evaluation_input}.py`,
`src/libecalc/domain/process/compressor/core/results.py` and the part of `stage.py` that searches for a target pressure.

What one stage does to a stream (stage.py:152-215, modelled in `Model/Stage`) is a parameter, a function of the speed,
the setting of its rate modifier, and the rates leaving and entering ahead of it; so are the fluid at the inlet and the
conversion between standard and mass rates. These are taken to be total: exceptions of the thermodynamics and NaN
pressures are left out. The root finder (`find_root`, scipy's `brenth`) is a parameter too. The discharge pressure and
the rates of the constraints are taken to be given, with one rate for each port. The shaft has variable speed.

The train has a state that outlives an evaluation: the speed of the shaft and the settings of the rate modifiers.
-/

namespace Verif.Train
open Verif.Time Verif.Search Verif.Charts

/-! ## Stages and results -/

/-- Setting of a `RateModifier`: none, `mass_rate_to_recirculate`, or
`fraction_of_available_capacity_to_recirculate` (rate_modifier.py:76-110; C66 shows that it is one of these). -/
inductive Mod where
  | none
  | mass (v : ℚ)
  | fraction (f : ℚ)
  deriving DecidableEq, Repr

/-- `CompressorTrainStageResultSingleTimeStep` (results.py:29-61): pressures of inlet and outlet stream, density of the
inlet stream, mass rate without and with recirculation, power, chart area flag, `point_is_valid`, and the outlet
stream. -/
structure Stg (σ : Type) where
  pin : ℚ
  pout : ℚ
  density : ℚ
  mass : ℚ
  massAsv : ℚ
  power : ℚ
  area : Area
  valid : Bool
  out : σ

/-- `within_capacity` of a stage (results.py:144-145). -/
def Stg.within {σ : Type} (r : Stg σ) : Bool := decide (r.area = .internal) || r.valid

/-- A stage: speed limits and flow limits of its chart, numbers of additional outlets of its splitter and inlets of its
mixer, the pressure drop ahead of it, and what `evaluate` (stage.py:152-215) does at a speed with a setting of the rate
modifier, given the rates out of the splitter and into the mixer (none: the arguments are omitted). -/
structure StageP (σ : Type) where
  minSpeed : ℚ
  maxSpeed : ℚ
  minRate : ℚ → ℚ
  maxRate : ℚ → ℚ
  outs : ℕ
  ins : ℕ
  drop : ℚ
  run : ℚ → Mod → Option (List ℚ × List ℚ) → σ → Stg σ

/-- `TargetPressureStatus` (domain/process/core/results/compressor.py:34-42). -/
inductive Status where
  | notCalculated
  | belowSuction
  | aboveSuction
  | belowDischarge
  | aboveDischarge
  | belowIntermediate
  | aboveIntermediate
  | met
  deriving DecidableEq, Repr

/-- `FixedSpeedPressureControl` (common/fixed_speed_pressure_control.py). -/
inductive Control where
  | upstreamChoke
  | downstreamChoke
  | individualPressure
  | individualRate
  | commonAsv
  deriving DecidableEq, Repr

/-- `StreamPort` (types.py). -/
structure Port where
  inlet : Bool
  stage : ℕ
  deriving DecidableEq, Repr

/-- `CompressorTrainEvaluationInput` (train_evaluation_input.py:5-19). -/
structure Input where
  suction : ℚ
  discharge : ℚ
  interstage : Option ℚ
  rates : List ℚ
  deriving DecidableEq, Repr

/-- `create_conditions_with_new_input(new_rate=...)` (train_evaluation_input.py:42-44). -/
def Input.withRate (i : Input) (rate : ℚ) : Input := { i with rates := i.rates.set 0 rate }

/-- `CompressorTrainResultSingleTimeStep` (results.py:179-193): pressures of inlet and outlet stream, speed, stage
results, status, `above_maximum_power`. -/
structure Res (σ : Type) where
  pin : ℚ
  pout : ℚ
  speed : ℚ
  stages : List (Stg σ)
  status : Status
  abovePower : Bool

/-- A train (base.py:40-68 and compressor_train_common_shaft.py:68-97). `inlet` makes the stream that enters the first
stage, of the fluid of the first port, at a pressure and a standard rate; `reinlet` does so for the fluid of another
stream; `massOf` is the mass rate of a stream; `density` is the density of the fluid of the first port at a pressure
and the inlet temperature of the first stage; `std` converts mass rate to standard rate by a factor; `ratio` is
`calculate_pressure_ratios_per_stage` (base.py:295-305), a root. -/
structure Plant (σ : Type) where
  stages : List (StageP σ)
  inlet : ℚ → ℚ → σ
  reinlet : σ → ℚ → ℚ → σ
  massOf : σ → ℚ
  density : ℚ → ℚ
  std : ℚ
  ratio : ℚ → ℚ → ℕ → ℚ
  control : Option Control
  maxPower : Option ℚ
  maxDischarge : Option ℚ
  interstage : Option ℕ

/-- What outlives an evaluation: the speed of the shaft and the settings of the rate modifiers of the stages. -/
structure State where
  speed : Option ℚ
  mods : List Mod
  deriving DecidableEq, Repr

variable {σ : Type}

/-! ## Ports and rates -/

/-- Ports of the stages from a stage number on (`_make_ports_from_splitters_and_mixers`, base.py:114-124). -/
def portsFrom : ℕ → List (StageP σ) → List Port
  | _, [] => []
  | i, s :: rest => List.replicate s.outs ⟨false, i⟩ ++ List.replicate s.ins ⟨true, i⟩ ++ portsFrom (i + 1) rest

/-- `ports` (base.py:62-64, 114-124). -/
def ports (stages : List (StageP σ)) : List Port := ⟨true, 0⟩ :: portsFrom 0 stages

/-- `rates_out_of_splitter` of a stage (compressor_train_common_shaft.py:232-235). -/
def ratesOut (stages : List (StageP σ)) (rates : List ℚ) (k : ℕ) : List ℚ :=
  ((ports stages).zip rates).filterMap fun x => if !x.1.inlet && decide (x.1.stage = k) then some x.2 else none

/-- Rates of the streams into the mixer of a stage (compressor_train_common_shaft.py:236-247); port 0 is the inlet of the
train. -/
def ratesIn (stages : List (StageP σ)) (rates : List ℚ) (k : ℕ) : List ℚ :=
  (((ports stages).zip rates).drop 1).filterMap fun x => if x.1.inlet && decide (x.1.stage = k) then some x.2 else none

/-- Net rate of the ports that satisfy a condition. -/
def netRate (stages : List (StageP σ)) (rates : List ℚ) (c : Port → Bool) : ℚ :=
  (((ports stages).zip rates).filterMap fun x =>
    if c x.1 then some (if x.1.inlet then x.2 else -x.2) else none).sum

/-- `_validate_nonnegative_stage_rates` (compressor_train_common_shaft.py:126-139). -/
def nonneg (stages : List (StageP σ)) (rates : List ℚ) : Bool :=
  (List.range stages.length).all fun k => decide (0 ≤ netRate stages rates fun p => decide (p.stage ≤ k))

/-- `_validate_positive_ingoing_rates` (compressor_train_common_shaft.py:119-124). -/
def anyIngoing (stages : List (StageP σ)) (rates : List ℚ) : Bool :=
  ((ports stages).zip rates).any fun x => x.1.inlet && decide (0 < x.2)

/-- `split_rates_on_stage_number` (compressor_train_common_shaft.py:1263-1299). -/
def splitRates (stages : List (StageP σ)) (rates : List ℚ) (n : ℕ) : List ℚ × List ℚ :=
  ((((ports stages).zip rates).filterMap fun x => if x.1.stage < n then some x.2 else none),
   netRate stages rates (fun p => decide (p.stage < n)) ::
     (((ports stages).zip rates).filterMap fun x => if n ≤ x.1.stage then some x.2 else none))

/-! ## Status -/

/-- `PRESSURE_CALCULATION_TOLERANCE` (train/utils/common.py:18); the tolerances of rate and power have the same value. -/
def tol : ℚ := 1 / 1000

/-- `EPSILON` (train/utils/common.py:17). -/
def eps : ℚ := 1 / 100000

/-- The comparisons of `check_target_pressures` (base.py:337-355). -/
def comparePressures (inp : Input) (trainSuction stageSuction discharge : ℚ) (intermediate : Option ℚ) : Status :=
  if stageSuction / trainSuction - 1 > tol then .aboveSuction
  else if discharge / inp.discharge - 1 > tol then .aboveDischarge
  else if inp.discharge / discharge - 1 > tol then .belowDischarge
  else match inp.interstage, intermediate with
    | some target, some p =>
      if p / target - 1 > tol then .aboveIntermediate
      else if target / p - 1 > tol then .belowIntermediate
      else .met
    | _, _ => .met

/-- `check_target_pressures` for a list of stage results (base.py:320-324), which is not empty. -/
def checkStages (inp : Input) (rs : List (Stg σ)) : Status :=
  match rs.head?, rs.getLast? with
  | some first, some last => comparePressures inp first.pin first.pin last.pout none
  | _, _ => .notCalculated

/-- `check_target_pressures` for a train result (base.py:325-336); the intermediate pressure is looked up in the stage
results whether there is a target for it or not. -/
def checkTrain (number : Option ℕ) (inp : Input) (r : Res σ) : Except Err Status :=
  match r.stages.head? with
  | none => .error .indexError
  | some first =>
    match number with
    | none => .ok (comparePressures inp r.pin first.pin r.pout none)
    | some n =>
      match if n = 0 then r.stages.getLast? else r.stages[n - 1]? with
      | none => .error .indexError
      | some s => .ok (comparePressures inp r.pin first.pin r.pout (some s.pout))

/-- `within_capacity` of a train result (results.py:406-407). -/
def Res.within (r : Res σ) : Bool := r.stages.all (·.within)

/-- `power_megawatt` (results.py:410-411). -/
def Res.power (r : Res σ) : ℚ := (r.stages.map (·.power)).sum

/-- `CompressorTrainCommonShaftFailureStatus` (domain/process/core/results/compressor.py:16-31), as far as
`failure_status` returns it. -/
inductive Failure where
  | none
  | dischargeTooHigh
  | dischargeTooLow
  | suctionTooHigh
  | intermediateTooLow
  | intermediateTooHigh
  | aboveFlow
  | belowFlow
  | abovePower
  deriving DecidableEq, Repr

/-- The first stage that is out of capacity with a flow flag (results.py:347-359). -/
def flowFailure : List (Stg σ) → Option Failure
  | [] => Option.none
  | s :: rest =>
    if s.within then flowFailure rest
    else match s.area with
      | .aboveFlow | .belowSpeedAboveFlow => some .aboveFlow
      | .belowFlow | .belowSpeedBelowFlow => some .belowFlow
      | _ => flowFailure rest

/-- `failure_status` (results.py:346-375). -/
def Res.failure (r : Res σ) : Failure :=
  match flowFailure r.stages with
  | some f => f
  | Option.none =>
    match r.status with
    | .aboveSuction => .dischargeTooHigh
    | .belowSuction => .suctionTooHigh
    | .aboveDischarge => .dischargeTooLow
    | .belowDischarge => .dischargeTooHigh
    | .aboveIntermediate => .intermediateTooLow
    | .belowIntermediate => .intermediateTooHigh
    | _ => if r.abovePower then .abovePower else .none

/-- `is_valid` (results.py:397-403). -/
def Res.isValid (r : Res σ) : Bool := decide (r.failure = .none) && r.within

/-- `chart_area_status` (results.py:378-394); the list is not empty. -/
def Res.areaStatus (r : Res σ) : Area :=
  match r.stages.filter (fun s => !s.valid) with
  | s :: _ => s.area
  | [] =>
    if r.stages.any (fun s => decide (s.area = .noFlow)) then .noFlow
    else match r.stages with
      | s :: _ => s.area
      | [] => .internal

/-! ## The train at a speed -/

/-- `minimum_speed` (base.py:74-77). -/
def Plant.minSpeed (p : Plant σ) : ℚ :=
  match p.stages with
  | [] => 0
  | s :: rest => rest.foldl (fun v t => max v t.minSpeed) s.minSpeed

/-- `maximum_speed` (base.py:79-82). -/
def Plant.maxSpeed (p : Plant σ) : ℚ :=
  match p.stages with
  | [] => 0
  | s :: rest => rest.foldl (fun v t => min v t.maxSpeed) s.maxSpeed

/-- The loop over the stages (compressor_train_common_shaft.py:229-257) from a stage number on. -/
def runStages (speed : ℚ) (rates : ℕ → List ℚ × List ℚ) : ℕ → List (StageP σ) → List Mod → σ → List (Stg σ)
  | _, [], _, _ => []
  | k, s :: rest, mods, x =>
    let r := s.run speed (mods.headD .none) (some (rates k)) x
    r :: runStages speed rates (k + 1) rest mods.tail r.out

/-- `sum(power) > maximum_power if maximum_power else False` (compressor_train_common_shaft.py:267-271). -/
def exceeds (maxPower : Option ℚ) (power : ℚ) : Bool :=
  match maxPower with
  | Option.none => false
  | some m => decide (m ≠ 0) && decide (power > m)

/-- `calculate_compressor_train` (compressor_train_common_shaft.py:182-273). -/
def Plant.calc (p : Plant σ) (speed : ℚ) (mods : List Mod) (inp : Input) : Res σ :=
  let rs := runStages speed (fun k => (ratesOut p.stages inp.rates k, ratesIn p.stages inp.rates k)) 0 p.stages mods
    (p.inlet inp.suction (inp.rates.headD 0))
  { pin := inp.suction
    pout := (rs.getLast?.map (·.pout)).getD inp.suction
    speed := speed
    stages := rs
    status := checkStages inp rs
    abovePower := exceeds p.maxPower (rs.map (·.power)).sum }

/-- `reset_rate_modifiers` (base.py:155-157). -/
def Plant.fresh (p : Plant σ) : List Mod := p.stages.map fun _ => .none

/-- All stages with the same setting. -/
def Plant.same (p : Plant σ) (m : Mod) : List Mod := p.stages.map fun _ => m

/-- A root finder: lower and upper bound, and the function. -/
abbrev Root := ℚ → ℚ → (ℚ → ℚ) → ℚ

/-! ## Speed -/

/-- Bounds of the speed (compressor_train_common_shaft.py:1123-1132). -/
def Plant.speedBounds (p : Plant σ) (lower upper : Option ℚ) : ℚ × ℚ :=
  (match lower with
    | some l => if l ≠ 0 ∧ l > p.minSpeed then l else p.minSpeed
    | none => p.minSpeed,
   match upper with
    | some u => if u ≠ 0 ∧ u < p.maxSpeed then u else p.maxSpeed
    | none => p.maxSpeed)

/-- `find_fixed_shaft_speed_given_constraints` (compressor_train_common_shaft.py:1093-1184): the speed, which is also the
speed of the shaft afterwards. -/
def Plant.findSpeed (p : Plant σ) (root : Root) (mods : List Mod) (inp : Input) (lower upper : Option ℚ := none) : ℚ :=
  let lo := (p.speedBounds lower upper).1
  let hi := (p.speedBounds lower upper).2
  let atMax := p.calc hi mods inp
  if !atMax.within then hi
  else
    let lo := if (p.calc lo mods inp).within then lo
      else -maximizeX eps 50 (-hi) (-lo) (fun x => (p.calc (-x) mods inp).within)
    let atMin := p.calc lo mods inp
    if atMin.pout ≤ inp.discharge ∧ inp.discharge ≤ atMax.pout then
      root lo hi fun x => (p.calc x mods inp).pout - inp.discharge
    else if inp.discharge < atMin.pout then lo
    else hi

/-! ## Pressure control -/

/-- `_evaluate_train_with_upstream_choking` (compressor_train_common_shaft.py:722-776). -/
def Plant.upstream (p : Plant σ) (root : Root) (speed : ℚ) (mods : List Mod) (inp : Input) : Except Err (Res σ) := do
  let drop := ((p.stages.head?).map (·.drop)).getD 0
  let ps := root (eps + drop) inp.discharge fun x => (p.calc speed mods { inp with suction := x }).pout - inp.discharge
  let r := { p.calc speed mods { inp with suction := ps } with pin := inp.suction }
  let status ← checkTrain p.interstage inp r
  return { r with status := status }

/-- The limit on the pressure ahead of the choke (compressor_train_common_shaft.py:692-704). -/
def Plant.limited (p : Plant σ) (root : Root) (speed : ℚ) (mods : List Mod) (inp : Input) (r : Res σ) :
    Except Err (Res σ) :=
  match p.maxDischarge with
  | none => .ok r
  | some m =>
    if r.pout * (1 + tol) > m then do
      let n ← p.upstream root speed mods { inp with discharge := m }
      let r' := { r with stages := n.stages, pout := n.pout }
      let status ← checkTrain p.interstage inp r'
      return { r' with status := status }
    else .ok r

/-- `_evaluate_train_with_downstream_choking` (compressor_train_common_shaft.py:673-720). -/
def Plant.downstream (p : Plant σ) (root : Root) (speed : ℚ) (mods : List Mod) (inp : Input) : Except Err (Res σ) := do
  let r ← p.limited root speed mods inp (p.calc speed mods inp)
  if r.status = .aboveDischarge then do
    let r' := { r with pout := inp.discharge }
    let status ← checkTrain p.interstage inp r'
    return { r' with status := status }
  else return r

/-- `_evaluate_train_with_individual_asv_rate` (compressor_train_common_shaft.py:778-843): result and settings
afterwards. -/
def Plant.asvRate (p : Plant σ) (root : Root) (speed : ℚ) (inp : Input) : Res σ × List Mod :=
  let at_ := fun f => p.calc speed (p.same (.fraction f)) inp
  let least := at_ 0
  if least.areaStatus = .aboveFlow ∨ inp.discharge > least.pout then (least, p.same (.fraction 0))
  else
    let most := at_ 1
    if inp.discharge < most.pout then (most, p.same (.fraction 1))
    else
      let f := root 0 1 fun x => (at_ x).pout - inp.discharge
      (at_ f, p.same (.fraction f))

/-- `evaluate_given_speed_and_target_discharge_pressure` (stage.py:278-347): result and setting of the rate modifier
afterwards. The mass rate of the entering stream is given. -/
def StageP.target (s : StageP σ) (root : Root) (speed target mass : ℚ) (x : σ) : Stg σ × Mod :=
  let at_ := fun v => s.run speed (.mass v) none x
  let none_ := at_ 0
  let most := max (s.maxRate speed * none_.density - mass - eps) 0
  if none_.pout < target then (none_, .mass most)
  else if (at_ most).pout > target then (at_ most, .mass most)
  else
    let v := root 0 most fun y => (at_ y).pout - target
    (at_ v, .mass v)

/-- The loop of `_evaluate_train_with_individual_asv_pressure` (compressor_train_common_shaft.py:877-886). The pressure of
the stream entering a stage is that at the outlet of the stage before. -/
def targetStages (root : Root) (massOf : σ → ℚ) (speed ratio : ℚ) : List (StageP σ) → ℚ → σ → List (Stg σ × Mod)
  | [], _, _ => []
  | s :: rest, pressure, x =>
    let r := s.target root speed (pressure * ratio) (massOf x) x
    r :: targetStages root massOf speed ratio rest r.1.pout r.1.out

/-- `_evaluate_train_with_individual_asv_pressure` (compressor_train_common_shaft.py:845-899): result and settings
afterwards. `above_maximum_power` is left at its default. -/
def Plant.asvPressure (p : Plant σ) (root : Root) (speed : ℚ) (inp : Input) : Res σ × List Mod :=
  let rs := targetStages root p.massOf speed (p.ratio inp.suction inp.discharge p.stages.length) p.stages inp.suction
    (p.inlet inp.suction (inp.rates.headD 0))
  ({ pin := inp.suction
     pout := ((rs.map (·.1)).getLast?.map (·.pout)).getD inp.suction
     speed := speed
     stages := rs.map (·.1)
     status := checkStages inp (rs.map (·.1))
     abovePower := false }, rs.map (·.2))

/-- `round(x, 4)` as a number of ten thousandths; ties to even. -/
def round4 (x : ℚ) : ℤ :=
  let f := ⌊x * 10000⌋
  let d := x * 10000 - f
  if d < 1 / 2 then f else if d > 1 / 2 then f + 1 else if f % 2 = 0 then f else f + 1

/-- `mass_rate_asv_corrected_is_constant_for_stages` (results.py:558-560). -/
def Res.constant (r : Res σ) : Bool :=
  match r.stages with
  | [] => true
  | s :: rest => rest.all fun t => decide (round4 t.massAsv = round4 s.massAsv)

/-- The loop that tries ten more mass rates (compressor_train_common_shaft.py:1020-1031): the first fraction that gives a
constant mass rate. -/
def tryInc (ok : ℚ → Bool) : ℕ → ℚ → Option ℚ
  | 0, _ => none
  | n + 1, inc => if ok inc then some inc else if inc + 1 / 10 ≥ 1 then none else tryInc ok n (inc + 1 / 10)

/-- The last steps with a common anti-surge valve (compressor_train_common_shaft.py:1061-1093): search between two mass
rates for the one at which the train delivers the target. -/
def Plant.commonFinish (p : Plant σ) (root : Root) (speed : ℚ) (inp : Input) (lo hi : ℚ) : Res σ × List Mod :=
  let wanted := inp.rates.headD 0 / p.std
  let at_ := fun m => p.calc speed p.fresh (inp.withRate (m * p.std))
  if inp.discharge > (at_ lo).pout then (at_ lo, p.fresh)
  else if inp.discharge < (at_ hi).pout then (at_ hi, p.fresh)
  else
    let m := root lo hi fun x => (at_ x).pout - inp.discharge
    (p.calc speed (p.same (.mass (m - wanted))) inp, p.same (.mass (m - wanted)))

/-- `_evaluate_train_with_common_asv` (compressor_train_common_shaft.py:901-1091): result and settings afterwards. -/
def Plant.commonAsv (p : Plant σ) (root : Root) (speed : ℚ) (inp : Input) : Res σ × List Mod :=
  let wanted := inp.rates.headD 0 / p.std
  let at_ := fun m => p.calc speed p.fresh (inp.withRate (m * p.std))
  let rateAt := fun (f : StageP σ → ℚ → ℚ) => ((p.stages.head?).map (f · speed)).getD 0
  let lo := max wanted (rateAt (·.minRate) * p.density inp.suction)
  let hi := rateAt (·.maxRate) * p.density inp.suction * (1 - eps)
  let finish := p.commonFinish root speed inp
  if wanted > hi then (at_ wanted, p.fresh)
  else if (at_ lo).constant then
    if (at_ hi).constant then finish lo hi
    else finish lo (maximizeX tol 20 0 hi fun x => (at_ x).constant)
  else if (at_ hi).constant then finish (-maximizeX tol 20 (-hi) (-lo) fun x => (at_ (-x)).constant) hi
  else
    match tryInc (fun inc => (at_ (lo + inc * (hi - lo))).constant) 10 (1 / 10) with
    | Option.none => (at_ wanted, p.fresh)
    | some inc =>
      let lo' := -maximizeX tol 20 (-(lo + inc * (hi - lo))) (-lo) fun x => (at_ (-x)).constant
      let hi' := maximizeX tol 20 (lo' + inc * (hi - lo')) hi fun x => (at_ x).constant
      finish lo' hi'

/-- `evaluate_with_pressure_control_given_constraints` (compressor_train_common_shaft.py:633-671): result and settings
afterwards. -/
def Plant.controlled (p : Plant σ) (root : Root) (st : State) (inp : Input) : Except Err (Res σ × List Mod) :=
  match st.speed with
  | none => .error .valueError
  | some speed =>
    match p.control with
    | some .downstreamChoke => do return (← p.downstream root speed st.mods inp, st.mods)
    | some .upstreamChoke => do return (← p.upstream root speed st.mods inp, st.mods)
    | some .individualRate => .ok (p.asvRate root speed inp)
    | some .individualPressure => .ok (p.asvPressure root speed inp)
    | some .commonAsv => .ok (p.commonAsv root speed inp)
    | none => .error .valueError

/-! ## Two pressure targets -/

/-- `split_train_on_stage_number` (compressor_train_common_shaft.py:1186-1261): the first part. -/
def Plant.firstPart (p : Plant σ) (n : ℕ) (control : Option Control) : Plant σ :=
  { p with stages := p.stages.take n, control := control, maxDischarge := none }

/-- The last part, with the fluid that leaves the first part (compressor_train_common_shaft.py:1248-1259, 1375-1383). Its
density at the inlet is that of the same fluid (`densityOf`). -/
def Plant.lastPart (p : Plant σ) (densityOf : σ → ℚ → ℚ) (n : ℕ) (control : Option Control) (fluid : σ) : Plant σ :=
  { p with stages := p.stages.drop n, control := control, maxDischarge := none, inlet := p.reinlet fluid,
           density := densityOf fluid }

/-- `math.isclose(a, b, rel_tol=EPSILON)`. -/
def isclose (a b : ℚ) : Bool := decide (|a - b| ≤ eps * max |a| |b|)

/-- One part at the speed found for it (compressor_train_common_shaft.py:1356-1373, 1386-1403): speed, result and
settings. -/
def Plant.part (p : Plant σ) (root : Root) (lo hi : ℚ) (mods : List Mod) (inp : Input) :
    Except Err (ℚ × Res σ × List Mod) := do
  let speed := p.findSpeed root mods inp (some lo) (some hi)
  if isclose speed lo then do
    let (r, mods') ← p.controlled root ⟨some speed, mods⟩ inp
    return (speed, r, mods')
  else return (speed, p.calc speed mods inp, mods)

/-- `find_and_calculate_for_compressor_train_with_two_pressure_requirements`
(compressor_train_common_shaft.py:1301-1459). -/
def Plant.twoPressures (p : Plant σ) (root : Root) (densityOf : σ → ℚ → ℚ) (n : ℕ) (up down : Option Control)
    (mods : List Mod) (inp : Input) (interstage : ℚ) : Except Err (Res σ × State) := do
  let rates := splitRates p.stages inp.rates n
  let inp1 : Input := ⟨inp.suction, interstage, none, rates.1⟩
  let inp2 : Input := ⟨interstage, inp.discharge, none, rates.2⟩
  let first := p.firstPart n up
  let (v1, r1, m1) ← first.part root p.minSpeed p.maxSpeed (mods.take n) inp1
  match r1.stages.getLast? with
  | none => .error .indexError
  | some s =>
    let last := p.lastPart densityOf n down s.out
    let (v2, r2, m2) ← last.part root p.minSpeed p.maxSpeed (mods.drop n) inp2
    let (r1, m1, r2, m2, v) ←
      if v1 > v2 then do
        let (r2', m2') ← last.controlled root ⟨some v1, m2⟩ inp2
        pure (r1, m1, r2', m2', v1)
      else do
        let (r1', m1') ← first.controlled root ⟨some v2, m1⟩ inp1
        pure (r1', m1', r2, m2, v2)
    let stages := r1.stages ++ r2.stages
    let r : Res σ :=
      { pin := r1.pin, pout := r2.pout, speed := v, stages := stages, status := .notCalculated,
        abovePower := exceeds p.maxPower (stages.map (·.power)).sum }
    let status ← checkTrain p.interstage inp r
    return ({ r with status := status }, ⟨some v, m1 ++ m2⟩)

/-! ## Evaluation -/

/-- `evaluate_given_constraints` (compressor_train_common_shaft.py:141-180), without `fixed_speed`; no result stands for
`create_empty`. `up` and `down` are the controls of the stage with the interstage pressure (lines 99-113). -/
def Plant.evaluate (p : Plant σ) (root : Root) (densityOf : σ → ℚ → ℚ) (up down : Option Control) (st : State)
    (inp : Input) : Except Err (Option (Res σ) × State) :=
  let mods := p.fresh
  if !nonneg p.stages inp.rates then .error .valueError
  else if anyIngoing p.stages inp.rates then
    match inp.interstage with
    | some target =>
      match p.interstage with
      | none => .error .programmingError
      | some n =>
        if n < 1 ∨ n > p.stages.length - 1 then .error .programmingError
        else do
          let (r, st') ← p.twoPressures root densityOf n up down mods inp target
          return (some r, st')
    | none =>
      let speed := p.findSpeed root mods inp
      let r := p.calc speed mods inp
      if r.status = .met then .ok (some r, ⟨some speed, mods⟩)
      else if r.status = .belowDischarge then .ok (some r, ⟨some speed, mods⟩)
      else match p.control with
        | none => .ok (some r, ⟨some speed, mods⟩)
        | some _ => do
          let (r', mods') ← p.controlled root ⟨some speed, mods⟩ inp
          return (some r', ⟨some speed, mods'⟩)
  else .ok (none, ⟨st.speed, mods⟩)

/-- The loop over the time steps (`evaluate`, base.py:191-212): results and the state afterwards. -/
def Plant.evaluateAll (p : Plant σ) (root : Root) (densityOf : σ → ℚ → ℚ) (up down : Option Control) :
    State → List Input → Except Err (List (Option (Res σ)) × State)
  | st, [] => .ok ([], st)
  | st, i :: rest => do
    let (r, st) ← p.evaluate root densityOf up down st i
    let (rs, st) ← p.evaluateAll root densityOf up down st rest
    return (r :: rs, st)

/-! ## Maximum rate -/

/-- `maximum_rate_as_function_of_speed` and its like of the first stage. -/
def Plant.first (p : Plant σ) (f : StageP σ → ℚ) : ℚ := ((p.stages.head?).map f).getD 0

/-- Rate along the limit of the chart at a speed (compressor_train_common_shaft.py:361-383). -/
def Plant.stoneWall (p : Plant σ) (mods : List Mod) (inp : Input) (speed : ℚ) : Res σ :=
  let d := p.density inp.suction
  let m := maximizeX tol 20 (p.first (·.minRate speed) * d) (p.first (·.maxRate speed) * d)
    fun x => (p.calc speed mods (inp.withRate (x * p.std))).within
  p.calc speed mods (inp.withRate (m * p.std))

/-- The largest mass rate within capacity at the highest speed (compressor_train_common_shaft.py:453-469). -/
def Plant.mostMass (p : Plant σ) (mods : List Mod) (inp : Input) : ℚ :=
  let d := p.density inp.suction
  let atMax := fun m => p.calc p.maxSpeed mods (inp.withRate (m * p.std))
  let lo := p.first (fun s => s.minRate s.maxSpeed) * d
  let hi := p.first (fun s => s.maxRate s.maxSpeed) * d
  if (atMax hi).within then hi else maximizeX tol 20 lo hi fun x => (atMax x).within

/-- The result with the largest mass rate within capacity at the lowest speed
(compressor_train_common_shaft.py:515-531). -/
def Plant.slowest (p : Plant σ) (mods : List Mod) (inp : Input) : Res σ :=
  let atMin := fun m => p.calc p.minSpeed mods (inp.withRate (m * p.std))
  let hi := p.first (fun s => s.maxRate s.minSpeed) * p.density inp.suction
  if (atMin hi).within then atMin hi else atMin (maximizeX eps 50 eps hi fun x => (atMin x).within)

/-- `within_capacity` of an evaluation (compressor_train_common_shaft.py:342-350, 509); a train without flow is within
capacity, and an error counts as not. -/
def Plant.takes (p : Plant σ) (root : Root) (densityOf : σ → ℚ → ℚ) (st : State) (inp : Input) : Bool :=
  match p.evaluate root densityOf none none st inp with
  | .ok (some r, _) => r.within
  | .ok (Option.none, _) => true
  | .error _ => false

/-- The mass rate found before the power limit (compressor_train_common_shaft.py:394-562), without anti-surge valve
(`allow_asv` is never set). The first result is an early return of a rate, the second a mass rate. The chart of the first
stage gives the flow at its own speed limits, the train is run at the common ones. -/
def Plant.maxMass (p : Plant σ) (root : Root) (densityOf : σ → ℚ → ℚ) (st : State) (inp : Input) :
    Except Err (ℚ ⊕ ℚ) :=
  let mods := st.mods
  let d := p.density inp.suction
  let atMax := fun m => p.calc p.maxSpeed mods (inp.withRate (m * p.std))
  let lo := p.first (fun s => s.minRate s.maxSpeed) * d
  let hi := p.first (fun s => s.maxRate s.maxSpeed) * d
  if !(atMax lo).within then .ok (.inl 0)
  else
    let most := p.mostMass mods inp
    if (atMax lo).pout < inp.discharge then .ok (.inl 0)
    else if inp.discharge ≥ (atMax most).pout then
      .ok (.inr (root lo most (fun x => (atMax x).pout - inp.discharge) * (1 - tol)))
    else if p.control = some .downstreamChoke then .ok (.inr (most * (1 - tol)))
    else if p.control = some .upstreamChoke then
      .ok (.inr (maximizeX tol 20 0 hi fun x => p.takes root densityOf st (inp.withRate (x * p.std))))
    else
      let slowest := p.slowest mods inp
      if (atMax most).pout ≥ inp.discharge ∧ inp.discharge ≥ slowest.pout then
        let v := root p.minSpeed p.maxSpeed fun x => (p.stoneWall mods inp x).pout - inp.discharge
        .ok (.inr (((p.stoneWall mods inp v).stages.head?.map (·.mass)).getD 0 * (1 - tol)))
      else if slowest.pout > inp.discharge then .ok (.inl 0)
      else .error .programmingError

/-- `power_megawatt` of an evaluation; a train without flow uses none. -/
def Plant.powerAt (p : Plant σ) (root : Root) (densityOf : σ → ℚ → ℚ) (st : State) (inp : Input) : Except Err ℚ := do
  let (r, _) ← p.evaluate root densityOf none none st inp
  return (r.map (·.power)).getD 0

/-- `_get_max_std_rate_single_timestep` (compressor_train_common_shaft.py:289-611). The root of the power is taken of the
function with errors replaced by 0. -/
def Plant.maxRate (p : Plant σ) (root : Root) (densityOf : σ → ℚ → ℚ) (st : State) (inp : Input) : Except Err ℚ := do
  let found ← p.maxMass root densityOf st inp
  match found with
  | .inl rate => return rate
  | .inr mass =>
    match p.maxPower with
    | none => return mass * p.std
    | some limit =>
      if limit = 0 then return mass * p.std
      else do
        let power ← p.powerAt root densityOf st (inp.withRate (mass * p.std))
        if power > limit then do
          let (least, _) ← p.evaluate root densityOf none none st (inp.withRate eps)
          match least with
          | Option.none => .error .indexError
          | some r =>
            if r.power > limit then return 0
            else
              let from_ := (r.stages.head?.map (·.massAsv)).getD 0
              let m := root from_ mass fun x =>
                match p.powerAt root densityOf st (inp.withRate (x * p.std)) with
                | .ok v => v - limit * (1 - tol)
                | .error _ => 0
              return m * p.std
        else return mass * p.std

end Verif.Train
