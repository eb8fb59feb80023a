import Verif.Model.ProcessUnits
import Verif.Model.Search
import Mathlib.Algebra.Order.Floor.Semiring
import Mathlib.Data.Rat.Floor

/-!
# Model of the finders of the process solver

`src/libecalc/process/process_solver/finders/*.py`, the parts of `search_strategies.py` they use and
`pressure_control/downstream_choke.py`.

A simulation is a function from the setting (pressure drop, recirculation rate, speed) to the outlet pressure or an
exception; the root finder (`scipy.optimize.root_scalar`) is a parameter. The searches of `Verif.Model.Search` are
repeated here for probes that may raise.
-/

namespace Verif.Finders
open Verif.Process Verif.Search

/-- A simulation: outlet pressure for a setting. -/
abbrev Sim := ℚ → Except PErr ℚ

/-- The failures used by the finders (solver.py). `unreachable achievable target above`: the direction is
`MIN_ABOVE_TARGET` when `above`, else `MAX_BELOW_TARGET`. -/
inductive Failure where
  | stonewall (actual boundary : ℚ)
  | surge (actual boundary : ℚ)
  | insufficient (inlet required : ℚ)
  | thermo
  | unreachable (achievable target : ℚ) (above : Bool)
  deriving DecidableEq, Repr

/-- `Finding` (finder.py). -/
structure Finding where
  config : ℚ
  failure : Option Failure
  deriving DecidableEq, Repr

/-- `RootFindingStrategy.find_root` (search_strategies.py:129-135). -/
abbrev RootFinder := Boundary → Sim → Except PErr ℚ

/-! ## Bisection with probes that may raise -/

/-- `Bisect._bisect` (search_strategies.py:53-73): see `Verif.Search.bisectLoop`. -/
def bisectLoopE (tol : ℚ) (probe : ℚ → Except PErr Probe) : Nat → BisectState → Except PErr BisectState
  | 0, s => .ok s
  | n + 1, s =>
    match probe ((s.lo + s.hi) / 2) with
    | .error e => .error e
    | .ok r =>
      let s' := bisectStep (fun _ => r) s
      if relDiff s'.lo s'.hi < tol then .ok s' else bisectLoopE tol probe n s'

/-- `Bisect.search` (search_strategies.py:75-93). -/
def searchE (tol : ℚ) (maxIter : Nat) (b : Boundary) (probe : ℚ → Except PErr Probe) : Except PErr ℚ := do
  let s ← bisectLoopE tol probe maxIter ⟨b.min, b.max, none, []⟩
  match s.last with
  | none => .error .notConverged
  | some x => .ok x

/-! ## Choke pressure drop -/

/-- `PRESSURE_CALCULATION_TOLERANCE` (domain/process/compressor/core/train/utils/common.py). -/
def pressureTol : ℚ := 1 / 1000

/-- The errors caught by the upstream finder (choke_delta_pressure_finders.py:52, 60). -/
def isCapacity : PErr → Bool
  | .stonewall _ _ => true
  | .insufficient _ _ => true
  | _ => false

/-- The while loop (choke_delta_pressure_finders.py:55-62): the last bracket and the last error. -/
def chokeLoop (f : Sim) : Nat → ℚ → ℚ → PErr → Except PErr (ℚ × ℚ × PErr)
  | 0, lo, hi, e => .ok (lo, hi, e)
  | n + 1, lo, hi, e =>
    if hi - lo > pressureTol then
      match f ((lo + hi) / 2) with
      | .ok _ => chokeLoop f n ((lo + hi) / 2) hi e
      | .error e' => if isCapacity e' then chokeLoop f n lo ((lo + hi) / 2) e' else .error e'
    else .ok (lo, hi, e)

/-- A number of passes after which the loop has ended (proved in C40). -/
def chokeFuel (b : Boundary) : Nat := ⌈(b.max - b.min) / pressureTol⌉₊

/-- `CompressorStonewallFailure.from_error` / `InsufficientInletPressureFailure.from_error`. -/
def failureOf : PErr → Except PErr Failure
  | .stonewall a b => .ok (.stonewall a b)
  | .insufficient a b => .ok (.insufficient a b)
  | e => .error e

/-- `search_max` and `capacity_error` (choke_delta_pressure_finders.py:48-63). -/
def chokeSearchMax (b : Boundary) (f : Sim) : Except PErr (ℚ × Option PErr) :=
  match f b.max with
  | .ok _ => .ok (b.max, none)
  | .error e =>
    if isCapacity e then do
      let (lo, _, e') ← chokeLoop f (chokeFuel b) b.min b.max e
      return (lo, some e')
    else .error e

/-- `UpstreamChokeDeltaPressureFinder.find` (choke_delta_pressure_finders.py:36-87). -/
def findUpstream (root : RootFinder) (target : ℚ) (b : Boundary) (f : Sim) : Except PErr Finding := do
  let p0 ← f 0
  if p0 > target then do
    let (searchMax, capErr) ← chokeSearchMax b f
    let maxPressure ← f searchMax
    if maxPressure > target then
      match capErr with
      | some e => do
        let fl ← failureOf e
        return ⟨searchMax, some fl⟩
      | none => return ⟨searchMax, some (.unreachable maxPressure target true)⟩
    else do
      let dp ← root ⟨b.min, searchMax⟩ (fun x => (f x).map (· - target))
      return ⟨dp, none⟩
  else .error .assertion

/-- `DownstreamChokeDeltaPressureFinder.find` (choke_delta_pressure_finders.py:90-110). -/
def findDownstream (target : ℚ) (f : Sim) : Except PErr Finding := do
  let p ← f 0
  if p < target then return ⟨0, some (.unreachable p target false)⟩
  else return ⟨p - target, none⟩

/-- `FloatConstraint.__eq__` for finite numbers and a tolerance that is not negative (float_constraint.py; see C39). -/
def close (v tol p : ℚ) : Bool := decide (|p - v| ≤ tol)

/-- `DownstreamChokePressureControlStrategy.apply` (downstream_choke.py:37-79); the simulation is the pipeline run
with the choke at the given pressure drop. The test `baseline <= target` is the reflected `target >= baseline`. -/
def applyDownstream (value tol : ℚ) (f : Sim) : Except PErr Finding := do
  let p ← f 0
  if (!close value tol p && decide (value > p)) || close value tol p then
    if close value tol p then return ⟨0, none⟩
    else return ⟨0, some (.unreachable p value false)⟩
  else findDownstream value f

/-! ## Recirculation rate -/

/-- `RecirculationLoopRateFinder._bool_func` (recirculation_loop_rate_finder.py:124-141). -/
def recircProbe (minimize : Bool) (f : Sim) (x : ℚ) : Except PErr Probe :=
  match f x with
  | .ok _ => .ok ⟨!minimize, true⟩
  | .error (.surge _ _) => .ok ⟨true, false⟩
  | .error (.stonewall _ _) => .ok ⟨false, false⟩
  | .error (.insufficient _ _) => .ok ⟨false, false⟩
  | .error e => .error e

/-- `_find_min_within_capacity_rate` (recirculation_loop_rate_finder.py:93-107). -/
def recircMin (tol : ℚ) (n : Nat) (b : Boundary) (f : Sim) : Except PErr ℚ :=
  match f b.min with
  | .ok _ => .ok b.min
  | .error (.surge _ _) => searchE tol n b (recircProbe true f)
  | .error e => .error e

/-- `_find_max_within_capacity_rate` (recirculation_loop_rate_finder.py:109-122). -/
def recircMax (tol : ℚ) (n : Nat) (b : Boundary) (f : Sim) : Except PErr ℚ :=
  match f b.max with
  | .ok _ => .ok b.max
  | .error (.stonewall _ _) => searchE tol n b (recircProbe false f)
  | .error e => .error e

/-- The part of `find` after the smallest rate is known (recirculation_loop_rate_finder.py:57-91). -/
def recircTarget (tol : ℚ) (n : Nat) (root : RootFinder) (b : Boundary) (value ptol : ℚ) (f : Sim) (lo : ℚ) :
    Except PErr Finding := do
  let hi ← recircMax tol n b f
  let pLo ← f lo
  if !close value ptol pLo && decide (value > pLo) then return ⟨lo, some (.unreachable pLo value false)⟩
  else if close value ptol pLo then return ⟨lo, none⟩
  else do
    let pHi ← f hi
    if close value ptol pHi then return ⟨hi, none⟩
    else if !close value ptol pHi && decide (value < pHi) then return ⟨hi, some (.unreachable pHi value true)⟩
    else do
      let x ← root ⟨lo, hi⟩ (fun x => (f x).map (· - value))
      return ⟨x, none⟩

/-- `RecirculationLoopRateFinder.find` (recirculation_loop_rate_finder.py:36-91). `target`: value and tolerance. -/
def findRecirc (tol : ℚ) (n : Nat) (root : RootFinder) (b : Boundary) (target : Option (ℚ × ℚ)) (f : Sim) :
    Except PErr Finding :=
  match recircMin tol n b f with
  | .error (.stonewall x y) => .ok ⟨b.min, some (.stonewall x y)⟩
  | .error (.insufficient x y) => .ok ⟨b.min, some (.insufficient x y)⟩
  | .error e => .error e
  | .ok lo =>
    match target with
    | none => .ok ⟨lo, none⟩
    | some (value, ptol) => recircTarget tol n root b value ptol f lo

/-! ## Shaft speed -/

/-- `_eos_ok` (shaft_speed_finder.py:132-143). Other exceptions escape. -/
def eosOk (f : Sim) (x : ℚ) : Except PErr Bool :=
  match f x with
  | .ok _ => .ok true
  | .error .thermo => .ok false
  | .error (.stonewall _ _) => .ok false
  | .error (.surge _ _) => .ok false
  | .error (.insufficient _ _) => .ok false
  | .error e => .error e

/-- `Bisect.highest_true` (search_strategies.py:99-126) for a predicate that may raise. -/
def highestTrueE (tol : ℚ) (n : Nat) (b : Boundary) (p : ℚ → Except PErr Bool) : Except PErr (Option ℚ) := do
  let near ← p b.max
  if near then return some b.max
  else do
    let far ← p b.min
    if !far then return none
    else do
      let s ← bisectLoopE tol (fun x => (p x).map fun ok => ⟨ok, ok⟩) n ⟨b.min, b.max, none, []⟩
      match s.last with
      | some x => return some x
      | none => return some b.min

/-- `bool_speed_func` (shaft_speed_finder.py:162-173). -/
def speedProbe (f : Sim) (x : ℚ) : Except PErr Probe :=
  match f x with
  | .ok _ => .ok ⟨false, true⟩
  | .error (.stonewall _ _) => .ok ⟨true, false⟩
  | .error .thermo => .ok ⟨true, false⟩
  | .error (.insufficient _ _) => .ok ⟨true, false⟩
  | .error (.surge _ _) => .ok ⟨false, false⟩
  | .error e => .error e

/-- `_find_min_within_capacity_speed` (shaft_speed_finder.py:145-181): speed and outlet pressure. -/
def minSpeed (tol : ℚ) (n : Nat) (b : Boundary) (f : Sim) : Except PErr (ℚ × ℚ) :=
  let searchUp : Except PErr (ℚ × ℚ) := do
    let x ← searchE tol n b (speedProbe f)
    let p ← f x
    return (x, p)
  match f b.min with
  | .ok p => .ok (b.min, p)
  | .error (.stonewall _ _) => searchUp
  | .error .thermo => searchUp
  | .error (.insufficient _ _) => searchUp
  | .error e => .error e

/-- `find` after the outlet pressure at the largest speed is known (shaft_speed_finder.py:75-130). -/
def speedBelowMax (tol : ℚ) (n : Nat) (root : RootFinder) (b : Boundary) (target : ℚ) (f : Sim) (pMax : ℚ) :
    Except PErr Finding :=
  if pMax < target then .ok ⟨b.max, some (.unreachable pMax target false)⟩
  else match minSpeed tol n b f with
    | .error (.surge x y) => .ok ⟨b.min, some (.surge x y)⟩
    | .error (.stonewall x y) => .ok ⟨b.min, some (.stonewall x y)⟩
    | .error (.insufficient x y) => .ok ⟨b.min, some (.insufficient x y)⟩
    | .error e => .error e
    | .ok (lo, pLo) =>
      if pLo > target then .ok ⟨lo, some (.unreachable pLo target true)⟩
      else if pLo ≤ target ∧ target ≤ pMax then do
        let x ← root ⟨lo, b.max⟩ (fun x => (f x).map (· - target))
        return ⟨x, none⟩
      else .error .assertion

/-- `ShaftSpeedFinder.find` (shaft_speed_finder.py:40-130). The recursive call after an EOS failure is at a speed where the
simulation succeeds, so one level is enough: `fuel` counts levels, C55 proves that the second one is never left. -/
def findSpeed (tol : ℚ) (n : Nat) (root : RootFinder) (target : ℚ) (f : Sim) : Nat → Boundary → Except PErr Finding
  | 0, _ => .error .assertion
  | fuel + 1, b =>
    match f b.max with
    | .ok pMax => speedBelowMax tol n root b target f pMax
    | .error (.stonewall x y) => .ok ⟨b.max, some (.stonewall x y)⟩
    | .error (.surge x y) => .ok ⟨b.max, some (.surge x y)⟩
    | .error (.insufficient x y) => .ok ⟨b.max, some (.insufficient x y)⟩
    | .error .thermo => do
      match ← highestTrueE tol n b (eosOk f) with
      | none => return ⟨b.max, some .thermo⟩
      | some v => findSpeed tol n root target f fuel ⟨b.min, v⟩
    | .error e => .error e

end Verif.Finders
