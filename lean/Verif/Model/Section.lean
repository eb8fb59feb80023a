import Verif.Model.Finders
import Verif.Model.Solver

/-!
# Model of the solver for one section of a process pipeline

`src/libecalc/process/process_solver/`: `process_pipeline_runner.py`, `anti_surge/*.py`, `pressure_control/*.py`,
`pipeline_section_solver.py` and the choice of strategies in `solver_assembly.py`.

The units of a section are the ones of `Verif.Model.ProcessUnits`. What the configuration handlers (shaft,
recirculation loops, choke) are set to is a function from handlers to numbers, the *settings*; it is threaded through
the code as the mutable state it is. A handler that does not know a configuration, or a choke given a negative pressure
drop, raises in the code (see C40, C41); here a setting is only stored. A shaft without speed does not occur: every run
of the solvers is preceded by setting the speed.

Finders run many simulations. Each of them starts with setting or resetting everything it depends on (proved in C73),
so the simulation handed to a finder is the one from the settings at the call. What the finder leaves behind in the
handlers it varies depends on the points it tried last; where this is overwritten before it is used it is taken from
an arbitrary function, the *remains*. Where it is used, the last point tried is computed.

Ids of units, sections and pipelines in failures are left out.
-/

namespace Verif.Section
open Verif.Process Verif.Finders Verif.Solver

variable {κ : Type} [DecidableEq κ]

/-! ## Settings -/

/-- What each configuration handler is set to: speed, recirculation rate or pressure drop. -/
abbrev Settings (κ : Type) := κ → ℚ

/-- `ProcessRunner.apply_configuration` (process_pipeline_runner.py:26-28). -/
def Settings.put (st : Settings κ) (k : κ) (v : ℚ) : Settings κ := fun j => if j = k then v else st j

/-- A configuration of this model. -/
abbrev Conf (κ : Type) := Configuration κ ℚ

/-- `ProcessRunner.apply_configurations` (process_runner.py:30-32). -/
def applyAll : List (Conf κ) → Settings κ → Settings κ
  | [], st => st
  | c :: cs, st => applyAll cs (st.put c.handler c.value)

/-- `reset_configuration_handler` for each of some handlers (process_pipeline_runner.py:30-31): loops and chokes are
reset to 0 (recirculation_loop.py:44-45, choke_configuration_handler.py:36-37). -/
def resetAll : List κ → Settings κ → Settings κ
  | [], st => st
  | k :: ks, st => resetAll ks (st.put k 0)

/-- Settings whose values at some handlers are the remains of a search. -/
def leave (remains : Settings κ) (ks : List κ) (st : Settings κ) : Settings κ :=
  fun k => if k ∈ ks then remains k else st k

/-! ## Sections -/

/-- A place in the list of units of a section. -/
inductive Slot (κ : Type) where
  | fixed (u : ProcUnit)
  | mix (loop : κ)
  | split (loop : κ)
  | choke (handler : κ)
  | comp (c : Compressor)

/-- The pressure control types (pressure_control_strategy.py) with the handlers they need. -/
inductive Control (κ : Type) where
  | downstreamChoke (choke : κ)
  | upstreamChoke (choke : κ)
  | commonAsv (loop : κ)
  | asvRate
  | asvPressure
  deriving DecidableEq

/-- `PipelineSection` (pipeline_section.py:13-36) with what its runner and strategies hold (solver_assembly.py). `loops`
are the recirculation loops of the compressors, in order; with a common loop they are not used. -/
structure Sec (κ : Type) where
  slots : List (Slot κ)
  loops : List κ
  shaft : κ
  bound : Boundary
  control : Control κ

/-- The unit at a place, for given settings. -/
def Slot.unit (shaft : κ) (st : Settings κ) : Slot κ → ProcUnit
  | .fixed u => u
  | .mix l => .directMixer (st l)
  | .split l => .directSplitter (st l)
  | .choke h => .choke (st h)
  | .comp c => .compressor { c with speed := some (st shaft) }

/-- The units in front of the `i`-th compressor, and that compressor. -/
def before : List (Slot κ) → Nat → Option (List (Slot κ) × Compressor)
  | [], _ => none
  | .comp c :: _, 0 => some ([], c)
  | .comp c :: rest, i + 1 => (before rest i).map fun r => (.comp c :: r.1, r.2)
  | u :: rest, i => (before rest i).map fun r => (u :: r.1, r.2)

/-- `ProcessPipelineRunner.run` without `to_id` (process_pipeline_runner.py:50-58). -/
def Sec.run (svc : Service) (sec : Sec κ) (st : Settings κ) (s : Stream) : Except PErr Stream :=
  runUnits svc (sec.slots.map (Slot.unit sec.shaft st)) s

/-- The outlet pressure of a run. -/
def Sec.pressure (svc : Service) (sec : Sec κ) (st : Settings κ) (s : Stream) : Except PErr ℚ :=
  (sec.run svc st s).map (·.props.pressure)

/-- `run(to_id=compressor)` (process_pipeline_runner.py:36-56): the compressor and its inlet stream. -/
def Sec.runTo (svc : Service) (sec : Sec κ) (st : Settings κ) (s : Stream) (i : Nat) :
    Except PErr (Compressor × Stream) :=
  match before sec.slots i with
  | none => .error .assertion
  | some (pre, c) => do
    let t ← runUnits svc (pre.map (Slot.unit sec.shaft st)) s
    return ({ c with speed := some (st sec.shaft) }, t)

/-- `run(to_id=compressor)` followed by `compressor.get_recirculation_range`. -/
def Sec.range (svc : Service) (sec : Sec κ) (st : Settings κ) (s : Stream) (i : Nat) : Except PErr Boundary := do
  let r ← sec.runTo svc st s i
  r.1.recircRange svc r.2

/-- `run(to_id=compressor)` followed by `compressor.propagate_stream`: the pressure behind the compressor. -/
def Sec.stage (svc : Service) (sec : Sec κ) (st : Settings κ) (s : Stream) (i : Nat) : Except PErr ℚ := do
  let r ← sec.runTo svc st s i
  let o ← r.1.propagate r.2
  return o.props.pressure

/-! ## Failures -/

/-- `SolverFailure` (solver.py:33-160). -/
inductive SFailure where
  | finding (f : Failure)
  | convergence
  | liquid
  | offtake (available demanded : ℚ)
  deriving DecidableEq, Repr

/-- `except DidNotConvergeError` and `except ProcessError` with `process_error_to_failure` (solver.py:121-140;
pipeline_section_solver.py:95-101): the failure for the exceptions that are caught. -/
def caught : PErr → Option SFailure
  | .surge a b => some (.finding (.surge a b))
  | .stonewall a b => some (.finding (.stonewall a b))
  | .liquid => some .liquid
  | .offtake a b => some (.offtake a b)
  | .insufficient a b => some (.finding (.insufficient a b))
  | .thermo => some (.finding .thermo)
  | .notConverged => some .convergence
  | _ => none

/-- A solution of this model. -/
abbrev Sol (κ : Type) := Solution κ ℚ SFailure

/-- The root finder and the last point at which it evaluated the function. -/
structure Roots where
  find : RootFinder
  last : Boundary → Sim → ℚ

/-! ## Anti-surge -/

/-- The loop over the recirculation loops and compressors in `IndividualASVAntiSurgeStrategy.apply`
(individual_asv.py:48-58; `pick` is the lower end), `compute_minimum_achievable_pressure` (pressure_control/
individual_asv.py:209-216; the upper end) and `_get_configurations_from_fraction` (pressure_control/
individual_asv.py:140-151; a point in between). -/
def sweep (svc : Service) (sec : Sec κ) (s : Stream) (pick : Boundary → ℚ) :
    Nat → List κ → Settings κ → Except PErr (List (Conf κ)) × Settings κ
  | _, [], st => (.ok [], st)
  | i, l :: ls, st =>
    match sec.range svc st s i with
    | .error e => (.error e, st)
    | .ok b =>
      match sweep svc sec s pick (i + 1) ls (st.put l (pick b)) with
      | (.error e, st') => (.error e, st')
      | (.ok cs, st') => (.ok (⟨l, pick b⟩ :: cs), st')

/-- `IndividualASVAntiSurgeStrategy.apply` (anti_surge/individual_asv.py:44-62). -/
def individualAntiSurge (svc : Service) (sec : Sec κ) (s : Stream) (st : Settings κ) : Except PErr (Sol κ) × Settings κ :=
  match sweep svc sec s (·.min) 0 sec.loops (resetAll sec.loops st) with
  | (.error e, st') => (.error e, st')
  | (.ok cs, st') => (.ok ⟨cs, none⟩, st')

/-- `CommonASVAntiSurgeStrategy.apply` (anti_surge/common_asv.py:45-79). -/
def commonAntiSurge (svc : Service) (roots : Roots) (remains : Settings κ) (sec : Sec κ) (l : κ) (s : Stream)
    (st : Settings κ) : Except PErr (Sol κ) × Settings κ :=
  match sec.range svc (st.put l 0) s 0 with
  | .error e => (.error e, st.put l 0)
  | .ok b =>
    match findRecirc (1 / 100) 20 roots.find b none (fun x => sec.pressure svc (st.put l x) s) with
    | .error e => (.error e, leave remains [l] st)
    | .ok fd => (.ok ⟨[⟨l, fd.config⟩], fd.failure.map .finding⟩, leave remains [l] st)

/-- The handlers of the anti-surge strategy (solver_assembly.py:148-177). -/
def Sec.surgeHandlers (sec : Sec κ) : List κ :=
  match sec.control with
  | .commonAsv l => [l]
  | _ => sec.loops

/-- `AntiSurgeStrategy.apply` (solver_assembly.py:148-177 for the choice of the strategy). -/
def Sec.antiSurge (svc : Service) (roots : Roots) (remains : Settings κ) (sec : Sec κ) (s : Stream) (st : Settings κ) :
    Except PErr (Sol κ) × Settings κ :=
  match sec.control with
  | .commonAsv l => commonAntiSurge svc roots remains sec l s st
  | _ => individualAntiSurge svc sec s st

/-! ## Pressure control -/

/-- The handlers of the pressure control strategy, reset by `reset` (downstream_choke.py:31-32, upstream_choke.py:49-50,
common_asv.py:39-40, individual_asv.py:44-46 and 129-131). -/
def Sec.controlHandlers (sec : Sec κ) : List κ :=
  match sec.control with
  | .downstreamChoke c => [c]
  | .upstreamChoke c => [c]
  | .commonAsv l => [l]
  | _ => sec.loops

/-- `DownstreamChokePressureControlStrategy.apply` (downstream_choke.py:34-77). The last run is always the one without
choking. -/
def controlDownstream (svc : Service) (sec : Sec κ) (c : κ) (value tol : ℚ) (s : Stream) (st : Settings κ) :
    Except PErr (Sol κ) × Settings κ :=
  match applyDownstream value tol (fun x => sec.pressure svc (st.put c x) s) with
  | .error e => (.error e, st.put c 0)
  | .ok fd => (.ok ⟨[⟨c, fd.config⟩], fd.failure.map .finding⟩, st.put c 0)

/-- `choke_func` (upstream_choke.py:70-78): the outlet pressure, the anti-surge configurations and the settings left. -/
def chokeFunc (svc : Service) (roots : Roots) (remains : Settings κ) (sec : Sec κ) (c : κ) (s : Stream)
    (st : Settings κ) (x : ℚ) : Except PErr ℚ × Except PErr (List (Conf κ)) × Settings κ :=
  match sec.antiSurge svc roots remains s (st.put c x) with
  | (.error e, st') => (.error e, .error e, st')
  | (.ok sol, st') =>
    (sec.pressure svc (applyAll sol.configuration st') s, .ok sol.configuration, applyAll sol.configuration st')

/-- The last point tried by `UpstreamChokeDeltaPressureFinder.find` when it returns (choke_delta_pressure_finders.py:
36-87). -/
def upstreamLast (roots : Roots) (target : ℚ) (b : Boundary) (f : Sim) (fd : Finding) : ℚ :=
  match fd.failure, chokeSearchMax b f with
  | none, .ok (searchMax, _) => roots.last ⟨b.min, searchMax⟩ (fun x => (f x).map (· - target))
  | _, _ => fd.config

/-- `delta_pressure_boundary` (upstream_choke.py:59-62). -/
def upstreamBound (s : Stream) : Boundary := ⟨pressureTol, s.props.pressure - pressureTol⟩

/-- `UpstreamChokePressureControlStrategy.apply` (upstream_choke.py:52-87). -/
def controlUpstream (svc : Service) (roots : Roots) (remains : Settings κ) (sec : Sec κ) (c : κ) (value : ℚ) (s : Stream)
    (st : Settings κ) : Except PErr (Sol κ) × Settings κ :=
  match findUpstream roots.find value (upstreamBound s) (fun x => (chokeFunc svc roots remains sec c s st x).1) with
  | .error e => (.error e, leave remains (c :: sec.surgeHandlers) st)
  | .ok fd =>
    match chokeFunc svc roots remains sec c s st
        (upstreamLast roots value (upstreamBound s) (fun x => (chokeFunc svc roots remains sec c s st x).1) fd) with
    | (_, .error e, st') => (.error e, st')
    | (_, .ok cs, st') => (.ok ⟨cs ++ [⟨c, fd.config⟩], fd.failure.map .finding⟩, st')

/-- `CommonASVPressureControlStrategy.apply` (pressure_control/common_asv.py:42-74). -/
def controlCommon (svc : Service) (roots : Roots) (remains : Settings κ) (sec : Sec κ) (l : κ) (value tol : ℚ)
    (s : Stream) (st : Settings κ) : Except PErr (Sol κ) × Settings κ :=
  match sec.range svc (st.put l 0) s 0 with
  | .error e => (.error e, st.put l 0)
  | .ok b =>
    match findRecirc (1 / 100) 20 roots.find b (some (value, tol)) (fun x => sec.pressure svc (st.put l x) s) with
    | .error e => (.error e, leave remains [l] st)
    | .ok fd => (.ok ⟨[⟨l, fd.config⟩], fd.failure.map .finding⟩, leave remains [l] st)

/-- `compute_minimum_achievable_pressure` (pressure_control/individual_asv.py:198-221) on loops set to 0. -/
def minAchievable (svc : Service) (sec : Sec κ) (s : Stream) (st : Settings κ) :
    Except PErr (List (Conf κ) × ℚ) × Settings κ :=
  match sweep svc sec s (·.max) 0 sec.loops st with
  | (.error e, st') => (.error e, st')
  | (.ok cs, st') =>
    match sec.pressure svc st' s with
    | .error e => (.error e, st')
    | .ok p => (.ok (cs, p), resetAll sec.loops st')

/-- `boundary.min + asv_rate_fraction * (boundary.max - boundary.min)` (pressure_control/individual_asv.py:144). -/
def atFraction (x : ℚ) (b : Boundary) : ℚ := b.min + x * (b.max - b.min)

/-- `_get_configurations_from_fraction` (pressure_control/individual_asv.py:133-151). -/
def fromFraction (svc : Service) (sec : Sec κ) (s : Stream) (st : Settings κ) (x : ℚ) :
    Except PErr (List (Conf κ)) × Settings κ :=
  sweep svc sec s (atFraction x) 0 sec.loops (resetAll sec.loops st)

/-- `get_outlet_stream` (pressure_control/individual_asv.py:173-179). -/
def outletAt (svc : Service) (sec : Sec κ) (s : Stream) (st : Settings κ) (x : ℚ) : Except PErr ℚ :=
  match fromFraction svc sec s st x with
  | (.error e, _) => .error e
  | (.ok cs, st') => sec.pressure svc (applyAll cs st') s

/-- `IndividualASVRateControlStrategy.apply` (pressure_control/individual_asv.py:153-195). -/
def controlRate (svc : Service) (roots : Roots) (remains : Settings κ) (sec : Sec κ) (value : ℚ) (s : Stream)
    (st : Settings κ) : Except PErr (Sol κ) × Settings κ :=
  match minAchievable svc sec s (resetAll sec.loops st) with
  | (.error e, st') => (.error e, st')
  | (.ok (cs, p), st') =>
    if p > value then (.ok ⟨cs, some (.finding (.unreachable p value true))⟩, st')
    else
      match roots.find ⟨0, 1⟩ (fun x => (outletAt svc sec s st' x).map (· - value)) with
      | .error e => (.error e, leave remains sec.loops st')
      | .ok x =>
        match fromFraction svc sec s st' x with
        | (.error e, st'') => (.error e, st'')
        | (.ok cs, st'') => (.ok ⟨cs, none⟩, st'')

/-- The last point tried by `RecirculationLoopRateFinder.find` when it returns a solution for a target pressure
(recirculation_loop_rate_finder.py:36-91). -/
def recircLast (roots : Roots) (b : Boundary) (value : ℚ) (f : Sim) (fd : Finding) : ℚ :=
  match recircMin (1 / 100) 20 b f, recircMax (1 / 100) 20 b f with
  | .ok lo, .ok hi =>
    match f lo, f hi with
    | .ok pLo, .ok pHi =>
      if close value pressureTol pLo || close value pressureTol pHi then fd.config
      else roots.last ⟨lo, hi⟩ (fun x => (f x).map (· - value))
    | _, _ => fd.config
  | _, _ => fd.config

/-- The loop over the stages in `IndividualASVPressureControlStrategy.apply` (pressure_control/individual_asv.py:71-106);
`target i` is the pressure wanted behind compressor `i`. The configuration found for a stage is not applied: its loop
keeps the rate tried last. -/
def stages (svc : Service) (roots : Roots) (remains : Settings κ) (sec : Sec κ) (target : Nat → ℚ) (s : Stream) :
    Nat → List κ → List (Conf κ) → Settings κ → Except PErr (Sol κ) × Settings κ
  | _, [], acc, st => (.ok ⟨acc, none⟩, st)
  | i, l :: ls, acc, st =>
    match sec.range svc st s i with
    | .error e => (.error e, st)
    | .ok b =>
      match findRecirc (1 / 100) 20 roots.find b (some (target i, pressureTol)) (fun x => sec.stage svc (st.put l x) s i) with
      | .error e => (.error e, leave remains [l] st)
      | .ok ⟨_, some fl⟩ => (.ok ⟨acc, some (.finding fl)⟩, leave remains [l] st)
      | .ok ⟨x, none⟩ =>
        stages svc roots remains sec target s (i + 1) ls (acc ++ [⟨l, x⟩])
          (st.put l (recircLast roots b (target i) (fun x => sec.stage svc (st.put l x) s i) ⟨x, none⟩))

/-- `inlet_stream.pressure_bara * (pressure_ratio_per_stage ** (i + 1))` (pressure_control/individual_asv.py:69, 74);
`ratio r n` is `r ** (1.0 / n)`. -/
def stageTarget (ratio : ℚ → Nat → ℚ) (value : ℚ) (s : Stream) (n i : Nat) : ℚ :=
  s.props.pressure * ratio (value / s.props.pressure) n ^ (i + 1)

/-- `IndividualASVPressureControlStrategy.apply` (pressure_control/individual_asv.py:48-106). -/
def controlPressure (svc : Service) (roots : Roots) (ratio : ℚ → Nat → ℚ) (remains : Settings κ) (sec : Sec κ)
    (value : ℚ) (s : Stream) (st : Settings κ) : Except PErr (Sol κ) × Settings κ :=
  match minAchievable svc sec s (resetAll sec.loops st) with
  | (.error e, st') => (.error e, st')
  | (.ok (cs, p), st') =>
    if p > value then (.ok ⟨cs, some (.finding (.unreachable p value true))⟩, st')
    else stages svc roots remains sec (stageTarget ratio value s sec.loops.length) s 0 sec.loops [] st'

/-- What the strategies need from outside: the fluid service, the root finder, `x ** (1.0 / n)`, and the remains of
searches. -/
structure Env (κ : Type) where
  svc : Service
  roots : Roots
  ratio : ℚ → Nat → ℚ
  remains : Settings κ

/-- `PressureControlStrategy.apply` (solver_assembly.py:180-229 for the choice of the strategy). -/
def Sec.controlPressure (env : Env κ) (sec : Sec κ) (value tol : ℚ) (s : Stream) (st : Settings κ) :
    Except PErr (Sol κ) × Settings κ :=
  match sec.control with
  | .downstreamChoke c => controlDownstream env.svc sec c value tol s st
  | .upstreamChoke c => controlUpstream env.svc env.roots env.remains sec c value s st
  | .commonAsv l => controlCommon env.svc env.roots env.remains sec l value tol s st
  | .asvRate => controlRate env.svc env.roots env.remains sec value s st
  | .asvPressure => Section.controlPressure env.svc env.roots env.ratio env.remains sec value s st

/-! ## The section solver -/

/-- `speed_func` (pipeline_section_solver.py:56-66): the outlet pressure and the settings left. -/
def speedFunc (env : Env κ) (sec : Sec κ) (s : Stream) (st : Settings κ) (x : ℚ) : Except PErr ℚ × Settings κ :=
  let st1 := (resetAll sec.surgeHandlers st).put sec.shaft x
  match sec.pressure env.svc st1 s with
  | .ok p => (.ok p, st1)
  | .error (.surge _ _) =>
    match sec.antiSurge env.svc env.roots env.remains s st1 with
    | (.error e, st2) => (.error e, st2)
    | (.ok sol, st2) => (sec.pressure env.svc (applyAll sol.configuration st2) s, applyAll sol.configuration st2)
  | .error e => (.error e, st1)

/-- The failures of the speed search that are returned at once (pipeline_section_solver.py:115-124). -/
def isFatal : Option Failure → Bool
  | some (.stonewall _ _) => true
  | some (.surge _ _) => true
  | some .thermo => true
  | some (.insufficient _ _) => true
  | _ => false

/-- `TargetPressureUnreachableFailure` with `MAX_BELOW_TARGET` (pipeline_section_solver.py:137-139). -/
def isTooLow : Option Failure → Bool
  | some (.unreachable _ _ above) => !above
  | _ => false

/-- The end of `_find_solution` (pipeline_section_solver.py:143-163): speed and anti-surge are configured. -/
def finish (env : Env κ) (sec : Sec κ) (value tol : ℚ) (s : Stream) (confs : List (Conf κ)) (st : Settings κ) :
    Except PErr (Sol κ) × Settings κ :=
  match sec.run env.svc (applyAll confs st) s with
  | .error e => (.error e, applyAll confs st)
  | .ok o =>
    if close value tol o.props.pressure then (.ok ⟨confs, none⟩, applyAll confs st)
    else
      match sec.controlPressure env value tol s (applyAll confs st) with
      | (.error e, st') => (.error e, st')
      | (.ok pc, st') => (.ok ⟨mergeConfigurations confs pc.configuration, pc.failure⟩, st')

/-- `_find_solution` after the speed search (pipeline_section_solver.py:110-163). -/
def afterSpeed (env : Env κ) (sec : Sec κ) (value tol : ℚ) (s : Stream) (fd : Finding) (st : Settings κ) :
    Except PErr (Sol κ) × Settings κ :=
  if isFatal fd.failure then (.ok ⟨[⟨sec.shaft, fd.config⟩], fd.failure.map .finding⟩, st)
  else
    match sec.antiSurge env.svc env.roots env.remains s (st.put sec.shaft fd.config) with
    | (.error e, st') => (.error e, st')
    | (.ok sol, st') =>
      if !sol.success then (.ok ⟨⟨sec.shaft, fd.config⟩ :: sol.configuration, sol.failure⟩, st')
      else if isTooLow fd.failure then
        (.ok ⟨⟨sec.shaft, fd.config⟩ :: sol.configuration, fd.failure.map .finding⟩, st')
      else finish env sec value tol s (⟨sec.shaft, fd.config⟩ :: sol.configuration) st'

/-- `_find_speed_solution` (pipeline_section_solver.py:42-68). -/
def findSpeedSolution (env : Env κ) (sec : Sec κ) (value : ℚ) (s : Stream) (st : Settings κ) : Except PErr Finding :=
  findSpeed (1 / 100000) 20 env.roots.find value (fun x => (speedFunc env sec s st x).1) 2 sec.bound

/-- `_find_solution` (pipeline_section_solver.py:103-163). -/
def findSolutionE (env : Env κ) (sec : Sec κ) (value tol : ℚ) (s : Stream) (st : Settings κ) :
    Except PErr (Sol κ) × Settings κ :=
  let st0 := resetAll sec.controlHandlers st
  let st1 := leave env.remains (sec.shaft :: sec.surgeHandlers) st0
  match findSpeedSolution env sec value s st0 with
  | .error e => (.error e, st1)
  | .ok fd => afterSpeed env sec value tol s fd st1

/-- `PipelineSectionSolver.find_solution` (pipeline_section_solver.py:74-101). -/
def findSolution (env : Env κ) (sec : Sec κ) (value tol : ℚ) (s : Stream) (st : Settings κ) :
    Except PErr (Sol κ) × Settings κ :=
  match findSolutionE env sec value tol s st with
  | (.ok sol, st') => (.ok sol, st')
  | (.error e, st') =>
    match caught e with
    | some fl => (.ok ⟨[⟨sec.shaft, sec.bound.min⟩], some fl⟩, st')
    | none => (.error e, st')

end Verif.Section
