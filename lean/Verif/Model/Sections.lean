import Verif.Model.Section

/-!
# Model of the solvers for several sections

`src/libecalc/process/process_solver/`: `multi_shaft_solver.py`, `multi_shaft_equal_ratio_solver.py` and
`multi_pressure_solver.py`.

All sections use one environment (fluid service, root finder). The runners of the sections share the settings: a
handler has one setting, whichever runner applies it. `EcalcValidationException` is written as `PErr.value`. Division by
an inlet pressure of 0 and a complex root of a negative ratio are not modelled.
-/

namespace Verif.Sections
open Verif.Process Verif.Finders Verif.Solver Verif.Section

variable {κ : Type} [DecidableEq κ]

/-- A section with its pressure target (value and tolerance). -/
structure Goal (κ : Type) where
  sec : Sec κ
  value : ℚ
  tol : ℚ

/-- `except DidNotConvergeError` and `except ProcessError` of the solvers for several sections
(multi_shaft_solver.py:43-48, multi_pressure_solver.py:79-84): the configuration is empty. -/
def guarded : Except PErr (Sol κ) × Settings κ → Except PErr (Sol κ) × Settings κ
  | (.ok sol, st) => (.ok sol, st)
  | (.error e, st) =>
    match caught e with
    | some fl => (.ok ⟨[], some fl⟩, st)
    | none => (.error e, st)

/-! ## Sections on shafts of their own -/

/-- `MultiShaftSolver._find_solution` (multi_shaft_solver.py:50-72); the list collects `all_configurations`. -/
def shaftsE (env : Env κ) : List (Goal κ) → Stream → List (Conf κ) → Settings κ → Except PErr (Sol κ) × Settings κ
  | [], _, acc, st => (.ok ⟨acc, none⟩, st)
  | g :: gs, s, acc, st =>
    match findSolution env g.sec g.value g.tol s st with
    | (.error e, st') => (.error e, st')
    | (.ok sol, st') =>
      if !sol.success then (.ok ⟨acc ++ sol.configuration, sol.failure⟩, st')
      else
        match g.sec.run env.svc (applyAll sol.configuration st') s with
        | .error e => (.error e, applyAll sol.configuration st')
        | .ok o => shaftsE env gs o (acc ++ sol.configuration) (applyAll sol.configuration st')

/-- The sections with their targets, in flow order (`zip`). -/
def goals (secs : List (Sec κ)) (targets : List (ℚ × ℚ)) : List (Goal κ) :=
  List.zipWith (fun sec t => ⟨sec, t.1, t.2⟩) secs targets

/-- `MultiShaftSolver.find_solution` (multi_shaft_solver.py:33-48). -/
def shafts (env : Env κ) (secs : List (Sec κ)) (targets : List (ℚ × ℚ)) (s : Stream) (st : Settings κ) :
    Except PErr (Sol κ) × Settings κ :=
  if targets.length ≠ secs.length then (.error .assertion, st)
  else guarded (shaftsE env (goals secs targets) s [] st)

/-- The rolling targets (multi_shaft_equal_ratio_solver.py:43-47): `current_p` is multiplied before it is used. -/
def rolling (r : ℚ) : Nat → ℚ → List ℚ
  | 0, _ => []
  | n + 1, p => p * r :: rolling r n (p * r)

/-- The targets of the sections (multi_shaft_equal_ratio_solver.py:39-48): the last one is the one asked for. -/
def ratioTargets (ratio : ℚ → Nat → ℚ) (n : Nat) (p value tol : ℚ) : List (ℚ × ℚ) :=
  ((rolling (ratio (value / p) n) n p).dropLast ++ [value]).map fun v => (v, tol)

/-- `MultiShaftEqualRatioSolver.find_solution` (multi_shaft_equal_ratio_solver.py:25-50). -/
def equalRatio (env : Env κ) (secs : List (Sec κ)) (value tol : ℚ) (s : Stream) (st : Settings κ) :
    Except PErr (Sol κ) × Settings κ :=
  if secs.length = 0 then (.ok ⟨[], none⟩, st)
  else shafts env secs (ratioTargets env.ratio secs.length s.props.pressure value tol) s st

/-! ## Sections on one shaft -/

/-- `_validate_pressure_control_placement` (multi_pressure_solver.py:51-67). -/
def placementOk (secs : List (Sec κ)) : Bool :=
  (List.range secs.length).all fun i =>
    match (secs[i]?).map Sec.control with
    | some (.upstreamChoke _) => i == 0
    | some (.downstreamChoke _) => i == secs.length - 1
    | _ => true

/-- `MultiPressureSolver.__init__` (multi_pressure_solver.py:38-49): the shaft of the sections. -/
def oneShaft : List (Sec κ) → Except PErr κ
  | [] => .error .value
  | [_] => .error .value
  | a :: b :: rest =>
    if (b :: rest).any (fun x => decide (x.shaft ≠ a.shaft)) then .error .value
    else if !placementOk (a :: b :: rest) then .error .value
    else .ok a.shaft

/-- The first pass of `_find_solution` (multi_pressure_solver.py:92-104): the speeds the sections need, or the solution
of the first section that fails. -/
def speeds (env : Env κ) (shaft : κ) : List (Goal κ) → Stream → Settings κ → Except PErr (Sol κ ⊕ List ℚ) × Settings κ
  | [], _, st => (.ok (.inr []), st)
  | g :: gs, s, st =>
    match findSolution env g.sec g.value g.tol s st with
    | (.error e, st') => (.error e, st')
    | (.ok sol, st') =>
      if !sol.success then (.ok (.inl sol), st')
      else
        match sol.getConfiguration shaft with
        | .error _ => (.error .value, st')
        | .ok n =>
          match g.sec.run env.svc (applyAll sol.configuration st') s with
          | .error e => (.error e, applyAll sol.configuration st')
          | .ok o =>
            match speeds env shaft gs o (applyAll sol.configuration st') with
            | (.ok (.inr ns), st'') => (.ok (.inr (n :: ns)), st'')
            | x => x

/-- `max` of a list that is not empty. -/
def maxOf : List ℚ → ℚ
  | [] => 0
  | n :: ns => ns.foldl max n

/-- The second pass of `_find_solution` (multi_pressure_solver.py:112-148). -/
def atSpeed (env : Env κ) (shaft : κ) (n : ℚ) :
    List (Goal κ) → Stream → Sol κ → Settings κ → Except PErr (Sol κ) × Settings κ
  | [], _, sol, st => (.ok sol, st)
  | g :: gs, s, sol, st =>
    match g.sec.antiSurge env.svc env.roots env.remains s ((resetAll g.sec.controlHandlers st).put shaft n) with
    | (.error e, st1) => (.error e, st1)
    | (.ok surge, st1) =>
      if !(sol.combine surge).success then (.ok (sol.combine surge), applyAll surge.configuration st1)
      else
        match g.sec.run env.svc (applyAll surge.configuration st1) s with
        | .error e => (.error e, applyAll surge.configuration st1)
        | .ok o =>
          if !close g.value g.tol o.props.pressure && decide (g.value < o.props.pressure) then
            match g.sec.controlPressure env g.value g.tol s (applyAll surge.configuration st1) with
            | (.error e, st2) => (.error e, st2)
            | (.ok pc, st2) =>
              if !((sol.combine surge).combine pc).success then (.ok ((sol.combine surge).combine pc), st2)
              else
                match g.sec.run env.svc (applyAll pc.configuration st2) s with
                | .error e => (.error e, applyAll pc.configuration st2)
                | .ok o' => atSpeed env shaft n gs o' ((sol.combine surge).combine pc) (applyAll pc.configuration st2)
          else if !close g.value g.tol o.props.pressure && decide (o.props.pressure < g.value) then
            (.ok ⟨(sol.combine surge).configuration, some (.finding (.unreachable o.props.pressure g.value false))⟩,
              applyAll surge.configuration st1)
          else atSpeed env shaft n gs o (sol.combine surge) (applyAll surge.configuration st1)

/-- `MultiPressureSolver._find_solution` (multi_pressure_solver.py:86-148). -/
def pressuresE (env : Env κ) (shaft : κ) (gs : List (Goal κ)) (s : Stream) (st : Settings κ) :
    Except PErr (Sol κ) × Settings κ :=
  match speeds env shaft gs s st with
  | (.error e, st') => (.error e, st')
  | (.ok (.inl sol), st') => (.ok sol, st')
  | (.ok (.inr ns), st') => atSpeed env shaft (maxOf ns) gs s ⟨[⟨shaft, maxOf ns⟩], none⟩ st'

/-- `MultiPressureSolver(...).find_solution` (multi_pressure_solver.py:38-84). -/
def pressures (env : Env κ) (secs : List (Sec κ)) (targets : List (ℚ × ℚ)) (s : Stream) (st : Settings κ) :
    Except PErr (Sol κ) × Settings κ :=
  match oneShaft secs with
  | .error e => (.error e, st)
  | .ok shaft =>
    if targets.length ≠ secs.length then (.error .value, st)
    else guarded (pressuresE env shaft (goals secs targets) s st)

end Verif.Sections
