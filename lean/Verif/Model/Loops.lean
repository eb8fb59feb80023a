import Verif.Model.ProcessUnits

/-!
# Model of recirculation loops and of trains whose loops can be set

`src/libecalc/process/process_solver/recirculation_loop.py` and the mixers and splitters it controls.
-/

namespace Verif.Process

/-- `RecirculationLoop` (recirculation_loop.py:14-26) with the rates held by its mixer and its splitter. -/
structure Loop where
  id : Nat
  mixRate : ℚ
  splitRate : ℚ
  deriving DecidableEq, Repr

/-- `set_recirculation_rate` (recirculation_loop.py:37-39). -/
def Loop.setRate (l : Loop) (rate : ℚ) : Loop := { l with mixRate := rate, splitRate := rate }

/-- The values of configurations (configuration.py:37-66). -/
inductive CfgValue where
  | speed (v : ℚ)
  | choke (dp : ℚ)
  | temperature (t : ℚ)
  | recirculation (rate : ℚ)
  deriving DecidableEq, Repr

/-- What can be done to a loop from outside. -/
inductive LoopOp where
  | configure (handler : Nat) (v : CfgValue)
  | reset
  deriving DecidableEq, Repr

/-- `handle_configuration` (recirculation_loop.py:47-54) and `reset` (recirculation_loop.py:44-45). -/
def Loop.step (l : Loop) : LoopOp → Except PErr Loop
  | .reset => .ok (l.setRate 0)
  | .configure handler v =>
    if handler ≠ l.id then .error .value
    else match v with
      | .recirculation rate => .ok (l.setRate rate)
      | _ => .error .assertion

/-- Any sequence of operations; one that raises leaves the loop as it is. -/
def Loop.run (l : Loop) : List LoopOp → Loop
  | [] => l
  | op :: ops =>
    match l.step op with
    | .ok l' => l'.run ops
    | .error _ => l.run ops

/-- A place in a train: a fixed unit, or the mixer or splitter of a loop. -/
inductive Place where
  | fixed (u : ProcUnit)
  | mixerOf (loop : Nat)
  | splitterOf (loop : Nat)

/-- The units of the train with the loops' present rates. -/
def Place.unit (loops : Nat → Loop) : Place → ProcUnit
  | .fixed u => u
  | .mixerOf k => .directMixer (loops k).mixRate
  | .splitterOf k => .directSplitter (loops k).splitRate

end Verif.Process
