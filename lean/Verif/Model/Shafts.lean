import Verif.Model.Loops

/-!
# Model of shafts

`src/libecalc/process/shaft.py` and the speed of `src/libecalc/process/process_units/compressor.py`. Compressors are
named by numbers; their charts give a least and a greatest speed. The speeds held by the compressors are kept in one
table, since several objects may refer to the same compressor.
-/

namespace Verif.Shafts
open Verif.Process

/-- A shaft (shaft.py:19-28); `single` tells a `SingleSpeedShaft` from a `VariableSpeedShaft`. -/
structure Shaft where
  id : Nat
  single : Bool
  speed : Option ℚ
  compressors : List Nat

/-- The shaft and the speeds of all compressors (compressor.py:40). -/
structure World where
  shaft : Shaft
  speeds : Nat → Option ℚ

/-- What can be done to a shaft from outside. -/
inductive Op where
  | connect (c : Nat)
  | set (v : ℚ)
  | configure (handler : Nat) (v : CfgValue)
  | reset
  deriving DecidableEq, Repr

/-- `Compressor.set_speed` (compressor.py:121-123). -/
def setCompressor (speeds : Nat → Option ℚ) (c : Nat) (v : ℚ) : Nat → Option ℚ :=
  fun d => if d = c then some v else speeds d

/-- `_apply_speed` (shaft.py:75-78). -/
def apply (w : World) (v : ℚ) : World :=
  ⟨{ w.shaft with speed := some v }, w.shaft.compressors.foldl (fun s c => setCompressor s c v) w.speeds⟩

/-- `SingleSpeedShaft.set_speed` and `VariableSpeedShaft.set_speed` (shaft.py:81-91). -/
def setSpeed (w : World) (v : ℚ) : Except PErr World :=
  if w.shaft.single then
    match w.shaft.speed with
    | none => .ok (apply w v)
    | some u => if v ≠ u then .error .attribute else .ok w
  else .ok (apply w v)

/-- `connect`, `set_speed`, `handle_configuration` and `reset` (shaft.py:33-47, 50-53, 60-61). -/
def step (w : World) : Op → Except PErr World
  | .connect c =>
    if w.shaft.compressors.contains c then .error .programming
    else .ok ⟨{ w.shaft with compressors := w.shaft.compressors ++ [c] }, w.speeds⟩
  | .set v => setSpeed w v
  | .configure handler v =>
    if handler ≠ w.shaft.id then .error .assertion
    else match v with
      | .speed s => setSpeed w s
      | _ => .error .assertion
  | .reset => .ok ⟨{ w.shaft with speed := none }, w.speeds⟩

/-- Any sequence of operations; one that raises leaves everything as it is. -/
def run (w : World) : List Op → World
  | [] => w
  | op :: ops =>
    match step w op with
    | .ok w' => run w' ops
    | .error _ => run w ops

/-- `max` and `min` of a non-empty collection. -/
def maxOf : ℚ → List ℚ → ℚ
  | m, [] => m
  | m, x :: xs => maxOf (if m < x then x else m) xs

def minOf : ℚ → List ℚ → ℚ
  | m, [] => m
  | m, x :: xs => minOf (if x < m then x else m) xs

/-- `get_speed_boundary` (shaft.py:67-73). -/
def speedBoundary (least greatest : Nat → ℚ) (s : Shaft) : Except PErr (ℚ × ℚ) :=
  match s.compressors with
  | [] => .error .value
  | c :: cs => .ok (maxOf (least c) (cs.map least), minOf (greatest c) (cs.map greatest))

end Verif.Shafts
