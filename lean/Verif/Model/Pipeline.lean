import Verif.Model.Time

/-!
# Model of process pipelines: connections and partitioning into pressure sections

`src/libecalc/process/process_pipeline/process_pipeline.py` and
`src/libecalc/presentation/yaml/mappers/process/process_partitioner.py`. Of a unit only its id and whether it is a
compressor matter here. Ids of connections and sections are left out.
-/

namespace Verif.Pipeline
open Verif.Time

/-- A process unit. -/
structure PU where
  id : Nat
  compressor : Bool
  deriving DecidableEq, Repr

/-- The state of the loops: the connections so far and `previous_process_unit` (process_pipeline.py:168-170). -/
structure ConnState where
  connections : List (Nat × Nat)
  previous : Option Nat

/-- One pass of the inner loop (process_pipeline.py:172-180). -/
def connectUnit (st : ConnState) (u : PU) : ConnState :=
  match st.previous with
  | some p => ⟨st.connections ++ [(p, u.id)], some u.id⟩
  | none => ⟨st.connections, some u.id⟩

/-- `ProcessPipeline._create_process_unit_connections` (process_pipeline.py:145-184). -/
def createConnections (sections : List (List PU)) : List (Nat × Nat) :=
  (sections.foldl (fun (st : ConnState) (sec : List PU) => sec.foldl connectUnit st) (ConnState.mk [] none)).connections

/-! ## Partitioning -/

/-- `YamlProcessConstraint`: the unit it names (none: the outlet of the pipeline) and the rest. -/
structure Constraint (κ : Type) where
  unit : Option String
  payload : κ
  deriving DecidableEq, Repr

/-- `MappedSection` (process_partitioner.py:10-20). -/
structure MSection (κ : Type) where
  units : List PU
  constraint : Constraint κ
  target : Nat
  deriving DecidableEq, Repr

/-- `constraint_by_unit_id` (in order of insertion) and `terminal_constraint` (process_partitioner.py:34-35). -/
structure Collected (κ : Type) where
  byUnit : List (Nat × Constraint κ)
  terminal : Option (Constraint κ)

/-- One pass of the loop over the constraints (process_partitioner.py:37-51). -/
def collectOne {κ : Type} (ids : String → Option Nat) (st : Collected κ) (c : Constraint κ) : Except Err (Collected κ) :=
  match c.unit with
  | none => if st.terminal.isSome then .error .validation else .ok { st with terminal := some c }
  | some name =>
    match ids name with
    | none => .error .validation
    | some i => if st.byUnit.any (fun e => e.1 == i) then .error .validation
                else .ok { st with byUnit := st.byUnit ++ [(i, c)] }

/-- The loop over the constraints (process_partitioner.py:37-51). -/
def collect {κ : Type} (ids : String → Option Nat) : Collected κ → List (Constraint κ) → Except Err (Collected κ)
  | st, [] => .ok st
  | st, c :: cs =>
    match collectOne ids st c with
    | .error e => .error e
    | .ok st' => collect ids st' cs

/-- The loop over the units (process_partitioner.py:56-70): finished sections and the units collected since. -/
def cut {κ : Type} (find : Nat → Option (Constraint κ)) : List (MSection κ) → List PU → List PU →
    List (MSection κ) × List PU
  | secs, cur, [] => (secs, cur)
  | secs, cur, u :: us =>
    match find u.id with
    | none => cut find secs (cur ++ [u]) us
    | some c => cut find (secs ++ [⟨cur ++ [u], c, u.id⟩]) [] us

/-- The treatment of the units behind the last named constraint (process_partitioner.py:72-92). -/
def finish {κ : Type} (terminal : Option (Constraint κ)) (secs : List (MSection κ)) (cur : List PU) :
    Except Err (List (MSection κ)) :=
  match terminal with
  | some c =>
    match cur.getLast? with
    | none => .error .indexError
    | some u => .ok (secs ++ [⟨cur, c, u.id⟩])
  | none =>
    if cur.any (·.compressor) then .error .validation
    else
      match secs.getLast? with
      | none => .ok secs
      | some last =>
        if cur.isEmpty then .ok secs
        else .ok (secs.dropLast ++ [⟨last.units ++ cur, last.constraint, last.target⟩])

/-- `ProcessPartitioner.partition` (process_partitioner.py:27-94). -/
def partition {κ : Type} (units : List PU) (ids : String → Option Nat) (constraints : List (Constraint κ)) :
    Except Err (List (MSection κ)) :=
  match collect ids ⟨[], none⟩ constraints with
  | .error e => .error e
  | .ok col =>
    let r := cut (fun i => (col.byUnit.find? (fun e => e.1 == i)).map (·.2)) [] [] units
    finish col.terminal r.1 r.2

end Verif.Pipeline
