import Verif.Model.Train

/-!
# Model of the mapping of compressor trains with several streams

Sources: `libecalc/presentation/yaml/mappers/consumer_function_mapper.py`
(_create_variable_speed_compressor_train_multiple_streams_and_pressures, _create_compressor_train_stage),
`libecalc/presentation/yaml/yaml_types/models/yaml_compressor_trains.py` (185-258),
`libecalc/domain/process/compressor/core/train/base.py` (ports) and
`libecalc/domain/process/compressor/core/train/compressor_train_common_shaft.py` (calculate_compressor_train: which stream
goes where).

Simplifications:
* of a stage only the streams it mentions and whether it has an interstage control pressure are kept;
* a fluid model is its reference; every reference can be resolved (`Verif/Model/References.lean`);
* what a stage does with the streams is in `Verif/Model/Stage.lean` and `Verif/Model/Train.lean`; here a stage only
  checks that its splitter and its mixer are given the right number of streams.
-/

namespace Verif.StreamMap
open Verif.Train (Port)

/-- Ways in which mapping or evaluation fail. -/
inductive SErr where
  /-- EcalcValidationException or a pydantic error -/
  | validation
  | indexError
  /-- the length check of the splitter (legacy_splitter.py:58) -/
  | assertion
  /-- the length check of the mixer (stage.py:260-264) -/
  | illegalState
  deriving DecidableEq

/-- `YamlMultipleStreamsStream` (yaml_compressor_trains.py:185-198): ingoing streams have a fluid model. -/
structure YStream where
  name : String
  fluid : Option String
  deriving DecidableEq

/-- `YamlCompressorStageMultipleStreams` (yaml_compressor_stages.py:64-74). -/
structure YStage where
  streams : List String
  control : Bool
  deriving DecidableEq

/-- `YamlVariableSpeedCompressorTrainMultipleStreamsAndPressures` (yaml_compressor_trains.py:201-231). -/
structure YTrain where
  streams : List YStream
  stages : List YStage
  deriving DecidableEq

/-- `check_interstage_control_pressure` (yaml_compressor_trains.py:246-257). -/
def YTrain.validate (t : YTrain) : Except SErr Unit :=
  if (t.stages.filter (·.control)).length > 1 then .error .validation else .ok ()

/-! ## Mapping -/

/-- `d.setdefault(k, v)`: the dict after it and the value it returns. -/
def setdefault (d : List (String × Nat)) (k : String) (v : Nat) : List (String × Nat) × Nat :=
  match d.lookup k with
  | some w => (d, w)
  | none => ((k, v) :: d, v)

/-- The streams of one stage in the first loop (consumer_function_mapper.py:708-710). -/
def noteStage (names : List String) (k : Nat) (d : List (String × Nat)) : List String → List (String × Nat)
  | [] => d
  | r :: rs => noteStage names k (if r ∈ names then (setdefault d r k).1 else d) rs

/-- The first loop: the first stage that mentions a stream (consumer_function_mapper.py:706-710). -/
def noteStages (names : List String) : Nat → List (String × Nat) → List YStage → List (String × Nat)
  | _, d, [] => d
  | k, d, s :: ss => noteStages names (k + 1) (noteStage names k d s.streams) ss

/-- `any(...)` over the streams of a stage, which stops at the first hit and adds unknown names to the dict
(consumer_function_mapper.py:753-757). -/
def taken (names : List String) (k : Nat) (d : List (String × Nat)) : List String → Bool × List (String × Nat)
  | [] => (false, d)
  | r :: rs =>
    if r ∉ names ∨ (d.lookup r).isSome then
      if (setdefault d r k).2 ≠ k then (true, (setdefault d r k).1)
      else taken names k (setdefault d r k).1 rs
    else taken names k d rs

/-- The stages that are kept, with their numbers in the file (consumer_function_mapper.py:712-758). -/
def kept (names : List String) : Nat → List (String × Nat) → List YStage → List (Nat × YStage)
  | _, _, [] => []
  | k, d, s :: ss =>
    if (taken names k d s.streams).1 then kept names (k + 1) (taken names k d s.streams).2 ss
    else (k, s) :: kept names (k + 1) (taken names k d s.streams).2 ss

/-- The double loops that count ingoing or outgoing streams of a stage (consumer_function_mapper.py:716-729). -/
def count (streams : List YStream) (ingoing : Bool) (refs : List String) : Nat :=
  (refs.map fun r => (streams.filter fun s => s.name = r ∧ s.fluid.isSome = ingoing).length).sum

/-- A stage of the train: the number in the file, the numbers of outlets of the splitter and inlets of the mixer in
addition to the main one (0: no splitter, no mixer), and whether there is an interstage control pressure
(consumer_function_mapper.py:713-752, 389-400). -/
structure MStage where
  number : Nat
  outs : Nat
  ins : Nat
  control : Bool
  deriving DecidableEq

/-- The loop body (consumer_function_mapper.py:713-752); one inlet of the first stage is the inlet of the train, -1 ports
are no mixer. -/
def stageOf (streams : List YStream) (e : Nat × YStage) : MStage where
  number := e.1
  outs := count streams false e.2.streams
  ins := count streams true e.2.streams - if e.1 = 0 then 1 else 0
  control := e.2.control

/-- The mapped train. -/
structure MTrain where
  stages : List MStage
  fluids : List (Option String)
  interstage : Option Nat
  deriving DecidableEq

/-- Position of the first stage with control pressure; `pop` of a set with at most one element
(consumer_function_mapper.py:770-771). -/
def interstageOf : Nat → List MStage → Option Nat
  | _, [] => none
  | i, s :: ss => if s.control then some i else interstageOf (i + 1) ss

/-- `_create_variable_speed_compressor_train_multiple_streams_and_pressures` (consumer_function_mapper.py:695-784). -/
def YTrain.map (t : YTrain) : Except SErr MTrain :=
  let names := t.streams.map (·.name)
  let stages := (kept names 0 (noteStages names 0 [] t.stages) t.stages).map (stageOf t.streams)
  let fluids := t.streams.map (·.fluid)
  if fluids.any (·.isSome) then .ok ⟨stages, fluids, interstageOf 0 stages⟩
  else .error .validation

/-! ## Ports and streams -/

/-- Ports of the stages from a stage number on (base.py:114-124). -/
def portsFrom : Nat → List MStage → List Port
  | _, [] => []
  | i, s :: rest => List.replicate s.outs ⟨false, i⟩ ++ List.replicate s.ins ⟨true, i⟩ ++ portsFrom (i + 1) rest

/-- `ports` (base.py:62-64, 114-124). -/
def ports (stages : List MStage) : List Port := ⟨true, 0⟩ :: portsFrom 0 stages

/-- A stream that enters: fluid model and rate. -/
abbrev Inflow := String × ℚ

/-- `fluid_streams` (compressor_train_common_shaft.py:211-224): inlet ports whose stream has no fluid model are
skipped. -/
def fluidStreams (fluids : List (Option String)) (rates : List ℚ) : Nat → List Port → Except SErr (List Inflow)
  | _, [] => .ok []
  | i, p :: ps => do
    if p.inlet then
      match fluids[i]? with
      | none => .error .indexError
      | some none => fluidStreams fluids rates (i + 1) ps
      | some (some f) =>
        match rates[i]? with
        | none => .error .indexError
        | some r => do
          let rest ← fluidStreams fluids rates (i + 1) ps
          return (f, r) :: rest
    else fluidStreams fluids rates (i + 1) ps

/-- Indices of the ports of a kind at a stage (base.py:126-130). -/
def connected (inlet : Bool) (k : Nat) (ps : List Port) : List Nat :=
  (List.range ps.length).filter fun i => ps[i]? = some ⟨inlet, k⟩

/-- `rates_out_of_splitter` (compressor_train_common_shaft.py:232-235). -/
def takeRates (rates : List ℚ) : List Nat → Except SErr (List ℚ)
  | [] => .ok []
  | i :: is => do
    match rates[i]? with
    | none => .error .indexError
    | some r => do
      let rest ← takeRates rates is
      return r :: rest

/-- What a stage is given: rates out of the splitter and streams into the mixer. -/
structure Flow where
  out : List ℚ
  into : List Inflow
  deriving DecidableEq

/-- The loop over the stages (compressor_train_common_shaft.py:229-256); `queue` are the fluid streams from
`inlet_stream_counter` on. The splitter and the mixer check the lengths (legacy_splitter.py:58, stage.py:260-264). -/
def flows (ps : List Port) (rates : List ℚ) : Nat → List Inflow → List MStage → Except SErr (List Flow)
  | _, _, [] => .ok []
  | k, queue, s :: ss => do
    let out ← takeRates rates (connected false k ps)
    let n := ((connected true k ps).filter (· > 0)).length
    let into := queue.take n
    if s.outs > 0 ∧ out.length ≠ s.outs then .error .assertion
    else if s.ins > 0 ∧ into.length ≠ s.ins then .error .illegalState
    else do
      let rest ← flows ps rates (k + 1) (queue.drop n) ss
      return ⟨out, into⟩ :: rest

/-- `calculate_compressor_train` (compressor_train_common_shaft.py:205-256) as far as streams are concerned: the inlet of
the train and what each stage is given. -/
def MTrain.run (m : MTrain) (rates : List ℚ) : Except SErr (Inflow × List Flow) := do
  let ss ← fluidStreams m.fluids rates 0 (ports m.stages)
  match ss with
  | [] => .error .indexError
  | inlet :: queue => do
    let fs ← flows (ports m.stages) rates 0 queue m.stages
    return (inlet, fs)

end Verif.StreamMap
