import Verif.Model.Section

/-!
# Model of how sections are validated and put together

`src/libecalc/presentation/yaml/mappers/process/mapped_section_validator.py`,
`src/libecalc/process/process_solver/section_assembly.py`, the wiring in
`src/libecalc/process/process_solver/solver_assembly.py`, and the part of
`src/libecalc/presentation/yaml/mappers/process_simulation_mapper.py` that lays the assembled sections out in a pipeline.

Ids of handlers are numbers; a new handler takes the next number that has not been used (`uuid4` in the code). A
recirculation loop stands for its mixer and splitter, a choke handler for its choke.
-/

namespace Verif.Assembly
open Verif.Time Verif.Process Verif.Section

/-- `AntiSurgeType` (anti_surge/anti_surge_strategy.py). -/
inductive AntiSurge where
  | common | individual | none
  deriving DecidableEq, Repr

/-- `PressureControlType` (pressure_control/pressure_control_strategy.py). -/
inductive PControl where
  | downstreamChoke | upstreamChoke | commonAsv | asvRate | asvPressure
  deriving DecidableEq, Repr

/-- `isinstance(unit, Compressor)`. -/
def isCompressor : ProcUnit → Bool
  | .compressor _ => true
  | _ => false

/-- `isinstance(unit, (Mixer, Splitter))`. -/
def isBoundary : ProcUnit → Bool
  | .mixer _ => true
  | .splitter _ => true
  | _ => false

/-! ## Validation -/

/-- `_PRESSURE_CONTROL_REQUIRES_ANTI_SURGE` (mapped_section_validator.py:10-14). -/
def requiredAntiSurge : PControl → Option AntiSurge
  | .commonAsv => some .common
  | .asvRate => some .individual
  | .asvPressure => some .individual
  | _ => none

/-- `_validate_strategy_compatibility` (mapped_section_validator.py:27-33). -/
def compatible (pc : PControl) (anti : AntiSurge) : Bool :=
  match requiredAntiSurge pc with
  | some r => decide (anti = r)
  | none => true

/-- `MappedSectionValidator.validate` for one section (mapped_section_validator.py:20-25 with 27-60). -/
def validate (pc : PControl) (anti : AntiSurge) (units : List ProcUnit) : Except Err Unit :=
  if !units.any isCompressor then .error .validation
  else if !compatible pc anti then .error .validation
  else if units.any isCompressor && decide (anti = .none) then .error .validation
  else if !units.any isCompressor && decide (anti ≠ .none) then .error .validation
  else if decide (anti = .common) && units.any isBoundary then .error .validation
  else .ok ()

/-! ## Assembly of a section -/

/-- A unit of the input as a place in the section. -/
def slotOf : ProcUnit → Slot Nat
  | .compressor c => .comp c
  | u => .fixed u

/-- `AssembledSection` (section_assembly.py:17-22); the handlers are the loops, in order, and then the choke. -/
structure Assembled where
  slots : List (Slot Nat)
  loops : List Nat
  choke : Option Nat

/-- `recirculation_loop` (section_assembly.py:25-30). -/
def loopAround (l : Nat) (units : List ProcUnit) : List (Slot Nat) := .mix l :: (units.map slotOf ++ [.split l])

/-- The variables of the loop over the units (section_assembly.py:46-50), and the next free id. -/
structure State where
  solver : List (Slot Nat)
  pending : List ProcUnit
  loops : List Nat
  next : Nat

/-- One pass of the loop (section_assembly.py:50-62). -/
def step (st : State) (u : ProcUnit) : State :=
  if isBoundary u then
    { st with solver := st.solver ++ st.pending.map slotOf ++ [slotOf u], pending := [] }
  else if isCompressor u then
    { solver := st.solver ++ loopAround st.next (st.pending ++ [u]), pending := [], loops := st.loops ++ [st.next],
      next := st.next + 1 }
  else { st with pending := st.pending ++ [u] }

/-- The anti-surge part of `assemble_process_section` (section_assembly.py:40-63): units, loops, next free id. -/
def withLoops (next : Nat) (anti : AntiSurge) (units : List ProcUnit) : List (Slot Nat) × List Nat × Nat :=
  if anti = .common then (loopAround next units, [next], next + 1)
  else
    let st := units.foldl step ⟨[], [], [], next⟩
    (st.solver ++ st.pending.map slotOf, st.loops, st.next)

/-- `assemble_process_section` (section_assembly.py:33-76), and the next free id. -/
def assemble (next : Nat) (anti : AntiSurge) (pc : PControl) (units : List ProcUnit) : Assembled × Nat :=
  let r := withLoops next anti units
  match pc with
  | .upstreamChoke => (⟨.choke r.2.2 :: r.1, r.2.1, some r.2.2⟩, r.2.2 + 1)
  | .downstreamChoke => (⟨r.1 ++ [.choke r.2.2], r.2.1, some r.2.2⟩, r.2.2 + 1)
  | _ => (⟨r.1, r.2.1, none⟩, r.2.2)

/-- What is known of a section before it is assembled. -/
structure Plan where
  anti : AntiSurge
  pc : PControl
  units : List ProcUnit

/-- `assemble_sections` (build_sections.py:36-45). -/
def assembleAll : Nat → List Plan → List Assembled
  | _, [] => []
  | next, p :: ps =>
    let r := assemble next p.anti p.pc p.units
    r.1 :: assembleAll r.2 ps

/-! ## Wiring of the solver -/

/-- `isinstance(unit, Compressor)` for a place. -/
def isComp : Slot Nat → Bool
  | .comp _ => true
  | _ => false

/-- The compressors among the units. -/
def Assembled.compressors (a : Assembled) : Nat := a.slots.countP isComp

/-- The check in the constructor of the anti-surge strategy with one loop per compressor (anti_surge/individual_asv.py:
35). -/
def paired (a : Assembled) (control : Control Nat) (shaft : Nat) (bound : Boundary) : Except PErr (Sec Nat) :=
  if a.loops.length ≠ a.compressors then .error .assertion
  else .ok ⟨a.slots, a.loops, shaft, bound, control⟩

/-- `assemble_solver` (solver_assembly.py:65-145, 148-229); `compressors[0]` and `recirculation_loops[0]` of empty
sequences raise IndexError, written as `PErr.value`. -/
def assembleSolver (a : Assembled) (pc : PControl) (shaft : Nat) (bound : Boundary) : Except PErr (Sec Nat) :=
  match pc with
  | .commonAsv =>
    match a.loops with
    | [] => .error .value
    | l :: _ => if a.compressors = 0 then .error .value else .ok ⟨a.slots, a.loops, shaft, bound, .commonAsv l⟩
  | .downstreamChoke =>
    match paired a .asvRate shaft bound, a.choke with
    | .error e, _ => .error e
    | .ok _, none => .error .assertion
    | .ok sec, some c => .ok { sec with control := .downstreamChoke c }
  | .upstreamChoke =>
    match paired a .asvRate shaft bound, a.choke with
    | .error e, _ => .error e
    | .ok _, none => .error .assertion
    | .ok sec, some c => .ok { sec with control := .upstreamChoke c }
  | .asvRate => paired a .asvRate shaft bound
  | .asvPressure => paired a .asvPressure shaft bound

/-! ## Sections in a pipeline -/

/-- The units of the pipeline sections (process_simulation_mapper.py:415-422): the first starts with the inlet, the last
ends with the outlet. -/
def pipelineSection (n i : Nat) (slots : List (Slot Nat)) : List (Slot Nat) :=
  (if i = 0 then [.fixed .inlet] else []) ++ slots ++ (if i + 1 = n then [.fixed .outlet] else [])

/-- `constraint_position` (process_simulation_mapper.py:443-445) as the number of units that follow. -/
def constraintPosition (n i : Nat) : Nat := if i = n then 0 else 1

/-- The place in the section of the unit whose outlet the pressure constraint is put on
(process_simulation_mapper.py:442-448). -/
def targetPlace (n i : Nat) (slots : List (Slot Nat)) : Option Nat :=
  let us := pipelineSection n i slots
  if constraintPosition n i + 1 ≤ us.length then some (us.length - 1 - constraintPosition n i) else none

end Verif.Assembly
