import Verif.Model.Section
import Verif.Model.Search
import Verif.Model.Distribution

/-!
# Model of the capacity of a train and of the distribution of streams to trains

`src/libecalc/process/process_solver/feasibility_solver.py`, `StreamDistributionItem`
(presentation/yaml/mappers/process_simulation_mapper.py), and `src/libecalc/process/stream_distribution/` with real
streams, a fluid service that may raise, and trains whose solvers leave settings behind. (`Model/Distribution.lean` is
the same code with rates in place of streams and arbitrary functions in place of trains.)
-/

namespace Verif.Feasibility

open Verif.Time Verif.Process Verif.Section Verif.Solver Verif.GraphModel Verif.Distribution
open Verif.Search (relDiff)

variable {κ : Type} [DecidableEq κ] {α : Type} [DecidableEq α]

/-- `StreamDistributionItem` (process_simulation_mapper.py:94-103) with its `FeasibilitySolver`
(feasibility_solver.py:24-32): the section of its solver, the target pressure with its tolerance, and the two
parameters of the search. -/
structure Item (κ : Type) where
  sec : Sec κ
  value : ℚ
  tol : ℚ
  searchTol : ℚ := 1 / 10000
  searchMax : Nat := 40

/-- `_is_feasible` (feasibility_solver.py:72-73). -/
def Item.isFeasible (env : Env κ) (it : Item κ) (s : Stream) (st : Settings κ) : Except PErr Bool × Settings κ :=
  match findSolution env it.sec it.value it.tol s st with
  | (.ok sol, st') => (.ok sol.success, st')
  | (.error e, st') => (.error e, st')

/-- The argument of `higher=` in the search (feasibility_solver.py:65). -/
def Item.higher (env : Env κ) (it : Item κ) (s : Stream) (rate : ℚ) (st : Settings κ) :
    Except PErr Bool × Settings κ :=
  match s.withStdRate rate with
  | .error e => (.error e, st)
  | .ok t => it.isFeasible env t st

/-- `Bisect._bisect` (search_strategies.py:53-73) for a function that may raise and leaves settings behind, and whose
results are all accepted; `last` is the result so far. -/
def searchLoop (tol : ℚ) (func : ℚ → Settings κ → Except PErr Bool × Settings κ) :
    Nat → ℚ → ℚ → Option ℚ → Settings κ → Except PErr (Option ℚ) × Settings κ
  | 0, _, _, last, st => (.ok last, st)
  | n + 1, lo, hi, _, st =>
    let x := (lo + hi) / 2
    match func x st with
    | (.error e, st') => (.error e, st')
    | (.ok higher, st') =>
      let lo' := if higher then x else lo
      let hi' := if higher then hi else x
      if relDiff lo' hi' < tol then (.ok (some x), st') else searchLoop tol func n lo' hi' (some x) st'

/-- `_largest_feasible_rate` (feasibility_solver.py:54-70). `DidNotConvergeError` is raised by the search without a
result. -/
def Item.largestFeasible (env : Env κ) (it : Item κ) (s : Stream) (upper : ℚ) (st : Settings κ) :
    Except PErr ℚ × Settings κ :=
  match searchLoop it.searchTol (it.higher env s) it.searchMax 0 upper none st with
  | (.ok (some x), st') => (.ok x, st')
  | (.ok none, st') => (.ok 0, st')
  | (.error .notConverged, st') => (.ok 0, st')
  | (.error e, st') => (.error e, st')

/-- `get_excess_rate` (feasibility_solver.py:34-52, process_simulation_mapper.py:109-113). -/
def Item.excess (env : Env κ) (it : Item κ) (s : Stream) (st : Settings κ) : Except PErr ℚ × Settings κ :=
  if s.stdRate ≤ 0 then (.ok 0, st)
  else
    match it.isFeasible env s st with
    | (.error e, st') => (.error e, st')
    | (.ok true, st') => (.ok 0, st')
    | (.ok false, st') =>
      match it.largestFeasible env s s.stdRate st' with
      | (.error e, st'') => (.error e, st'')
      | (.ok capacity, st'') => (.ok (max 0 (s.stdRate - capacity)), st'')

/-- `is_valid` (process_simulation_mapper.py:105-107). -/
def Item.isValid (env : Env κ) (it : Item κ) (s : Stream) (st : Settings κ) : Except PErr Bool × Settings κ :=
  match it.excess env s st with
  | (.error e, st') => (.error e, st')
  | (.ok x, st') => (.ok (decide (x = 0)), st')

/-! ## Distribution -/

/-- Exceptions of the distribution: its own, and those of the fluid service and the trains. -/
inductive DErr where
  | own (e : Err)
  | process (e : PErr)
  deriving DecidableEq, Repr

/-- `CommonStreamDistribution` (common_stream_distribution.py:30-43). -/
structure Shared (α κ : Type) where
  inlet : Stream
  items : List (α × Item κ)
  rates : List ℚ
  overflows : List (Overflow α)
  graph : Digraph α

/-- `CommonStreamDistribution.__init__` (common_stream_distribution.py:31-52). -/
def Shared.new (inlet : Stream) (items : List (α × Item κ)) (fractions : List ℚ) (overflows : List (Overflow α)) :
    Except DErr (Shared α κ) :=
  let g := overflowGraph (items.map (·.1)) overflows
  if g.isAcyclic then .ok ⟨inlet, items, fractions.map (inlet.stdRate * ·), overflows, g⟩
  else .error (.own .validation)

/-- `create_stream_from_standard_rate` at the conditions of the inlet (common_stream_distribution.py:75-80, 92-97). -/
def Shared.stream (svc : Service) (c : Shared α κ) (rate : ℚ) : Except PErr Stream :=
  svc.fromStdRate c.inlet.model c.inlet.props.pressure c.inlet.props.temperature rate

/-- `overflow_map` and `adjusted_rates` (common_stream_distribution.py:67-68). -/
abbrev Adjusted (α : Type) := List (α × List ℚ) × List (α × ℚ)

/-- One iteration of `_adjust_for_overflow` (common_stream_distribution.py:69-86). -/
def Shared.adjustStep (env : Env κ) (c : Shared α κ) (acc : Adjusted α) (p : α × ℚ) (st : Settings κ) :
    Except DErr (Adjusted α) × Settings κ :=
  let overflowRate := ((acc.1.lookup p.1).getD []).sum
  let currentRate := p.2 + overflowRate
  match overflowOut c.overflows p.1 with
  | some o =>
    match c.items.lookup p.1 with
    | none => (.error (.own .keyError), st)
    | some item =>
      match c.stream env.svc currentRate with
      | .error e => (.error (.process e), st)
      | .ok s =>
        match item.excess env s st with
        | (.error e, st') => (.error (.process e), st')
        | (.ok excessRate, st') =>
          (.ok (dictSet o.toId (((acc.1.lookup o.toId).getD []) ++ [excessRate]) acc.1,
            dictSet p.1 (currentRate - excessRate) acc.2), st')
  | none => (.ok (acc.1, dictSet p.1 currentRate acc.2), st)

/-- The loop of `_adjust_for_overflow`. -/
def Shared.adjustLoop (env : Env κ) (c : Shared α κ) : List (α × ℚ) → Adjusted α → Settings κ →
    Except DErr (Adjusted α) × Settings κ
  | [], acc, st => (.ok acc, st)
  | p :: ps, acc, st =>
    match c.adjustStep env acc p st with
    | (.error e, st') => (.error e, st')
    | (.ok acc', st') => c.adjustLoop env ps acc' st'

/-- `_adjust_for_overflow` (common_stream_distribution.py:66-87). -/
def Shared.adjust (env : Env κ) (c : Shared α κ) (st : Settings κ) : Except DErr (List (α × ℚ)) × Settings κ :=
  match c.graph.topologicalSort with
  | .error e => (.error (.own e), st)
  | .ok sorted =>
    match c.adjustLoop env (sorted.zip c.rates) ([], []) st with
    | (.error e, st') => (.error e, st')
    | (.ok acc, st') => if sorted.length = c.rates.length then (.ok acc.2, st') else (.error (.own .valueError), st')

/-- `get_streams` (common_stream_distribution.py:89-100). -/
def Shared.getStreams (env : Env κ) (c : Shared α κ) (st : Settings κ) : Except DErr (List Stream) × Settings κ :=
  match c.adjust env st with
  | (.error e, st') => (.error e, st')
  | (.ok rates, st') =>
    (do
      let streams ← rates.mapM fun p => match c.stream env.svc p.2 with
        | .ok s => Except.ok (p.1, s)
        | .error e => .error (DErr.process e)
      c.items.mapM fun item => match streams.lookup item.1 with
        | some s => Except.ok s
        | none => .error (DErr.own .keyError), st')

/-- The two kinds of `StreamDistribution` that can be given priorities (individual_stream_distribution.py:7-15;
common_stream_distribution.py). -/
inductive Source (α κ : Type) where
  | individual (streams : List Stream)
  | shared (c : Shared α κ)

/-- `get_streams` of either kind. -/
def Source.getStreams (env : Env κ) : Source α κ → Settings κ → Except DErr (List Stream) × Settings κ
  | .individual streams, st => (.ok streams, st)
  | .shared c, st => c.getStreams env st

/-- `all(item.is_valid(stream) for item, stream in zip(items, streams, strict=True))`
(priorities_stream_distribution.py:18). -/
def allValid (env : Env κ) : List (Item κ) → List Stream → Settings κ → Except DErr Bool × Settings κ
  | [], [], st => (.ok true, st)
  | it :: its, s :: ss, st =>
    match it.isValid env s st with
    | (.error e, st') => (.error (.process e), st')
    | (.ok true, st') => allValid env its ss st'
    | (.ok false, st') => (.ok false, st')
  | _, _, st => (.error (.own .valueError), st)

/-- The loop of `find_first_valid` (priorities_stream_distribution.py:16-21) with the streams of the last distribution
tried; `get_streams` is called twice for each. -/
def findLoop (env : Env κ) (items : List (Item κ)) : List (Source α κ) → List Stream → Settings κ →
    Except DErr (List Stream) × Settings κ
  | [], last, st => (.ok last, st)
  | d :: ds, _, st =>
    match d.getStreams env st with
    | (.error e, st1) => (.error e, st1)
    | (.ok streams, st1) =>
      match d.getStreams env st1 with
      | (.error e, st2) => (.error e, st2)
      | (.ok again, st2) =>
        match allValid env items again st2 with
        | (.error e, st3) => (.error e, st3)
        | (.ok true, st3) => (.ok streams, st3)
        | (.ok false, st3) => findLoop env items ds streams st3

/-- `find_first_valid` (priorities_stream_distribution.py:14-21), `PrioritiesStreamDistribution.get_streams`
(priorities_stream_distribution.py:32-33). -/
def findFirstValid (env : Env κ) (distributions : List (Source α κ)) (items : List (Item κ)) (st : Settings κ) :
    Except DErr (List Stream) × Settings κ :=
  match distributions with
  | [] => (.error (.own .assertion), st)
  | ds => findLoop env items ds [] st

end Verif.Feasibility
