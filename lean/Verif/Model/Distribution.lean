import Verif.Model.Graph
import Mathlib.Algebra.Order.Field.Rat

/-!
Model of `src/libecalc/process/stream_distribution/`.

All streams of one distribution share fluid model, temperature and pressure, so a stream is represented by its standard
rate (an exact rational, see DESIGN.md). The excess rate of an item (`HasExcessRate.get_excess_rate`) is an arbitrary
function of the rate of the stream. Failures of the fluid service are left out.
-/

namespace Verif.Distribution

open Verif.Time Verif.GraphModel

variable {α : Type} [DecidableEq α]

/-- `Overflow` (common_stream_distribution.py:25-28). -/
structure Overflow (α : Type) where
  fromId : α
  toId : α
  deriving DecidableEq, Repr

/-- `CommonStreamDistribution` (common_stream_distribution.py:31-51). `items` is a mapping: its ids are distinct. -/
structure Common (α : Type) where
  items : List (α × (ℚ → ℚ))
  rates : List ℚ
  overflows : List (Overflow α)
  graph : Digraph α

/-- The overflow graph built by the constructor (common_stream_distribution.py:44-49). -/
def overflowGraph (ids : List α) (overflows : List (Overflow α)) : Digraph α :=
  overflows.foldl (fun g o => g.addEdge (o.fromId, o.toId)) (ids.foldl Digraph.addNode Digraph.empty)

/-- `CommonStreamDistribution.__init__` (common_stream_distribution.py:32-52). -/
def Common.new (inletRate : ℚ) (items : List (α × (ℚ → ℚ))) (fractions : List ℚ) (overflows : List (Overflow α)) :
    Except Err (Common α) :=
  let g := overflowGraph (items.map (·.1)) overflows
  if g.isAcyclic then .ok ⟨items, fractions.map (inletRate * ·), overflows, g⟩
  else .error .validation

/-- `_get_overflow_out` (common_stream_distribution.py:60-64). -/
def overflowOut (overflows : List (Overflow α)) (id : α) : Option (Overflow α) :=
  overflows.find? fun o => decide (o.fromId = id)

/-- One iteration of `_adjust_for_overflow` (common_stream_distribution.py:69-87): `overflow_map` and
`adjusted_rates`. -/
def adjustStep (c : Common α) (st : List (α × List ℚ) × List (α × ℚ)) (p : α × ℚ) :
    Except Err (List (α × List ℚ) × List (α × ℚ)) :=
  let overflowRate := ((st.1.lookup p.1).getD []).sum
  let currentRate := p.2 + overflowRate
  match overflowOut c.overflows p.1 with
  | some o =>
    match c.items.lookup p.1 with
    | none => .error .keyError
    | some excess =>
      let excessRate := excess currentRate
      let handledRate := currentRate - excessRate
      .ok (dictSet o.toId (((st.1.lookup o.toId).getD []) ++ [excessRate]) st.1, dictSet p.1 handledRate st.2)
  | none => .ok (st.1, dictSet p.1 currentRate st.2)

/-- `_adjust_for_overflow` (common_stream_distribution.py:66-88); `zip(..., strict=True)` raises after the common
part. -/
def Common.adjust (c : Common α) : Except Err (List (α × ℚ)) := do
  let sorted ← c.graph.topologicalSort
  let st ← (sorted.zip c.rates).foldlM (adjustStep c) ([], [])
  if sorted.length = c.rates.length then return st.2 else .error .valueError

/-- `get_streams` (common_stream_distribution.py:90-101): the standard rates of the streams. -/
def Common.getStreams (c : Common α) : Except Err (List ℚ) := do
  let rates ← c.adjust
  c.items.mapM fun item => match rates.lookup item.1 with
    | some r => .ok r
    | none => .error .keyError

/-- `get_number_of_streams` (common_stream_distribution.py:54-55). -/
def Common.numberOfStreams (c : Common α) : Nat := c.rates.length

/-- `all(item.is_valid(stream) for item, stream in zip(items, streams, strict=True))`
(priorities_stream_distribution.py:18): stops at the first invalid item, and raises when one list ends before the
other. -/
def allValid {σ : Type} : List (σ → Bool) → List σ → Except Err Bool
  | [], [] => .ok true
  | v :: vs, s :: ss => if v s then allValid vs ss else .ok false
  | _, _ => .error .valueError

/-- The loop of `find_first_valid` (priorities_stream_distribution.py:14-21) with the streams of the last
distribution tried. -/
def findLoop {σ : Type} (items : List (σ → Bool)) : List (List σ) → List σ → Except Err (List σ)
  | [], last => .ok last
  | streams :: rest, _ => do
    if ← allValid items streams then .ok streams else findLoop items rest streams

/-- `find_first_valid` (priorities_stream_distribution.py:14-21). The streams of a distribution do not change between
the two calls of `get_streams`. -/
def findFirstValid {σ : Type} (distributions : List (List σ)) (items : List (σ → Bool)) : Except Err (List σ) :=
  if distributions = [] then .error .assertion else findLoop items distributions []

end Verif.Distribution
