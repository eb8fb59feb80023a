import Verif.Model.Rates

/-!
# Model of consumer systems and the priority optimiser

`libecalc/domain/infrastructure/energy_components/legacy_consumer/system/{consumer_function,utils,results}.py` and
`libecalc/common/priority_optimizer.py`. The consumers themselves (pumps, compressors) are functions from their
operating points to their results.
-/

namespace Verif.System
open Verif.Time Verif.Rates

/-! ## Choosing the operational setting -/

/-- `indices_outside_capacity` (results.py:49-51). -/
def outsideCapacity (valid : List Bool) : List Nat :=
  (valid.zipIdx.filter (fun vi => !vi.1)).map (·.2)

/-- `operational_setting_used[indices] = value`; all indices are in range. -/
def assignAll (used : List Nat) (indices : List Nat) (value : Nat) : List Nat :=
  indices.foldl (fun u i => u.set i value) used

/-- The loop over all settings but the last (utils.py:31-58); `i` is the loop counter. -/
def settingLoop : Nat → List (List Bool) → List Nat → List Nat → List Nat
  | _, [], _, used => used
  | i, valid :: rest, remaining, used =>
    let remaining' := remaining.filter (fun t => t ∈ outsideCapacity valid)
    if remaining'.length = 0 then used
    else settingLoop (i + 1) rest remaining' (assignAll used remaining' (i + 1))

/-- `get_operational_settings_number_used_from_model_results` (utils.py:10-79) on the validity of each setting. With
one setting the loop runs over nothing. -/
def settingUsed (valid : List (List Bool)) : Except Err (List Nat) :=
  match valid with
  | [] => .error .indexError
  | v :: _ => .ok (settingLoop 0 valid.dropLast (List.range v.length) (List.replicate v.length 0))

/-- `np.multiply.reduce(..., axis=0)` of the validity of the consumers (results.py:43-47); all have the same
length. -/
def allValid : List (List Bool) → List Bool
  | [] => []
  | [v] => v
  | v :: vs => List.zipWith (· && ·) v (allValid vs)

/-- A consumer: its name and `evaluate` from operating points (one per period) to results (one per period). -/
structure Consumer (In Res : Type) where
  name : String
  evaluate : List In → List Res

/-- `xs[i]`. -/
def nth {α : Type} (xs : List α) (i : Nat) : Except Err α :=
  match xs[i]? with
  | some x => .ok x
  | none => .error .indexError

/-- Results of one setting, kept in a dict by consumer name (consumer_function.py:107-121). -/
def settingResults {In Res : Type} (consumers : List (Consumer In Res)) (inputs : List (List In)) :
    Except Err (List (String × List Res)) :=
  consumers.zipIdx.foldlM (fun acc ci => do
    let input ← nth inputs ci.2
    return dictSet ci.1.name (ci.1.evaluate input) acc) []

/-- The operating points picked for one consumer (consumer_function.py:130-165). -/
def actualInputs {In : Type} (settings : List (List (List In))) (used : List Nat) (consumer : Nat) :
    Except Err (List In) :=
  used.zipIdx.mapM (fun ui => do
    let setting ← nth settings ui.1
    let input ← nth setting consumer
    nth input ui.2)

/-- `ConsumerSystemConsumerFunction.evaluate` (consumer_function.py:82-191) with the operating points of every
setting (after cross-over) given per consumer and period. Result: setting used per period, and per consumer name the
results. -/
def evaluateSystem {In Res : Type} (valid : Res → Bool) (consumers : List (Consumer In Res))
    (settings : List (List (List In))) : Except Err (List Nat × List (String × List Res)) := do
  let results ← settings.mapM (settingResults consumers)
  let used ← settingUsed (results.map (fun rs => allValid (rs.map (fun nr => nr.2.map valid))))
  let actual ← consumers.zipIdx.mapM (fun ci => do
    let input ← actualInputs settings used ci.2
    return (ci.1.name, ci.1.evaluate input))
  return (used, actual)

/-! ## Cross-over, one period (all array operations are element-wise) -/

/-- Python index `x - 1` into a list of length `n`: negative numbers count from the end. -/
def receiver (x : Int) (n : Nat) : Option Nat :=
  let j := x - 1
  if 0 ≤ j then (if j < n then some j.toNat else none)
  else if 0 ≤ j + n then some (j + n).toNat else none

/-- The rate a consumer hands over (consumer_function.py:217-222), from the rates before any cross-over. -/
def transferRate (rate max dpSender dpReceiver : ℚ) : ℚ :=
  let t := rate - max
  let t := if t > 0 then t else 0
  if dpReceiver ≥ dpSender then t else 0

/-- Loop body of the cross-over (consumer_function.py:206-227). `rates` are the rates before cross-over, `maxs` the
maximum rates, `dps` the discharge pressures. -/
def crossStep (rates maxs dps : List ℚ) (after : List ℚ) (xi : Int × Nat) : Except Err (List ℚ) :=
  if xi.1 = 0 then .ok after
  else
    match receiver xi.1 dps.length with
    | none => .error .indexError
    | some j => do
      let dpSender ← nth dps xi.2
      let dpReceiver ← nth dps j
      let m ← nth maxs xi.2
      let r ← nth rates xi.2
      let t := transferRate r m dpSender dpReceiver
      let a ← nth after xi.2
      let after := after.set xi.2 (a - t)
      let b ← nth after j
      return after.set j (b + t)

/-- `calculate_operational_settings_after_cross_over` (consumer_function.py:193-229). -/
def crossOver (rates maxs dps : List ℚ) (spec : List Int) : Except Err (List ℚ) :=
  spec.zipIdx.foldlM (crossStep rates maxs dps) rates

/-- Rates used by a setting (consumer_function.py:99-104, operational_setting.py:56-61): cross-over is applied only
when specified (not None and not empty). -/
def ratesAfter (rates maxs dps : List ℚ) (spec : Option (List Int)) : Except Err (List ℚ) :=
  match spec with
  | none => .ok rates
  | some [] => .ok rates
  | some (x :: xs) => crossOver rates maxs dps (x :: xs)

/-- `any(cross > 0 ...)` (consumer_function.py:145, 167). -/
def crossOverUsed (before after : List ℚ) : Bool := (List.zipWith (fun a b => a - b) after before).any (fun c => c > 0)

/-! ## Priority optimiser -/

/-- `EvaluatorResult` (priority_optimizer.py:20-24). -/
structure EvalResult (R : Type) where
  id : String
  result : R
  isValid : Bool

/-- `reduce(operator.mul, [...])` (priority_optimizer.py:57-59): TypeError for no results. -/
def reduceValid {R : Type} : List (EvalResult R) → Except Err Bool
  | [] => .error .typeError
  | r :: rs => .ok (rs.foldl (fun acc x => acc && x.isValid) r.isValid)

/-- The loop over the priorities (priority_optimizer.py:51-64): the priority found, if any, and the dict of the
results of the evaluated priorities; `inner` is the dict of one priority (lines 53-54). -/
def priorityLoop {R : Type} (evaluator : String → List (EvalResult R)) :
    List String → List (String × List (String × R)) → Except Err (Option String × List (String × List (String × R)))
  | [], acc => .ok (none, acc)
  | p :: ps, acc => do
    let rs := evaluator p
    let inner := rs.foldl (fun d r => dictSet r.id r.result d) ((acc.lookup p).getD [])
    -- a priority without results never gets an entry, the defaultdict creates it on access
    let acc := dictSet p inner acc
    let ok ← reduceValid rs
    if ok then return (some p, acc) else priorityLoop evaluator ps acc

/-- `PriorityOptimizer.optimize` (priority_optimizer.py:28-70): the priority used and its results. -/
def optimize {R : Type} (priorities : List String) (evaluator : String → List (EvalResult R)) :
    Except Err (String × List R) :=
  match priorities.getLast? with
  | none => .error .indexError
  | some last => do
    let (found, acc) ← priorityLoop evaluator priorities []
    let used := found.getD last
    return (used, ((acc.lookup used).getD []).map (·.2))

end Verif.System
