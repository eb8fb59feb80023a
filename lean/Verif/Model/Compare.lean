import Verif.Model.Rates
import Verif.Model.Calendar

/-!
# Model of the comparison of two results

`src/libecalc/presentation/simple_result/simple.py`. Ids of components and names of emissions are compared and sorted,
nothing else, so they are numbers here (numbered in their order). The key of an emission in the dict is its name. Type
and level of a component, which are carried along unchanged, are left out. `None` among the values is rejected by
pydantic before it gets here, so the values are floats; the sorting makes the order of the set of emission names
irrelevant.
-/

namespace Verif.Compare
open Verif.Time Verif.Rates

/-- `SimpleComponentResult` (simple.py:71-83). -/
structure Comp where
  id : Int
  parent : Option String
  unit : String
  periods : Periods
  isValid : List Bool
  emissions : List (Int × List Fl)
  energy : List Fl
  power : Option (List Fl)
  deriving DecidableEq, Repr

/-- `SimpleResultData` (simple.py:246-248). -/
structure Result where
  periods : Periods
  components : List Comp
  deriving DecidableEq, Repr

/-- Exceptions: those of Python and the `EcalcError` of `delta_profile`. -/
inductive CErr where
  | py (e : Err)
  | noOverlap
  deriving DecidableEq, Repr

/-- `xs[i]`. -/
def item {α : Type} (xs : List α) (i : Nat) : Except Err α :=
  match xs[i]? with
  | some x => .ok x
  | none => .error .indexError

/-- `_subtract_list` (simple.py:59-68). -/
def subtractList (first second : List Fl) : List Fl := List.zipWith Fl.sub first second

/-- The lists built up by `fit_to_periods` (simple.py:139-145). -/
structure Fit where
  power : List Fl
  energy : List Fl
  isValid : List Bool
  emissions : List (Int × List Fl)

/-- Append to the rates of the emissions (simple.py:162-164). -/
def appendEmissions (c : Comp) (i : Nat) : List (Int × List Fl) → Except Err (List (Int × List Fl))
  | [] => .ok []
  | (name, rate) :: rest =>
    match c.emissions.lookup name with
    | none => .error .keyError
    | some r => do
      let v ← item r i
      let rest' ← appendEmissions c i rest
      return (name, rate ++ [v]) :: rest'

/-- Append to the powers (simple.py:158-159). -/
def appendPower (c : Comp) (i : Nat) (power : List Fl) : Except Err (List Fl) :=
  match c.power with
  | none => .ok power
  | some p => do
    let v ← item p i
    return power ++ [v]

/-- One pass of the inner loop (simple.py:158-164). -/
def appendAt (c : Comp) (i : Nat) (acc : Fit) : Except Err Fit := do
  let power ← appendPower c i acc.power
  let e ← item c.energy i
  let v ← item c.isValid i
  let em ← appendEmissions c i acc.emissions
  return ⟨power, acc.energy ++ [e], acc.isValid ++ [v], em⟩

/-- `for _ in range(start, end + 1)` (simple.py:157). -/
def appendTimes (c : Comp) (i : Nat) : Nat → Fit → Except Err Fit
  | 0, acc => .ok acc
  | n + 1, acc =>
    match appendAt c i acc with
    | .error e => .error e
    | .ok acc' => appendTimes c i n acc'

/-- The loop over the periods of the component (simple.py:147-169). -/
def fitLoop (c : Comp) (ps : Periods) (global : Period) : Nat → List Period → Fit → Except Err Fit
  | _, [], acc => .ok acc
  | i, p :: rest, acc =>
    match Period.intersection p global with
    | none => fitLoop c ps global (i + 1) rest acc
    | some q =>
      match Periods.pyIndex ps.startDates q.start with
      | .error e => .error e
      | .ok start =>
        match Periods.pyIndex ps.endDates q.stop with
        | .error e => .error e
        | .ok stop =>
          match appendTimes c i (stop + 1 - start) acc with
          | .error e => .error e
          | .ok acc' => fitLoop c ps global (i + 1) rest acc'

/-- `SimpleComponentResult.fit_to_periods` (simple.py:117-182). The loop asks for `periods.period` in each pass, so an
empty list of periods raises IndexError only if the component has periods; `delta_profile` never passes one. -/
def fitComp (c : Comp) (ps : Periods) : Except Err Comp :=
  match ps.period with
  | .error e => if c.periods = [] then .ok { c with periods := ps, power := some [], energy := [], isValid := [],
                                                     emissions := c.emissions.map fun e => (e.1, []) }
                else .error e
  | .ok g =>
    match fitLoop c ps g 0 c.periods ⟨[], [], [], c.emissions.map fun e => (e.1, [])⟩ with
    | .error e => .error e
    | .ok f => .ok { c with periods := ps, power := some f.power, energy := f.energy, isValid := f.isValid,
                            emissions := f.emissions }

/-- `SimpleResultData.fit_to_periods` (simple.py:258-278). -/
def fitAll (ps : Periods) : List Comp → Except Err (List Comp)
  | [] => .ok []
  | c :: cs =>
    match fitComp c ps with
    | .error e => .error e
    | .ok c' =>
      match fitAll ps cs with
      | .error e => .error e
      | .ok cs' => .ok (c' :: cs')

/-- Insertion by name, for `sorted(..., key=name)` (simple.py:217-220). -/
def insertEntry {α : Type} (x : Int × α) : List (Int × α) → List (Int × α)
  | [] => [x]
  | y :: ys => if x.1 ≤ y.1 then x :: y :: ys else y :: insertEntry x ys

/-- `sorted(..., key=name)` (simple.py:217-220). -/
def sortEntries {α : Type} (xs : List (Int × α)) : List (Int × α) := xs.foldr insertEntry []

/-- The differences of the emissions (simple.py:36-48, 215-221). -/
def subEmissions : List (Int × List Fl) → List (Int × List Fl) → Except Err (List (Int × List Fl))
  | (n, r) :: xs, (m, s) :: ys =>
    if n ≠ m then .error .valueError
    else do
      let rest ← subEmissions xs ys
      return (n, subtractList r s) :: rest
  | _, _ => .ok []

/-- `SimpleComponentResult.__sub__` (simple.py:184-222). -/
def subComp (a b : Comp) : Except Err Comp :=
  if a.id ≠ b.id then .error .valueError
  else if a.periods ≠ b.periods then .error .valueError
  else if a.unit ≠ b.unit then .error .valueError
  else
    match a.power, b.power with
    | some p, some q =>
      match subEmissions (sortEntries a.emissions) (sortEntries b.emissions) with
      | .error e => .error e
      | .ok em => .ok { id := a.id, parent := if a.parent = b.parent then a.parent else none, unit := a.unit,
                        periods := a.periods, isValid := List.zipWith (fun x y => x && y) a.isValid b.isValid,
                        emissions := em, energy := subtractList a.energy b.energy, power := some (subtractList p q) }
    | _, _ => .error .typeError

/-- `_create_empty_component` (simple.py:225-243). -/
def emptyLike (c : Comp) : Comp :=
  { c with energy := List.replicate c.periods.length (some 0),
           power := some (List.replicate c.periods.length (some 0)),
           emissions := c.emissions.map fun e => (e.1, List.replicate c.periods.length (some 0)),
           isValid := List.replicate c.periods.length true }

/-- The loop of `subtract` (simple.py:298-304): ValueErrors are collected. -/
def subAll : List Comp → List Comp → Except Err (List Comp × List Err)
  | a :: as, b :: bs =>
    match subComp a b with
    | .ok d =>
      match subAll as bs with
      | .error e => .error e
      | .ok (ds, es) => .ok (d :: ds, es)
    | .error .valueError =>
      match subAll as bs with
      | .error e => .error e
      | .ok (ds, es) => .ok (ds, .valueError :: es)
    | .error e => .error e
  | _, _ => .ok ([], [])

/-- `SimpleResultData.subtract` (simple.py:281-306). -/
def subtract (changed reference : Result) : Except Err (Result × List Err) :=
  if changed.periods ≠ reference.periods then .error .valueError
  else
    match subAll changed.components reference.components with
    | .error e => .error e
    | .ok (ds, es) => .ok (⟨reference.periods, ds⟩, es)

/-- Add zero emissions for the names not there (simple.py:312-319). -/
def addMissing (n : Nat) : List Int → List (Int × List Fl) → List (Int × List Fl)
  | [], em => em
  | name :: names, em =>
    if (em.map (·.1)).contains name then addMissing n names em
    else addMissing n names (em ++ [(name, List.replicate n (some 0))])

/-- `_normalize_emissions` (simple.py:309-321). -/
def normalizeEmissions (changed reference : Comp) : Comp × Comp :=
  let names := changed.emissions.map (·.1) ++ reference.emissions.map (·.1)
  ({ changed with emissions := addMissing changed.periods.length names changed.emissions },
   { reference with emissions := addMissing reference.periods.length names reference.emissions })

/-- `{component.id: component for component in …}` (simple.py:333-334). -/
def byId (cs : List Comp) : List (Int × Comp) := cs.foldl (fun d c => dictSet c.id c d) []

/-- One pass of the loop of `normalize_components` (simple.py:345-359). -/
def pairUp (changed reference : List (Int × Comp)) (id : Int) : Option (Comp × Comp) :=
  match changed.lookup id, reference.lookup id with
  | none, some r => some (normalizeEmissions (emptyLike r) r)
  | some c, none => some (normalizeEmissions c (emptyLike c))
  | some c, some r => some (normalizeEmissions c r)
  | none, none => none

/-- `normalize_components` without exclusions (simple.py:324-364): pairs of a changed and a reference component. -/
def normalize (changed reference : List Comp) : List (Comp × Comp) :=
  let dc := byId changed
  let dr := byId reference
  (sortedSet (dc.map (·.1) ++ dr.map (·.1))).filterMap (pairUp dc dr)

def liftPy {α : Type} : Except Err α → Except CErr α
  | .ok a => .ok a
  | .error e => .error (.py e)

/-- `delta_profile` (simple.py:367-424): changed and reference results, their difference and the errors. -/
def deltaProfile (reference changed : Result) : Except CErr (Result × Result × Result × List Err) := do
  let pc ← liftPy changed.periods.period
  let pr ← liftPy reference.periods.period
  let first := max pc.start pr.start
  let last := min pc.stop pr.stop
  if first ≥ last then .error .noOverlap
  else
    let dr ← liftPy reference.periods.allDates
    let dc ← liftPy changed.periods.allDates
    let inside := fun (d : DateTime) => decide (first ≤ d) && decide (d ≤ last)
    let dates := sortedSet (dr.filter inside ++ dc.filter inside)
    let ps := Periods.createPeriods dates false false
    let pairs := normalize changed.components reference.components
    let c ← liftPy (fitAll ps (pairs.map (·.1)))
    let r ← liftPy (fitAll ps (pairs.map (·.2)))
    let (d, es) ← liftPy (subtract ⟨ps, c⟩ ⟨ps, r⟩)
    return (⟨ps, c⟩, ⟨ps, r⟩, d, es)

end Verif.Compare
