import Verif.Model.Expression

/-!
# Model of `libecalc/common/variables.py` (VariablesMap) and
`libecalc/presentation/yaml/mappers/variables_mapper/variables_mapper.py`
-/

namespace Verif.Variables
open Verif.Time Verif.Rates Verif.Expression

/-- `VariablesMap` (variables.py:34-37). -/
structure VarMap where
  periods : Periods
  timeVector : List DateTime
  vars : Vars

/-- `VariablesMap.__init__` (variables.py:34-37): `all_dates` of no periods raises IndexError. -/
def VarMap.make (ps : Periods) (vars : Vars) : Except Err VarMap := do
  let tv ← Periods.allDates ps
  return ⟨ps, tv, vars⟩

/-- `VariablesMap.period` (variables.py:43-48). -/
def VarMap.period (m : VarMap) : Except Err Period :=
  match m.timeVector.head?, m.timeVector.getLast? with
  | some a, some b => .ok ⟨a, b⟩
  | _, _ => .error .indexError

/-- `VariablesMap.get_subset` (variables.py:54-60) for explicit, non-negative indices. -/
def VarMap.getSubset (m : VarMap) (i j : Nat) : Except Err VarMap :=
  VarMap.make (Periods.createPeriods (Periods.slice m.timeVector i (j + 1)) false false)
    (m.vars.map (fun kv => (kv.1, Periods.slice kv.2 i j)))

/-- `VariablesMap.get_subset_for_period` (variables.py:62-85). The clamped dates are only used for the membership
test; the indices are looked up with the dates of the period itself. -/
def VarMap.getSubsetForPeriod (m : VarMap) (p : Period) : Except Err VarMap := do
  let own ← m.period
  if !(Period.intersects own p) then m.getSubset 0 0
  else
    let a := max p.start own.start
    let b := min p.stop own.stop
    if a ∈ m.timeVector ∧ b ∈ m.timeVector then
      let i ← Periods.pyIndex m.timeVector p.start
      let j ← Periods.pyIndex m.timeVector p.stop
      m.getSubset i j
    else .error .programmingError

/-- `VariablesMap.get_subset_for_timestep` (variables.py:87-94). -/
def VarMap.getSubsetForTimestep (m : VarMap) (d : DateTime) : Except Err VarMap := do
  let i ← Periods.pyIndex m.timeVector d
  m.getSubset i (i + 1)

/-- `VariablesMap.evaluate` for an expression (variables.py:126-127). -/
def VarMap.evaluate (pow : Fl → Fl → Fl) (m : VarMap) (e : Expr) : Except Err (List Fl) :=
  e.evaluate pow m.vars m.periods.length

/-- Python slice assignment `xs[i:j] = ys` on a list. -/
def setSlice {α : Type} (xs : List α) (i j : Nat) (ys : List α) : List α :=
  xs.take i ++ ys ++ xs.drop (max i j)

/-- Loop body of `_evaluate_temporal` (variables.py:141-146). -/
def VarMap.temporalStep (pow : Fl → Fl → Fl) (m : VarMap) (result : List Fl) (pe : Period × Expr) :
    Except Err (List Fl) := do
  let own ← m.period
  if Period.intersects pe.1 own then
    let (i, j) ← Period.getPeriodIndices pe.1 m.periods
    let sub ← m.getSubset i j
    let vs ← sub.evaluate pow pe.2
    return setSlice result i j vs
  else return result

/-- `VariablesMap._evaluate_temporal` (variables.py:135-147). -/
def VarMap.evaluateTemporal (pow : Fl → Fl → Fl) (m : VarMap) (model : TModel Expr) : Except Err (List Fl) :=
  model.foldlM (m.temporalStep pow) (List.replicate m.periods.length (some 0))

/-! ## User variables -/

/-- `YamlVariable` (yaml_variable.py:11-22): a single expression or a dict from date to expression, in the order
written by the user. -/
inductive Variable where
  | single (e : Expr)
  | temporal (es : List (DateTime × Expr))

/-- `VariableProcessor` (variables_mapper.py:19-22); `id` is `$var.` followed by the name, `body` the field `variable`. -/
structure Processor where
  id : String
  body : Variable

/-- `VariableProcessor.required_variables` (variables_mapper.py:24-29). The set is kept as a list. -/
def Processor.required (p : Processor) : List String :=
  match p.body with
  | .single e => refs e.tokens
  | .temporal es => es.flatMap (fun de => refs de.2.tokens)

/-- Value of a time-dependent variable in one period (variables_mapper.py:43-51). -/
def temporalValue (vps : Periods) (vals : List (Period × List Fl)) (p : Period) (i : Nat) : Except Err Fl :=
  match Periods.getPeriod vps p with
  | none => .ok (some 0)
  | some vp =>
    match vals.lookup vp with
    | none => .ok (some 0)
    | some vs =>
      match vs[i]? with
      | some x => .ok x
      | none => .error .indexError

/-- `VariableProcessor.process` (variables_mapper.py:31-58). The periods come from the sorted dates, the
expressions in the order written. -/
def Processor.process (pow : Fl → Fl → Fl) (p : Processor) (vars : Vars) (ps : Periods) :
    Except Err (List Fl) :=
  match p.body with
  | .single e => e.evaluate pow vars ps.length
  | .temporal es => do
    let vps := Periods.createPeriods ((es.map (·.1)).mergeSort (fun a b => decide (a ≤ b))) false true
    let vals ← (vps.zip (es.map (·.2))).mapM (fun pe => do
      let v ← pe.2.evaluate pow vars ps.length
      return (pe.1, v))
    ps.zipIdx.mapM (fun pi => temporalValue vps vals pi.1 pi.2)

/-- One run of the `for` loop (variables_mapper.py:74-85). The loop removes from the list it iterates over, so the
element after a processed one is skipped (kept for the next round). Result: variables left, values, whether any
variable was processed. -/
def pass (pow : Fl → Fl → Fl) (ps : Periods) :
    List Processor → Vars → Except Err (List Processor × Vars × Bool)
  | [], env => .ok ([], env, false)
  | v :: rest, env =>
    if v.required.all (fun r => (env.lookup r).isSome) then
      match v.process pow env ps with
      | .error e => .error e
      | .ok val =>
        match rest with
        | [] => .ok ([], dictSet v.id val env, true)
        | skipped :: rest' =>
          match pass pow ps rest' (dictSet v.id val env) with
          | .error e => .error e
          | .ok (left, env', _) => .ok (skipped :: left, env', true)
    else
      match pass pow ps rest env with
      | .error e => .error e
      | .ok (left, env', did) => .ok (v :: left, env', did)

theorem pass_shrinks (pow : Fl → Fl → Fl) (ps : Periods) (n : Nat) : ∀ (vs : List Processor) (env : Vars)
    (left : List Processor) (env' : Vars) (did : Bool), vs.length ≤ n →
    pass pow ps vs env = .ok (left, env', did) →
    left.length ≤ vs.length ∧ (did = true → left.length < vs.length) := by
  induction n with
  | zero =>
    intro vs env left env' did hn h
    cases vs with
    | nil => simp only [pass, Except.ok.injEq, Prod.mk.injEq] at h; obtain ⟨rfl, rfl, rfl⟩ := h; simp
    | cons v vs => simp at hn
  | succ n ih =>
    intro vs env left env' did hn h
    cases vs with
    | nil => simp only [pass, Except.ok.injEq, Prod.mk.injEq] at h; obtain ⟨rfl, rfl, rfl⟩ := h; simp
    | cons v vs =>
      simp only [List.length_cons, Nat.add_le_add_iff_right] at hn
      rw [pass.eq_def] at h
      simp only at h
      split at h
      · split at h; · simp at h
        split at h
        · simp only [Except.ok.injEq, Prod.mk.injEq] at h; obtain ⟨rfl, rfl, rfl⟩ := h; simp
        · rename_i s rest'
          split at h; · simp at h
          rename_i left1 env1 did1 h1
          simp only [Except.ok.injEq, Prod.mk.injEq] at h; obtain ⟨rfl, rfl, rfl⟩ := h
          have := (ih rest' _ _ _ _ (by simp at hn; omega) h1).1
          simp only [List.length_cons]
          exact ⟨by omega, fun _ => by omega⟩
      · split at h; · simp at h
        rename_i left1 env1 did1 h1
        simp only [Except.ok.injEq, Prod.mk.injEq] at h; obtain ⟨rfl, rfl, rfl⟩ := h
        have := ih vs _ _ _ _ hn h1
        simp only [List.length_cons]
        exact ⟨by omega, fun hd => by have := this.2 hd; omega⟩

set_option linter.unusedVariables false in
/-- The `while` loop (variables_mapper.py:72-85). Its termination is part of the model. -/
def solve (pow : Fl → Fl → Fl) (ps : Periods) (todo : List Processor) (env : Vars) :
    Except Err (List Processor × Vars) :=
  if todo = [] then .ok ([], env)
  else
    match h : pass pow ps todo env with
    | .error e => .error e
    | .ok (left, env', did) =>
      if hd : did = true then solve pow ps left env' else .ok (left, env')
termination_by todo.length
decreasing_by exact (pass_shrinks pow ps _ _ _ _ _ _ (Nat.le_refl _) h).2 hd

/-- `_evaluate_variables` (variables_mapper.py:61-102) up to the construction of the `VariablesMap`;
`InvalidVariablesException` is `invalidKeys`. -/
def evaluateVariables (pow : Fl → Fl → Fl) (todo : List Processor) (processed : Vars) (ps : Periods) :
    Except Err Vars := do
  let (left, env) ← solve pow ps todo processed
  if left = [] then return env else .error .invalidKeys

end Verif.Variables
