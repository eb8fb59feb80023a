import Verif.Model.Rules

/-!
# Model of the conversion of expressions over time

`libecalc/dto/utils/validators.py` (`convert_expression`, `convert_expressions`) on `is_temporal_model` of `Verif.Rules`.

Simplifications: `strptime` and the set up of an expression from a text or number are parameters; a dict is a list of entries
with distinct keys; messages are dropped.
-/

namespace Verif.ConvertExpr
open Verif.Rules
open Verif.Time (dictSet)

/-- What is left to Python: reading dates, and the expression of a text or number (`Expression.setup_from_expression`,
expression.py:48-54, 84-97). -/
structure Env (χ ε : Type) where
  /-- `strptime(s, "%Y-%m-%dT%H:%M:%S")` succeeds -/
  iso : List Char → Bool
  /-- `strptime(s, "%Y-%m-%d %H:%M:%S")` -/
  moment : List Char → Option ℤ
  /-- the expression, `none` for an `InvalidExpressionError` -/
  setup : χ → Option ε
  /-- `datetime.max.replace(microsecond=0)` -/
  top : ℤ

variable {χ ε : Type}

/-- The part that `is_temporal_model` uses. -/
def Env.reading (c : Env χ ε) : Reading where
  iso := c.iso
  plain := fun s => (c.moment s).isSome
  parse := fun _ => none
  digit := fun _ => false

/-- What is converted (validators.py:16, 20). -/
inductive Raw (χ ε : Type) where
  | none
  /-- an `Expression` -/
  | done (e : ε)
  /-- a text or a number -/
  | plain (x : χ)
  | dict (l : List (Key × Raw χ ε))

/-- A time in a `Period`, a `date` or a `datetime`. -/
inductive Stamp where
  | day (n : ℤ)
  | moment (t : ℤ)
  deriving DecidableEq, Repr

/-- A key of a converted dict. -/
inductive OutKey where
  | span (start stop : Stamp)
  /-- a key left as it is -/
  | same (k : Key)
  deriving DecidableEq, Repr

/-- What it becomes (validators.py:21). -/
inductive Out (ε : Type) where
  | none
  | expr (e : ε)
  | dict (l : List (OutKey × Out ε))

/-- What can be raised. -/
inductive XErr where
  /-- by `is_temporal_model` -/
  | rules (e : RErr)
  | valueError
  | indexError
  | invalidExpression
  deriving DecidableEq, Repr

/-- `isinstance(key, str)` (validators.py:25). -/
def isText : Key → Bool
  | .text _ => true
  | _ => false

/-- `isinstance(key, date)` (validators.py:33). -/
def stampOf : Key → Option Stamp
  | .day n => some (.day n)
  | .moment t => some (.moment t)
  | _ => Option.none

/-- The `Period` of a text (validators.py:27-30). -/
def textKey (c : Env χ ε) : Key → Except XErr OutKey
  | .text s =>
    match s.splitOn ';' with
    | a :: rest =>
      match c.moment a with
      | Option.none => .error .valueError
      | some start =>
        match rest with
        | [] => .error .indexError
        | b :: _ =>
          match c.moment b with
          | Option.none => .error .valueError
          | some stop => .ok (.span (.moment start) (.moment stop))
    | [] => .error .indexError
  | k => .ok (.same k)

/-- The pairs of a date and the next one (validators.py:35, 38). -/
def spans (top : Stamp) : List Stamp → List OutKey
  | [] => []
  | [a] => [.span a top]
  | a :: b :: rest => .span a b :: spans top (b :: rest)

/-- The keys of the converted dict, as they come (validators.py:25-40). -/
def newKeys (c : Env χ ε) (keys : List Key) : List (Except XErr OutKey) :=
  if keys.all isText then keys.map (textKey c)
  else if keys.all (fun k => (stampOf k).isSome) then (spans (.moment c.top) (keys.filterMap stampOf)).map .ok
  else keys.map fun k => .ok (.same k)

mutual

/-- `convert_expression` (validators.py:19-41). -/
def convert (c : Env χ ε) : Raw χ ε → Except XErr (Out ε)
  | .none => .ok .none
  | .done e => .ok (.expr e)
  | .plain x =>
    match c.setup x with
    | some e => .ok (.expr e)
    | Option.none => .error .invalidExpression
  | .dict l =>
    match isTemporal c.reading (l.map (·.1)) with
    | .error e => .error (.rules e)
    | .ok false => .error .invalidExpression
    | .ok true =>
      match build c (newKeys c (l.map (·.1))) l [] with
      | .error e => .error e
      | .ok d => .ok (.dict d)

/-- The dict comprehensions (validators.py:26-32, 36-39, 40). -/
def build (c : Env χ ε) : List (Except XErr OutKey) → List (Key × Raw χ ε) → List (OutKey × Out ε) →
    Except XErr (List (OutKey × Out ε))
  | .error e :: _, _ :: _, _ => .error e
  | .ok k :: ks, (_, v) :: rest, acc =>
    match convert c v with
    | .error e => .error e
    | .ok o => build c ks rest (dictSet k o acc)
  | _, _, acc => .ok acc

end

/-- The loop of `convert_expressions` (validators.py:52). -/
def convertAll (c : Env χ ε) : List (Raw χ ε) → Except XErr (List (Out ε))
  | [] => .ok []
  | v :: rest =>
    match convert c v with
    | .error e => .error e
    | .ok o =>
      match convertAll c rest with
      | .error e => .error e
      | .ok os => .ok (o :: os)

end Verif.ConvertExpr
