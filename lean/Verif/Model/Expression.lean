import Verif.Model.Rates

/-!
# Model of `libecalc/expression/` (tokens, parsing, evaluation)

Tokens are already classified; the lexer is in `Verif/Model/Lexer.lean`.
-/

namespace Verif.Expression
open Verif.Time Verif.Rates

/-- The supported operators, `OPERATORS` (expression_tree.py:149-161). -/
inductive Op where
  | pow | mul | div | add | sub | eq | ne | lt | gt | le | ge
  deriving DecidableEq, Repr

/-- `Token` (expression_evaluator.py:103-119). `other` are operator tokens the lexer knows but `OPERATORS`
does not (`:=` and `;`). -/
inductive Token where
  | num (v : ℚ)
  | ref (name : String)
  | op (o : Op)
  | lpar
  | rpar
  | other (text : String)
  deriving DecidableEq

/-- Precedences of `OPERATORS` (expression_tree.py:149-161). -/
def Op.prec : Op → Nat
  | .pow => 24 | .mul => 23 | .div => 23 | .add => 22 | .sub => 22
  | .eq => 16 | .ne => 15 | .lt => 14 | .gt => 13 | .le => 12 | .ge => 11

/-- Associativities of `OPERATORS` (expression_tree.py:149-161): is it "LEFT"? -/
def Op.isLeft : Op → Bool
  | .pow => false
  | _ => true

/-- `get_operator` (expression_tree.py:16-21): ValueError for anything not in the table. -/
def getOperator : Token → Except Err Op
  | .op o => .ok o
  | _ => .error .valueError

/-- The inner `while True` loop for an operator token (expression_tree.py:53-67). The stack is a list with the
top first; the result is (stack, output). The precedence of the stacked operator is looked up first. -/
def popOps (token : Token) : List Token → List Token → Except Err (List Token × List Token)
  | [], out => .ok ([], out)
  | .lpar :: st, out => .ok (.lpar :: st, out)
  | o2 :: st, out => do
    let p2 ← getOperator o2
    let p1 ← getOperator token
    if p2.prec > p1.prec ∨ (p1.prec = p2.prec ∧ p1.isLeft = true) then popOps token st (out ++ [o2])
    else return (o2 :: st, out)

/-- The loop for a right parenthesis (expression_tree.py:73-86). -/
def popParen : List Token → List Token → Except Err (List Token × List Token)
  | [], _ => .error .valueError
  | .lpar :: st, out => .ok (st, out)
  | o2 :: st, out => popParen st (out ++ [o2])

/-- One round of the `for` loop (expression_tree.py:49-86). -/
def postfixStep (s : List Token × List Token) (t : Token) : Except Err (List Token × List Token) :=
  match t with
  | .num _ | .ref _ => .ok (s.1, s.2 ++ [t])
  | .lpar => .ok (.lpar :: s.1, s.2)
  | .rpar => popParen s.1 s.2
  | .op _ | .other _ => do
    let (st, out) ← popOps t s.1 s.2
    return (t :: st, out)

/-- The `for` loop over the tokens. -/
def postfixLoop : List Token × List Token → List Token → Except Err (List Token × List Token)
  | s, [] => .ok s
  | s, t :: ts => do
    let s' ← postfixStep s t
    postfixLoop s' ts

/-- The final loop (expression_tree.py:88-92). -/
def popRest : List Token → List Token → Except Err (List Token)
  | [], out => .ok out
  | .lpar :: _, _ => .error .valueError
  | o2 :: st, out => popRest st (out ++ [o2])

/-- `get_postfix` (expression_tree.py:36-94). -/
def getPostfix (ts : List Token) : Except Err (List Token) := do
  let (st, out) ← postfixLoop ([], []) ts
  popRest st out

/-- `Node` (expression_tree.py:97-101). A leaf has no children. -/
inductive Tree where
  | leaf (t : Token)
  | node (t : Token) (l r : Tree)
  deriving DecidableEq

/-- Has the token the tag `operator`? -/
def Token.isOperator : Token → Bool
  | .num _ | .ref _ => false
  | _ => true

/-- The `for` loop of `get_tree` (expression_tree.py:123-138); stack top first. -/
def treeLoop : List Tree → List Token → Except Err (List Tree)
  | st, [] => .ok st
  | st, t :: ts =>
    if t.isOperator then
      match st with
      | r :: l :: st' => treeLoop (.node t l r :: st') ts
      | _ => .error .valueError
    else treeLoop (.leaf t :: st) ts

/-- `get_tree` (expression_tree.py:122-140): the last `stack.pop()` raises IndexError on an empty stack. -/
def getTree (ts : List Token) : Except Err Tree := do
  match ← treeLoop [] ts with
  | [] => .error .indexError
  | t :: _ => return t

/-- `Expression` (expression.py:36-46): tokens with their tree. -/
structure Expr where
  tokens : List Token
  tree : Tree
  deriving DecidableEq

/-- `Expression.__init__` (expression.py:37-46). `InvalidExpressionError` is `valueError`; an IndexError
escapes. -/
def Expr.make (ts : List Token) : Except Err Expr := do
  let post ← getPostfix ts
  let tree ← getTree post
  return ⟨ts, tree⟩

/-- `Expression.multiply` (expression.py:66-82). -/
def Expr.multiply (e1 e2 : Expr) : Except Err Expr :=
  Expr.make ([.lpar] ++ e1.tokens ++ [.rpar] ++ [.op .mul] ++ [.lpar] ++ e2.tokens ++ [.rpar])

/-- `Expression.variables` (expression.py:62-64). -/
def refs : List Token → List String
  | [] => []
  | .ref n :: ts => n :: refs ts
  | _ :: ts => refs ts

/-- The largest double, what `np.nan_to_num` makes of infinity. -/
def maxFloat : ℚ := 2 ^ 1024 - 2 ^ 971

/-- Truth values as floats (`astype(float)`). -/
def boolNum (b : Bool) : ℚ := if b then 1 else 0

/-- `np.nan_to_num(operation(a, b).astype(float))` for one pair of floats (expression_tree.py:104-110).
NaN becomes zero and infinity the largest float. Simplified: exact arithmetic, no overflow, no negative zero;
the power function is a parameter (its results are in general irrational). -/
def opValue (pow : Fl → Fl → Fl) : Op → Fl → Fl → ℚ
  | .pow, a, b => (pow a b).getD 0
  | .div, some a, some b =>
    if b = 0 then (if a = 0 then 0 else if 0 < a then maxFloat else -maxFloat) else a / b
  | .mul, some a, some b => a * b
  | .add, some a, some b => a + b
  | .sub, some a, some b => a - b
  | .eq, some a, some b => boolNum (decide (a = b))
  | .ne, some a, some b => boolNum (decide (a ≠ b))
  | .lt, some a, some b => boolNum (decide (a < b))
  | .gt, some a, some b => boolNum (decide (a > b))
  | .le, some a, some b => boolNum (decide (a ≤ b))
  | .ge, some a, some b => boolNum (decide (a ≥ b))
  | .ne, _, _ => 1
  | _, _, _ => 0

/-- The dict of variables. -/
abbrev Vars := List (String × List Fl)

/-- `Node.evaluate` (expression_tree.py:102-119). Array shapes follow numpy (`npOp`). An operator without a
table entry raises ValueError; a missing reference is an assertion. -/
def Tree.evaluate (pow : Fl → Fl → Fl) (vars : Vars) (n : Nat) : Tree → Except Err (List Fl)
  | .node t l r => do
    let o ← getOperator t
    let a ← l.evaluate pow vars n
    let b ← r.evaluate pow vars n
    npOp (fun x y => some (opValue pow o x y)) a b
  | .leaf (.num v) => .ok (List.replicate n (some v))
  | .leaf (.ref name) =>
    match vars.lookup name with
    | some vs => .ok vs
    | none => .error .assertion
  | .leaf _ => .error .assertion

/-- `Expression.evaluate` (expression.py:148-155). -/
def Expr.evaluate (pow : Fl → Fl → Fl) (vars : Vars) (n : Nat) (e : Expr) : Except Err (List Fl) :=
  if (refs e.tokens).all (fun r => (vars.lookup r).isSome) then e.tree.evaluate pow vars n
  else .error .valueError

end Verif.Expression
