import Verif.Model.Time

/-!
# Model of the lexer of expressions

Sources: `libecalc/expression/expression_evaluator.py` (lex, lexer, Token) and `libecalc/expression/expression.py`
(validate, `__str__`, multiply, `_expression_as_number_if_number`).

Simplifications:
* a string is a list of characters;
* a regular expression is a function from the remaining text to the length of the match (`re.match` at a position);
  none of the patterns needs backtracking beyond what is written out;
* Python's `float(text)` and `str(float)` are parameters `parse` and `fmt`, floats are any type `φ`. Token values pass
  through pydantic (`float | int | str`, left to right): what `float` accepts becomes a float.
-/

namespace Verif.Lexer
open Verif.Time

/-- `[ \n\t]` (expression_evaluator.py:74). -/
def isBlank (c : Char) : Bool := c == ' ' || c == '\n' || c == '\t'

/-- `[0-9]`. -/
def isDigit (c : Char) : Bool := '0' ≤ c && c ≤ '9'

/-- `[A-Za-z]`. -/
def isLetter (c : Char) : Bool := ('A' ≤ c && c ≤ 'Z') || ('a' ≤ c && c ≤ 'z')

/-- Letters, digits and `. _ ; : + * / -`, the characters of a reference after the first (expression_evaluator.py:96). -/
def isRefChar (c : Char) : Bool :=
  isLetter c || isDigit c || c == '.' || c == '_' || c == ';' || c == ':' || c == '+' || c == '*' || c == '/' || c == '-'

/-- `[A-Za-z0-9_]` (expression_evaluator.py:97). -/
def isVarChar (c : Char) : Bool := isLetter c || isDigit c || c == '_'

/-- `TokenTag` (expression_evaluator.py:103-106). -/
inductive Tag where
  | reference | operator | numeric
deriving DecidableEq, Repr

/-- Length of the match of a pattern `[...]*`. -/
def run (p : Char → Bool) (l : List Char) : Nat := (l.takeWhile p).length

/-- A pattern `[...]+`. -/
def many (p : Char → Bool) (l : List Char) : Option Nat := if run p l = 0 then none else some (run p l)

/-- A pattern without special characters. -/
def lit (s l : List Char) : Option Nat := if s.isPrefixOf l then some s.length else none

/-- `#[^\n]*` (expression_evaluator.py:75). -/
def comment : List Char → Option Nat
  | '#' :: l => some (1 + run (· != '\n') l)
  | _ => none

/-- `(\.[0-9]+)?` -/
def fraction : List Char → Nat
  | '.' :: l => if run isDigit l = 0 then 0 else 1 + run isDigit l
  | _ => 0

/-- `[-+]?` -/
def sign : List Char → Nat
  | c :: _ => if c == '-' || c == '+' then 1 else 0
  | [] => 0

/-- `e[-+]?[0-9]+` -/
def exponent : List Char → Option Nat
  | c :: l => if c == 'e' then (many isDigit (l.drop (sign l))).map (1 + sign l + ·) else none
  | [] => none

/-- `[0-9](\.[0-9]+)?e[-+]?[0-9]+` (expression_evaluator.py:94). -/
def scientific : List Char → Option Nat
  | c :: l => if isDigit c then (exponent (l.drop (fraction l))).map (1 + fraction l + ·) else none
  | [] => none

/-- A letter followed by any number of reference characters (expression_evaluator.py:96). -/
def reference : List Char → Option Nat
  | c :: l => if isLetter c then some (1 + run isRefChar l) else none
  | [] => none

/-- `\$var\.[A-Za-z][A-Za-z0-9_]*` (expression_evaluator.py:97). -/
def userVariable (l : List Char) : Option Nat :=
  match lit ['$', 'v', 'a', 'r', '.'] l with
  | none => none
  | some _ =>
    match l.drop 5 with
    | c :: l' => if isLetter c then some (6 + run isVarChar l') else none
    | [] => none

/-- The literal operators, in order (expression_evaluator.py:76-93). -/
def operators : List (List Char) :=
  [[':', '='], ['('], [')'], [';'], ['{', '+', '}'], ['{', '-', '}'], ['{', '*', '}'], ['{', '/', '}'], ['{', '^', '}'],
   ['<', '='], ['<'], ['>', '='], ['>'], ['=', '='], ['!', '=']]

/-- `token_exprs` (expression_evaluator.py:73-98). -/
def patterns : List ((List Char → Option Nat) × Option Tag) :=
  [(many isBlank, none), (comment, none)] ++ operators.map (fun s => (lit s, some .operator)) ++
  [(scientific, some .numeric), (many (fun c => isDigit c || c == '.'), some .numeric), (reference, some .reference),
   (userVariable, some .reference)]

/-- The first pattern that matches (expression_evaluator.py:43-57). -/
def firstMatch (l : List Char) : Option (Nat × Option Tag) :=
  patterns.findSome? fun p => (p.1 l).map fun n => (n, p.2)

/-- `Token.value` (expression_evaluator.py:111). -/
inductive Val (φ : Type) where
  | num (v : φ)
  | text (s : List Char)
deriving DecidableEq

/-- `Token` (expression_evaluator.py:109-116). -/
structure Tok (φ : Type) where
  tag : Tag
  val : Val φ
deriving DecidableEq

section
variable {φ : Type} (parse : List Char → Option φ) (fmt : φ → List Char)

/-- `Token(tag=tag, value=text)`: the value goes through the union `float | int | str`. -/
def mkTok (tag : Tag) (text : List Char) : Tok φ :=
  match parse text with
  | some v => ⟨tag, .num v⟩
  | none => ⟨tag, .text text⟩

/-- `lex` (expression_evaluator.py:37-65) with fuel; every match is at least one character long. -/
def lexN : Nat → List Char → Except Err (List (Tok φ))
  | _, [] => .ok []
  | 0, _ => .error .keyError
  | n + 1, l =>
    match firstMatch l with
    | none => .error .keyError
    | some (k, tag) =>
      match lexN n (l.drop k) with
      | .error e => .error e
      | .ok ts =>
        match tag with
        | none => .ok ts
        | some t => .ok (mkTok parse t (l.take k) :: ts)

/-- `lexer` for a string (expression_evaluator.py:68-100). -/
def lex (l : List Char) : Except Err (List (Tok φ)) := lexN parse l.length l

/-- `Expression.validate` for a string (expression.py:84-97, 177-192): a string that is a number as a whole is one
numeric token. -/
def read (l : List Char) : Except Err (List (Tok φ)) :=
  match parse l with
  | some v => .ok [⟨.numeric, .num v⟩]
  | none => lex parse l

/-- `str(token)` (expression_evaluator.py:113-114). -/
def Tok.show (t : Tok φ) : List Char :=
  match t.val with
  | .num v => fmt v
  | .text s => s

/-- `" ".join(...)` (expression.py:57). -/
def joined : List (Tok φ) → List Char
  | [] => []
  | [t] => t.show fmt
  | t :: ts => t.show fmt ++ ' ' :: joined ts

/-- `str.replace(" )", ")")` (expression.py:58). -/
def dropBeforeClose : List Char → List Char
  | ' ' :: ')' :: l => ')' :: dropBeforeClose l
  | c :: l => c :: dropBeforeClose l
  | [] => []

/-- `str.replace("( ", "(")` (expression.py:59). -/
def dropAfterOpen : List Char → List Char
  | '(' :: ' ' :: l => '(' :: dropAfterOpen l
  | c :: l => c :: dropAfterOpen l
  | [] => []

/-- `Expression.__str__` (expression.py:56-60). -/
def render (ts : List (Tok φ)) : List Char := dropAfterOpen (dropBeforeClose (joined fmt ts))

/-- `Expression.multiply` (expression.py:66-82): the tokens. -/
def multiply (a b : List (Tok φ)) : List (Tok φ) :=
  [⟨.operator, .text ['(']⟩] ++ a ++ [⟨.operator, .text [')']⟩] ++ [⟨.operator, .text ['{', '*', '}']⟩] ++
    [⟨.operator, .text ['(']⟩] ++ b ++ [⟨.operator, .text [')']⟩]

/-- `Expression.variables` (expression.py:62-64). -/
def variableNames (ts : List (Tok φ)) : List (List Char) :=
  (ts.filter fun t => t.tag == .reference).map (·.show fmt)

end

end Verif.Lexer
