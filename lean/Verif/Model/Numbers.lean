import Mathlib.Data.Int.Log
import Mathlib.Data.Rat.Floor

/-!
# Numbers in reports

`libecalc/common/math/numbers.py`. Numbers are exact; `nan` and infinite numbers, which are passed through as text, are
left out. `numpy.format_float_positional(number, n, unique=True, fractional=True, trim="-")` is modelled as: sign of the
number, then the number rounded to `n` decimals (a tie goes to the even digit) without trailing zeros and without a
trailing decimal point.
-/

namespace Verif.Numbers

/-- Nearest integer, ties to even. -/
def halfEven (q : ℚ) : ℤ :=
  if q - ⌊q⌋ < 1 / 2 then ⌊q⌋
  else if 1 / 2 < q - ⌊q⌋ then ⌊q⌋ + 1
  else if ⌊q⌋ % 2 = 0 then ⌊q⌋ else ⌊q⌋ + 1

/-- A number in text: sign, whole part, decimals. -/
structure Numeral where
  negative : Bool
  whole : ℕ
  decimals : List ℕ
deriving DecidableEq, Repr

/-- The `n` decimals of `r / 10 ^ n`, most significant first. -/
def digits : ℕ → ℕ → List ℕ
  | 0, _ => []
  | n + 1, r => r / 10 ^ n % 10 :: digits n r

/-- Remove trailing zeros (`trim="-"`). -/
def trim : List ℕ → List ℕ
  | [] => []
  | d :: ds => if trim ds = [] ∧ d = 0 then [] else d :: trim ds

/-- `numpy.format_float_positional(x, n, unique=True, fractional=True, trim="-")`. -/
def positional (x : ℚ) (n : ℕ) : Numeral :=
  let m := (halfEven (|x| * 10 ^ n)).toNat
  ⟨decide (x < 0), m / 10 ^ n, trim (digits n (m % 10 ^ n))⟩

/-- `new_precision` (numbers.py:48-54); `Decimal.adjusted` is the exponent of the leading digit. -/
def newPrecision (x : ℚ) (precision : ℤ) : ℕ :=
  let a := Int.log 10 |x|
  if a < 0 then precision.toNat
  else if a < precision then (precision - a).toNat
  else 0

inductive NErr
  | precision
deriving DecidableEq, Repr

/-- `Numbers.format_to_precision` (numbers.py:15-64). -/
def format (x : ℚ) (precision : ℤ) : Except NErr Numeral :=
  if precision < -1 then .error .precision
  else if |x| ≤ (10 : ℚ) ^ (-precision - 1) then .ok ⟨false, 0, []⟩
  else .ok (positional x (newPrecision x precision))

/-- The characters of the text. -/
def Numeral.text (t : Numeral) : String :=
  (if t.negative then "-" else "") ++ toString t.whole ++
    (if t.decimals = [] then "" else "." ++ String.join (t.decimals.map toString))

/-- `float(text)`: what the text says. -/
def Numeral.value (t : Numeral) : ℚ :=
  (if t.negative then -1 else 1) * (t.whole + t.decimals.foldr (fun (d : ℕ) (v : ℚ) => (d + v) / 10) 0)

/-- A result as a tree: `list`s, and `dict`s or models with keys; leaves are floats or anything else (integers, texts,
truth values, dates, tuples). -/
inductive Tree
  | num (x : ℚ)
  | other (s : String)
  | list (ts : List Tree)
  | dict (ts : List (String × Tree))

mutual
/-- `recursive_rounding` (numbers.py:78-90). -/
def Tree.round (precision : ℤ) : Tree → Except NErr Tree
  | .num x => match format x precision with
    | .error e => .error e
    | .ok t => .ok (.num t.value)
  | .other s => .ok (.other s)
  | .list ts => match roundList precision ts with
    | .error e => .error e
    | .ok ts' => .ok (.list ts')
  | .dict ts => match roundDict precision ts with
    | .error e => .error e
    | .ok ts' => .ok (.dict ts')

def roundList (precision : ℤ) : List Tree → Except NErr (List Tree)
  | [] => .ok []
  | t :: ts => match t.round precision with
    | .error e => .error e
    | .ok t' => match roundList precision ts with
      | .error e => .error e
      | .ok ts' => .ok (t' :: ts')

def roundDict (precision : ℤ) : List (String × Tree) → Except NErr (List (String × Tree))
  | [] => .ok []
  | (k, t) :: ts => match t.round precision with
    | .error e => .error e
    | .ok t' => match roundDict precision ts with
      | .error e => .error e
      | .ok ts' => .ok ((k, t') :: ts')
end

end Verif.Numbers
