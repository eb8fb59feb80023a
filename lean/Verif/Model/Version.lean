import Verif.Model.Time

/-!
Model of `src/libecalc/common/version.py`.

Strings are lists of characters. `\d` of a Python `str` pattern matches every Unicode decimal digit, and `int` accepts
the same characters; the table of Unicode digits is the parameter `digit` (the value of a character as a decimal digit).
Python refuses to convert between `int` and strings of more than 4300 digits (`ValueError`); this limit is part of the
model.
-/

namespace Verif.VersionModel

open Verif.Time

/-- `Version` (version.py:10-24). -/
structure Version where
  major : Int
  minor : Int
  patch : Int
  deriving DecidableEq, Repr

/-- `cls()` (version.py:16-18). -/
def Version.zero : Version := ⟨0, 0, 0⟩

/-- `sys.get_int_max_str_digits()`. -/
def maxDigits : Nat := 4300

/-- `int(s)` for a string of digits. -/
def parseInt (digit : Char → Option Nat) (s : List Char) : Except Err Int :=
  if maxDigits < s.length then .error .valueError
  else .ok ((s.foldl (fun acc c => 10 * acc + (digit c).getD 0) 0 : Nat) : Int)

/-- The longest run of digits at the start of `s`, and what follows it (a greedy `\d*`). -/
def digits (digit : Char → Option Nat) : List Char → List Char × List Char
  | [] => ([], [])
  | c :: cs => if (digit c).isSome then let r := digits digit cs; (c :: r.1, r.2) else ([], c :: cs)

/-- `(\.\d+)?`: the digits of the group, if it matches, and what follows. A group that does not match leaves the
position where it is. -/
def dotDigits (digit : Char → Option Nat) (s : List Char) : Option (List Char) × List Char :=
  match s with
  | '.' :: cs =>
    let r := digits digit cs
    if r.1 = [] then (none, s) else (some r.1, r.2)
  | _ => (none, s)

/-- `$`: the end, or a newline at the end. -/
def atEnd (s : List Char) : Bool := decide (s = [] ∨ s = ['\n'])

/-- `re.match(VERSION_FORMAT, s)` (version.py:7,42-43): the digits of the three groups. The groups never compete for the
same characters, so the greedy match is the only candidate. -/
def matchVersion (digit : Char → Option Nat) (s : List Char) :
    Option (List Char × Option (List Char) × Option (List Char)) :=
  let a := digits digit s
  if a.1 = [] then none
  else
    let b := dotDigits digit a.2
    let c := dotDigits digit b.2
    if atEnd c.2 then some (a.1, b.1, c.1) else none

/-- `version_string[1:]` if it starts with a `v` in either case (version.py:39-40). -/
def stripV : List Char → List Char
  | 'v' :: cs => cs
  | 'V' :: cs => cs
  | cs => cs

/-- `int(match[k][1:]) if match[k] is not None else 0` (version.py:51-52). -/
def parseGroup (digit : Char → Option Nat) : Option (List Char) → Except Err Int
  | none => .ok 0
  | some ds => parseInt digit ds

/-- `Version.from_string` (version.py:26-56). -/
def fromString (digit : Char → Option Nat) : Option (List Char) → Except Err Version
  | none => .ok .zero
  | some s =>
    match matchVersion digit (stripV s) with
    | none => .ok .zero
    | some (a, b, c) => do
      let major ← parseInt digit a
      let minor ← parseGroup digit b
      let patch ← parseGroup digit c
      return ⟨major, minor, patch⟩

/-- `str(n)` of an `int`. -/
def showInt (n : Int) : Except Err (List Char) :=
  let ds := Nat.toDigits 10 n.natAbs
  if maxDigits < ds.length then .error .valueError
  else .ok (if n < 0 then '-' :: ds else ds)

/-- `Version.__str__` (version.py:58-59). -/
def Version.toStr (v : Version) : Except Err (List Char) := do
  let a ← showInt v.major
  let b ← showInt v.minor
  let c ← showInt v.patch
  return a ++ ['.'] ++ b ++ ['.'] ++ c

/-- Comparison of Python tuples: the first differing element decides (`less` on elements, `whenEqual` for equal
tuples). -/
def tupleCompare (less : Int → Int → Bool) (whenEqual : Bool) : List (Int × Int) → Bool
  | [] => whenEqual
  | (a, b) :: rest => if a = b then tupleCompare less whenEqual rest else less a b

/-- `_version_tuple` of both (version.py:64-66). -/
def tuples (v w : Version) : List (Int × Int) := [(v.major, w.major), (v.minor, w.minor), (v.patch, w.patch)]

/-- `__gt__` (version.py:68-72). -/
def Version.gt (v w : Version) : Bool := tupleCompare (fun a b => decide (a > b)) false (tuples v w)
/-- `__ge__` (version.py:74-78). -/
def Version.ge (v w : Version) : Bool := tupleCompare (fun a b => decide (a ≥ b)) true (tuples v w)
/-- `__lt__` (version.py:80-84). -/
def Version.lt (v w : Version) : Bool := tupleCompare (fun a b => decide (a < b)) false (tuples v w)
/-- `__le__` (version.py:86-90). -/
def Version.le (v w : Version) : Bool := tupleCompare (fun a b => decide (a ≤ b)) true (tuples v w)
/-- `__eq__` (version.py:92-96). -/
def Version.eq (v w : Version) : Bool := (tuples v w).all fun p => decide (p.1 = p.2)
/-- `__ne__` (version.py:98-102). -/
def Version.ne (v w : Version) : Bool := !(Version.eq v w)

end Verif.VersionModel
