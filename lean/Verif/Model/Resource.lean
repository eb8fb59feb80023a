import Verif.Model.Rates
import Verif.Model.Names

/-!
# Model of tabular resources

* `presentation/yaml/yaml_entities.py` (`MemoryResource`)
* `presentation/yaml/domain/time_series_resource.py` (`TimeSeriesResource`)

Not modelled: the text of CSV files and `pandas.read_csv` (the parsed frame is the input), the parsing of date texts
(a parameter) and `float` of a text (a parameter). Case folding (`str.lower`) is a parameter as well, so that the results
hold for every reading of it.
-/

namespace Verif.Resource
open Verif.Time Verif.Rates

/-- One cell of a table: `float | int | str` (yaml_entities.py:30); a float without value is NaN. -/
inductive Cell where
  | int (n : Int)
  | float (x : Fl)
  | text (s : String)
  deriving DecidableEq, Repr

/-- What can be raised here (common/errors/exceptions.py:76-134). -/
inductive RErr where
  | invalidHeader
  | headerNotFound (header : String)
  | columnNotFound (header : String)
  | invalidColumn (header : String) (row : Nat)
  | columnLength (header : String)
  | noColumns
  | noRows
  | rowsMismatch
  | noHeaders
  | badTimeVector
  | emptyTimeVector
  | duplicateDates
  | indexError
  deriving DecidableEq, Repr

/-- `class MemoryResource` (yaml_entities.py:20-30). -/
structure Memory where
  headers : List String
  data : List (List Cell)
  deriving DecidableEq, Repr

/-- The index of the first header equal up to case (yaml_entities.py:47-50). -/
def headerIndex (lower : String → String) (headers : List String) (header : String) : Option Nat :=
  headers.findIdx? fun h => decide (lower h = lower header)

/-- `get_column` (yaml_entities.py:35-56). -/
def getColumn (lower : String → String) (m : Memory) (header : String) : Except RErr (List Cell) :=
  match headerIndex lower m.headers header with
  | none => .error (.headerNotFound header)
  | some i =>
    match m.data[i]? with
    | some column => .ok column
    | none => .error (.columnNotFound header)

/-- `[A-Za-z]` in the header pattern (yaml_entities.py:129). -/
def isLetter (c : Char) : Bool :=
  (decide ('A' ≤ c) && decide (c ≤ 'Z')) || (decide ('a' ≤ c) && decide (c ≤ 'z'))

/-- `[0-9]`. -/
def isDigit (c : Char) : Bool := decide ('0' ≤ c) && decide (c ≤ '9')

/-- `\s` of a Python text pattern: the characters for which `str.isspace` holds. -/
def isSpace (c : Char) : Bool :=
  let n := c.toNat
  (decide (9 ≤ n) && decide (n ≤ 13)) || (decide (28 ≤ n) && decide (n ≤ 32)) || n == 0x85 || n == 0xA0 ||
    n == 0x1680 || (decide (0x2000 ≤ n) && decide (n ≤ 0x200A)) || n == 0x2028 || n == 0x2029 || n == 0x202F ||
    n == 0x205F || n == 0x3000

/-- `[A-Za-z0-9_.,\-\s#+:/]` (yaml_entities.py:129). -/
def isHeaderChar (c : Char) : Bool :=
  isLetter c || isDigit c || isSpace c || ['_', '.', ',', '-', '#', '+', ':', '/'].contains c

/-- `re.match(r"^[A-Za-z][A-Za-z0-9_.,\-\s#+:/]*$", header)` (yaml_entities.py:129). A newline before the end, which `$`
allows, is also matched by `\s`. -/
def matchesHeader (header : String) : Bool :=
  match header.toList with
  | [] => false
  | c :: cs => isLetter c && cs.all isHeaderChar

/-- `\d+$`: at least one digit, then the end or one newline. -/
def digitsToEnd : List Char → Bool
  | [] => false
  | [c] => isDigit c
  | [c, d] => isDigit c && (isDigit d || d == '\n')
  | c :: cs => isDigit c && digitsToEnd cs

/-- `re.match(r"^Unnamed: \d+$", header)` (yaml_entities.py:135), for headers that passed the first pattern. -/
def isUnnamed (header : String) : Bool :=
  "Unnamed: ".toList.isPrefixOf header.toList && digitsToEnd (header.toList.drop 9)

/-- `_validate_headers` (yaml_entities.py:118-136). -/
def validateHeaders : List String → Except RErr Unit
  | [] => .ok ()
  | h :: hs =>
    if matchesHeader h = false then .error .invalidHeader
    else if isUnnamed h then .error .invalidHeader
    else validateHeaders hs

/-- `isinstance(item, float) and math.isnan(item)` (yaml_entities.py:152). -/
def isNaN : Cell → Bool
  | .float none => true
  | _ => false

/-- `_validate_not_nan` with headers (yaml_entities.py:138-161), from the column number `i` on. -/
def validateNotNan (headers : List String) : Nat → List (List Cell) → Except RErr Unit
  | _, [] => .ok ()
  | i, col :: cols =>
    match col.findIdx? isNaN with
    | some row =>
      match headers[i]? with
      | some h => .error (.invalidColumn h row)
      | none => .error .indexError
    | none => validateNotNan headers (i + 1) cols

/-- `validate` (yaml_entities.py:58-62). -/
def validate (m : Memory) (allowNans : Bool) : Except RErr Memory := do
  validateHeaders m.headers
  if allowNans then .ok m
  else
    validateNotNan m.headers 0 m.data
    .ok m

/-- What `pandas.read_csv` returned (yaml_entities.py:77-79): column labels and columns with one cell per row. -/
structure Frame where
  labels : List String
  rows : Nat
  columns : List (List Cell)
  deriving DecidableEq, Repr

/-- `str.strip` (yaml_entities.py:88). -/
def strip (s : String) : String :=
  String.ofList (((s.toList.dropWhile isSpace).reverse.dropWhile isSpace).reverse)

/-- `from_string` once the text has been read (yaml_entities.py:88-102). `df.empty` holds when there are no rows or no
columns; `[[] * len(headers)]` is a list of one empty list. -/
def fromFrame (f : Frame) (allowNans : Bool) : Except RErr Memory := do
  let headers := f.labels.map strip
  validateHeaders headers
  if allowNans then pure () else validateNotNan headers 0 f.columns
  .ok ⟨headers, if f.rows = 0 ∨ f.columns = [] then [[]] else f.columns⟩

/-- `class TimeSeriesResource` (time_series_resource.py:33-73). -/
structure TimeSeries where
  resource : Memory
  headers : List String
  times : List DateTime
  deriving DecidableEq, Repr

/-- Which header names the time vector, and the headers left (time_series_resource.py:45-57). -/
def timeHeader : List String → Except RErr (String × List String)
  | [] => .error .noHeaders
  | h :: hs =>
    if (h :: hs).contains "DATE" then .ok ("DATE", (h :: hs).filter fun x => decide (x ≠ "DATE"))
    else if (h :: hs).contains "DATES" then .ok ("DATES", (h :: hs).filter fun x => decide (x ≠ "DATES"))
    else .ok (h, hs)

/-- `isinstance(time, int | str)` (time_series_resource.py:60). -/
def isTime : Cell → Bool
  | .float _ => false
  | _ => true

/-- `TimeSeriesResource.__init__` (time_series_resource.py:38-73); `parse` is `_parse_time_vector`, without value when it
raises. -/
def TimeSeries.create (lower : String → String) (parse : List Cell → Option (List DateTime)) (m : Memory) :
    Except RErr TimeSeries := do
  let (h, rest) ← timeHeader m.headers
  let column ← getColumn lower m h
  if column.all isTime then
    match parse column with
    | some times => .ok ⟨m, rest, times⟩
    | none => .error .badTimeVector
  else .error .badTimeVector

/-- `float(value)` succeeds (time_series_resource.py:110). -/
def isNumber (numeric : String → Bool) : Cell → Bool
  | .text s => numeric s
  | _ => true

/-- The loop over columns of `_validate_columns` (time_series_resource.py:101-117). -/
def validateEach (numeric : String → Bool) (n : Nat) : List (String × List Cell) → Except RErr Unit
  | [] => .ok ()
  | (h, col) :: rest =>
    if col.length ≠ n then .error (.columnLength h)
    else
      match col.findIdx? (fun c => !isNumber numeric c) with
      | some row => .error (.invalidColumn h row)
      | none => validateEach numeric n rest

/-- `_validate_time_vector` and `_validate_columns` (time_series_resource.py:75-117), called by `validate`
(time_series_resource.py:229-234). -/
def TimeSeries.validate (lower : String → String) (numeric : String → Bool) (t : TimeSeries) :
    Except RErr TimeSeries := do
  if t.times = [] then throw .emptyTimeVector
  if (Names.getDuplicates t.times) ≠ [] then throw .duplicateDates
  let columns ← t.headers.mapM (getColumn lower t.resource)
  match columns with
  | [] => throw .noColumns
  | c :: _ =>
    if c.length = 0 then throw .noRows
    if c.length ≠ t.times.length then throw .rowsMismatch
    validateEach numeric t.times.length (t.headers.zip columns)
    .ok t

end Verif.Resource
