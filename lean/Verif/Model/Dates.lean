/-!
# Dates of a time series

`TimeSeriesResource._parse_time_vector` (`libecalc/presentation/yaml/domain/time_series_resource.py:120-228`).

Texts are lists of characters. Simplifications: digits and white space are the ASCII ones; the message of the error is
not modelled. `pandas.to_datetime` is a parameter (`reader`): it reads one normalised text in one format, and the call
raises if it fails for one of them. (Without a format pandas guesses one from the first text; all texts given to it here
have the same pattern.)
-/

namespace Verif.Dates

abbrev Text := List Char

/-- The regular expressions that are needed; a backreference is written as an alternative. -/
inductive Re
  | set (cs : List Char)
  | eps
  | seq (a b : Re)
  | alt (a b : Re)
  | many (cs : List Char)

/-- The rests after a longer and longer run of characters of a set. -/
def manyRests (cs : List Char) : Text → List Text
  | [] => [[]]
  | c :: s => (c :: s) :: (if c ∈ cs then manyRests cs s else [])

/-- All rests that a match at the start of the text can leave. -/
def Re.rests : Re → Text → List Text
  | .set cs, c :: s => if c ∈ cs then [s] else []
  | .set _, [] => []
  | .eps, s => [s]
  | .seq a b, s => (a.rests s).flatMap b.rests
  | .alt a b, s => a.rests s ++ b.rests s
  | .many cs, s => manyRests cs s

/-- `re.fullmatch`. -/
def Re.full (r : Re) (s : Text) : Bool := (r.rests s).contains []

/-- `\d`, ASCII only (time_series_resource.py:137). -/
def digits : List Char := ['0','1','2','3','4','5','6','7','8','9']
/-- One digit. -/
def digit : Re := .set digits
/-- `\s`, ASCII only (time_series_resource.py:142). -/
def white : List Char := [' ', '\t', '\n', '\r', '\x0b', '\x0c']

infixr:65 " ⬝ " => Re.seq
infixr:60 " ∣∣ " => Re.alt

/-- `x?` -/
def opt (r : Re) : Re := r ∣∣ .eps

/-- `\d{4}` (time_series_resource.py:137). -/
def year : Re := digit ⬝ digit ⬝ digit ⬝ digit
/-- `(1[0-2]|0?[1-9])` (time_series_resource.py:139). -/
def month : Re := (.set ['1'] ⬝ .set ['0','1','2']) ∣∣ (opt (.set ['0']) ⬝ .set ['1','2','3','4','5','6','7','8','9'])
/-- `(3[01]|[12][0-9]|0?[1-9])` (time_series_resource.py:139). -/
def day : Re := (.set ['3'] ⬝ .set ['0','1']) ∣∣ (.set ['1','2'] ⬝ digit) ∣∣
  (opt (.set ['0']) ⬝ .set ['1','2','3','4','5','6','7','8','9'])
/-- `(1[0-2]|0[1-9])` (time_series_resource.py:142). -/
def month2 : Re := (.set ['1'] ⬝ .set ['0','1','2']) ∣∣ (.set ['0'] ⬝ .set ['1','2','3','4','5','6','7','8','9'])
/-- `(3[01]|0[1-9]|[12][0-9])` (time_series_resource.py:142). -/
def day2 : Re := (.set ['3'] ⬝ .set ['0','1']) ∣∣ (.set ['0'] ⬝ .set ['1','2','3','4','5','6','7','8','9']) ∣∣
  (.set ['1','2'] ⬝ digit)
/-- `(2[0-3]|[01][0-9])` (time_series_resource.py:142). -/
def hour : Re := (.set ['2'] ⬝ .set ['0','1','2','3']) ∣∣ (.set ['0','1'] ⬝ digit)
/-- `([0-5][0-9])` (time_series_resource.py:142). -/
def sixty : Re := .set ['0','1','2','3','4','5'] ⬝ digit

/-- `(\.|\/|-)` (time_series_resource.py:139). -/
def seps : List Char := ['.', '/', '-']

/-- A pattern with the same separator in two places. -/
def same (f : Re → Re) : Re := f (.set ['.']) ∣∣ f (.set ['/']) ∣∣ f (.set ['-'])

/-- `"YEAR_ONLY"` (time_series_resource.py:137). -/
def yearOnly : Re := year
/-- `"ISO8601_date"` (time_series_resource.py:139). -/
def isoDate : Re := same fun s => year ⬝ s ⬝ month ⬝ s ⬝ day
/-- `"ISO8601_datetime"` (time_series_resource.py:142). -/
def isoDatetime : Re :=
  opt (.set ['-']) ⬝ opt (.set ['1','2','3','4','5','6','7','8','9'] ⬝ .many digits) ⬝ year ⬝ .set seps ⬝ month2 ⬝
    .set seps ⬝ day2 ⬝ .set ('T' :: white) ⬝ hour ⬝ .set [':'] ⬝ sixty ⬝ .set [':'] ⬝ sixty ⬝
    opt (.set ['.'] ⬝ digit ⬝ .many digits) ⬝
    opt (.set ['Z'] ∣∣ (.set ['+', '-'] ⬝ hour ⬝ .set [':'] ⬝ sixty))
/-- `"EU_date"` (time_series_resource.py:144). -/
def euDate : Re := same fun s => day ⬝ s ⬝ month ⬝ s ⬝ year
/-- `"EU_datetime"` (time_series_resource.py:146). -/
def euDatetime : Re := same fun s => day ⬝ s ⬝ month ⬝ s ⬝ year ⬝ .set ('T' :: white) ⬝ (digit ⬝ digit) ⬝ .set [':'] ⬝
  (digit ⬝ digit) ⬝ opt (.set [':'] ⬝ digit ⬝ digit)

/-- `str.replace(r"/|\.|\\", "-")` (time_series_resource.py:155). -/
def normalise (t : Text) : Text := t.map fun c => if c = '/' ∨ c = '.' ∨ c = '\\' then '-' else c

/-- A `datetime` to the second. -/
structure Moment where
  year : Nat
  month : Nat
  day : Nat
  hour : Nat
  minute : Nat
  second : Nat
deriving DecidableEq, Repr

/-- How `pandas.to_datetime` is called: with the format `%Y`, with the format `ISO8601`, or with the day first
(time_series_resource.py:157-166). -/
inductive Fmt
  | year
  | iso
  | dayFirst
deriving DecidableEq, Repr

/-- The `ValueError` (time_series_resource.py:219-228). -/
inductive TErr
  | value
deriving DecidableEq, Repr

/-- `pandas.to_datetime(texts, errors="raise")` (time_series_resource.py:158). -/
def toDatetime (reader : Fmt → Text → Option Moment) (f : Fmt) : List Text → Except TErr (List Moment)
  | [] => .ok []
  | t :: ts => match reader f t with
    | none => .error .value
    | some m => match toDatetime reader f ts with
      | .error e => .error e
      | .ok ms => .ok (m :: ms)

/-- `_parse_time_vector` (time_series_resource.py:121-228). -/
def parse (reader : Fmt → Text → Option Moment) (texts : List Text) : Except TErr (List Moment) :=
  let normal := texts.map normalise
  if texts.all yearOnly.full then toDatetime reader .year normal
  else if texts.all isoDatetime.full then toDatetime reader .iso normal
  else if texts.all isoDate.full then toDatetime reader .iso normal
  else if texts.all euDatetime.full then toDatetime reader .dayFirst normal
  else if texts.all euDate.full then toDatetime reader .dayFirst normal
  else .error .value

end Verif.Dates
