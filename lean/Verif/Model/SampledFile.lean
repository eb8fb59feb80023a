import Verif.Model.ChartFile
import Verif.Model.Sampled

/-!
# Model of sampled compressors and tables read from files

`libecalc/presentation/yaml/mappers/consumer_function_mapper.py` (`_create_compressor_sampled`, `create_tabular_model`) and
`libecalc/presentation/yaml/mappers/facility_input.py` (`_get_float_column_or_none`), on the resources of
`Verif.Resource` and `Verif.ChartFile`. The model built from the columns is that of `Verif.Sampled`.

Simplifications: as in `Verif.ChartFile` (`float` of a text gives a number or fails); that the file is there and the
location of errors in the YAML are left out.
-/

namespace Verif.SampledFile
open Verif.Resource Verif.ChartFile

/-- `_get_float_column_or_none` (facility_input.py:13-17); all errors of `get_float_column` are
`InvalidResourceException` (exceptions.py:76-127). -/
def columnOrNone (r : Reader) (m : Memory) (header : String) : Option (List ℚ) :=
  match floatColumn r m header with
  | .ok xs => some xs
  | .error _ => none

/-- The arguments of the sampled compressor (consumer_function_mapper.py:787-818). -/
def sampledData (r : Reader) (m : Memory) : Except CErr Sampled.Data :=
  let hasFuel := decide ("FUEL" ∈ m.headers)
  let header := if hasFuel then "FUEL" else "POWER"
  match floatColumn r m header with
  | .error e => .error e
  | .ok energy => .ok {
      isPower := decide (header ≠ "FUEL")
      energy := energy
      rate := columnOrNone r m "RATE"
      ps := columnOrNone r m "SUCTION_PRESSURE"
      pd := columnOrNone r m "DISCHARGE_PRESSURE"
      power := if hasFuel then columnOrNone r m "POWER" else none }

/-- What creating the compressor can raise: an `EcalcError` of the file that is passed on, or the
`ModelValidationException` made of an exception of the model (consumer_function_mapper.py:845-846). -/
inductive FileErr where
  | file (e : CErr)
  | model (e : Sampled.SErr)

/-- `_create_compressor_sampled` (consumer_function_mapper.py:786-818). -/
def createSampled (eng : Sampled.Engine) (r : Reader) (m : Memory) : Except FileErr Sampled.Model :=
  match sampledData r m with
  | .error e => .error (.file e)
  | .ok d =>
    match d.create eng with
    | .error e => .error (.model e)
    | .ok x => .ok x

/-- The columns of a list of headers, read in order (consumer_function_mapper.py:891). -/
def readColumns (r : Reader) (m : Memory) : List String → Except CErr (List (List ℚ))
  | [] => .ok []
  | h :: hs =>
    match floatColumn r m h with
    | .error e => .error e
    | .ok xs =>
      match readColumns r m hs with
      | .error e => .error e
      | .ok rest => .ok (xs :: rest)

/-- `create_tabular_model` (consumer_function_mapper.py:884-898): headers and data of the table. -/
def tabularData (r : Reader) (m : Memory) : Except CErr (List String × List (List ℚ)) :=
  match readColumns r m m.headers with
  | .error e => .error e
  | .ok data => .ok (m.headers, data)

end Verif.SampledFile
