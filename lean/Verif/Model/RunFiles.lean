import Mathlib.Data.List.Basic

/-!
# Model of the files a run writes

`src/ecalc_cli/commands/run.py:118-124, 129, 141-278`, `ecalc_cli/io/output.py:25-196`, `ecalc_cli/main.py:68-87`, and
`libecalc/presentation/exporter/handlers/handler.py:68-81`.

What is read, validated, evaluated and exported is a parameter (`Job`): each may fail; making the texts of the files
does not. The contents of the files are
tags. Paths are as in `pathlib` of Python 3.12 and 3.13 on a POSIX system; links and `..` are not resolved. Writing a
file succeeds if its folder exists and there is no folder of its name. Log messages are left out.
-/

namespace Verif.RunFiles

/-- Names of files and folders. -/
abbrev Name := List Char

/-- `pathlib.PurePosixPath`: absolute or not, and its parts. -/
structure Path where
  abs : Bool
  parts : List Name
  deriving DecidableEq, Repr

/-- The parts of a text: what is between slashes, without empty parts and dots. -/
def partsOf (s : Name) : List Name := (s.splitOn '/').filter fun x => decide (x ≠ []) && decide (x ≠ ['.'])

/-- `path / text`. -/
def Path.join (p : Path) (s : Name) : Path :=
  if s.head? = some '/' then ⟨true, partsOf s⟩ else ⟨p.abs, p.parts ++ partsOf s⟩

/-- `path.parent`. -/
def Path.parent (p : Path) : Path := ⟨p.abs, p.parts.dropLast⟩

/-- `path.name`. -/
def Path.name (p : Path) : Name := p.parts.getLastD []

/-- `path.stem` for a name: without what follows the last dot, unless the dot is the first or the last character. -/
def stem (n : Name) : Name :=
  match n.reverse.dropWhile (fun c => decide (c ≠ '.')) with
  | _ :: before => if n.reverse.takeWhile (fun c => decide (c ≠ '.')) = [] ∨ before = [] then n else before.reverse
  | [] => n

/-- What a call may raise. -/
inductive Err where
  /-- `EcalcCLIError`. -/
  | cli
  /-- `EcalcError`, such as `ModelValidationException`. -/
  | ecalc
  /-- `OSError`. -/
  | os
  /-- `ValueError`. -/
  | value
  /-- Any other exception. -/
  | other
  deriving DecidableEq, Repr

/-- `path.with_name(name)`; a `ValueError` for a path without a name. -/
def Path.withName (p : Path) (n : Name) : Except Err Path :=
  if p.parts = [] then .error .value else .ok ⟨p.abs, p.parts.dropLast ++ [n]⟩

/-- `path.with_suffix(suffix)`. -/
def Path.withSuffix (p : Path) (suffix : Name) : Except Err Path := p.withName (stem p.name ++ suffix)

/-- What is in a file. -/
inductive Kind where
  | table
  | intensityTable
  | result (simple : Bool)
  | runInfo
  | intensity
  | diagram
  | long (group : Name)
  | short (group : Name)
  | input
  deriving DecidableEq, Repr

/-- The content of a file: which run wrote it, and what it is. -/
structure File where
  run : ℕ
  kind : Kind
  deriving DecidableEq, Repr

/-- The disk. -/
structure Disk where
  dirs : Path → Bool
  files : Path → Option File

/-- `path.is_file()`. -/
def Disk.isFile (d : Disk) (p : Path) : Bool := (d.files p).isSome

/-- Opening a file for writing, and writing. -/
def Disk.write (d : Disk) (p : Path) (f : File) : Except Err Disk :=
  if !d.dirs p.parent || d.dirs p then .error .os
  else .ok { d with files := fun q => if q = p then some f else d.files q }

/-- The arguments of `run` (run.py:31-117) that matter here. -/
structure Opts where
  model : Path
  folder? : Option Path
  prefix? : Option Name
  csv : Bool
  json : Bool
  ltp : Bool
  stp : Bool
  flow : Bool
  detailed : Bool

/-- `output_folder` (run.py:120-121). -/
def Opts.folder (o : Opts) : Path :=
  match o.folder? with
  | some f => f
  | none => o.model.parent.join "output".toList

/-- `name_prefix` (run.py:123-124). -/
def Opts.pre (o : Opts) : Name :=
  match o.prefix? with
  | some p => p
  | none => stem o.model.name

/-- What the rest of eCalc does: reading and validating the model (run.py:142-148), evaluating it and making the results
(run.py:163-199), and the installations of the exports, with their tables (output.py:152-157). -/
structure Job where
  id : ℕ
  loaded : Except Err Unit
  evaluated : Except Err Unit
  long : Except Err (List Name)
  short : Except Err (List Name)

/-- What a run does, step by step. -/
inductive Step where
  /-- `validate_arguments`. -/
  | arguments (model folder : Path)
  /-- A part that does not touch the disk. -/
  | part (outcome : Except Err Unit)
  /-- Writing a file; `onOs` is what an `OSError` becomes. -/
  | write (path : Except Err Path) (file : File) (onOs : Err)

/-- `validate_arguments` (run.py:256-278). -/
def validateArguments (model folder : Path) (d : Disk) : Disk × Except Err Unit :=
  if !d.isFile model then (d, .error .cli)
  else if !d.dirs folder.parent then (d, .error .cli)
  else if d.dirs folder then (d, .ok ())
  else if d.isFile folder then (d, .error .os)
  else ({ d with dirs := fun q => if q = folder then true else d.dirs q }, .ok ())

/-- One step. -/
def Step.perform (d : Disk) : Step → Disk × Except Err Unit
  | .arguments model folder => validateArguments model folder d
  | .part outcome => (d, outcome)
  | .write (.error e) _ _ => (d, .error e)
  | .write (.ok p) f onOs =>
    match d.write p f with
    | .ok d' => (d', .ok ())
    | .error _ => (d, .error onOs)

/-- Steps one after the other, until one fails. -/
def performAll (d : Disk) : List Step → Disk × Except Err Unit
  | [] => (d, .ok ())
  | s :: rest =>
    match s.perform d with
    | (d', .ok _) => performAll d' rest
    | (d', .error e) => (d', .error e)

/-- `write_flow_diagram` (output.py:172-196). -/
def flowSteps (o : Opts) (j : Job) : List Step :=
  [.write (.ok (o.folder.join (if o.pre ≠ [] then o.pre ++ ".flow-diagram.json".toList else "flow-diagram.json".toList)))
    ⟨j.id, .diagram⟩ .cli]

/-- `output_prefix` (run.py:167). -/
def Opts.outputPrefix (o : Opts) : Path := o.folder.join o.pre

/-- The tables (run.py:201-217). -/
def csvSteps (o : Opts) (j : Job) : List Step :=
  [.write (o.outputPrefix.withSuffix ".csv".toList) ⟨j.id, .table⟩ .os,
   .write (o.outputPrefix.withName (stem o.outputPrefix.name ++ "_intensity.csv".toList)) ⟨j.id, .intensityTable⟩ .os]

/-- The JSON files (run.py:219-235, `write_json`, output.py:42-74). -/
def jsonSteps (o : Opts) (j : Job) : List Step :=
  [.write (.ok (o.folder.join (o.pre ++ "_v3.json".toList))) ⟨j.id, .result (!o.detailed)⟩ .os,
   .write (.ok (o.folder.join (o.pre ++ "_run_info.json".toList))) ⟨j.id, .runInfo⟩ .os,
   .write (o.outputPrefix.withName (stem o.outputPrefix.name ++ "_intensity.json".toList)) ⟨j.id, .intensity⟩ .os]

/-- `export_tsv` (output.py:131-169) with `MultiFileHandler.handle` (handler.py:77-81): one file for each
installation. -/
def exportSteps (o : Opts) (suffix : Name) (file : Name → File) : Except Err (List Name) → List Step
  | .error e => [.part (.error e)]
  | .ok groups => groups.map fun g =>
      .write (.ok (o.folder.join (o.pre ++ '.' :: (g ++ (suffix ++ ".tsv".toList))))) (file g) .os

/-- All the steps of `run` (run.py:118-253). -/
def plan (o : Opts) (j : Job) : List Step :=
  [.arguments o.model o.folder, .part j.loaded] ++ (if o.flow then flowSteps o j else []) ++ [.part j.evaluated] ++
  (if o.csv then csvSteps o j else []) ++ (if o.json then jsonSteps o j else []) ++
  (if o.ltp then exportSteps o ".ltp".toList (fun g => ⟨j.id, .long g⟩) j.long else []) ++
  (if o.stp then exportSteps o ".stp".toList (fun g => ⟨j.id, .short g⟩) j.short else [])

/-- `run` (run.py:31-253). -/
def run (o : Opts) (j : Job) (d : Disk) : Disk × Except Err Unit := performAll d (plan o j)

/-- `main` (main.py:68-87): the status of the process. `EcalcError` is logged only; other exceptions are raised
again. -/
def status : Except Err Unit → ℕ
  | .ok _ => 0
  | .error .ecalc => 0
  | .error _ => 1

end Verif.RunFiles
