import Mathlib.Algebra.Order.Ring.Rat

/-!
# Reading the YAML file, with includes

`presentation/yaml/yaml_models/pyyaml_yaml_model.py:105-276`. Composing a document (PyYAML's scanner, parser and resolver) is
not modelled: a document is given as its tree of nodes, or the position of a syntax error. Keys of mappings are scalars.
Aliases are trees like others. The names of included files have no directories in them (reports use the last part of the name).
 The places of values in the file (YamlDict, YamlList) are left out.
-/

namespace Verif.YamlRead

/-- Scalars as PyYAML resolves them. `merge` is the plain scalar `<<`, for which there is no constructor. -/
inductive Sc where
  | str (s : String)
  | num (q : ℚ)
  | bool (b : Bool)
  | null
  | date (d : ℤ)
  | merge
deriving DecidableEq, Repr

/-- Scalars up to Python's equality (and hash): `1`, `1.0` and `true` are the same key. -/
inductive Key where
  | str (s : String)
  | num (q : ℚ)
  | null
  | date (d : ℤ)
deriving DecidableEq, Repr

/-- The key of a scalar; nothing when it cannot be constructed. -/
def Sc.key : Sc → Option Key
  | .str s => some (.str s)
  | .num q => some (.num q)
  | .bool b => some (.num (if b then 1 else 0))
  | .null => some .null
  | .date d => some (.date d)
  | .merge => none

/-- Line and column. -/
abbrev Mark := ℕ × ℕ

/-- Nodes of a document. -/
inductive Node where
  | scalar (s : Sc) (mark : Mark)
  | seq (l : List Node)
  | map (l : List (Sc × Mark × Node))
  | incl (name : String) (mark : Mark)

/-- Values that are constructed. -/
inductive Val where
  | scalar (s : Sc)
  | seq (l : List Val)
  | map (l : List (Sc × Val))

/-- Errors. The first is a `DuplicateKeyError`, `yaml` a `yaml.YAMLError` that is still to be turned into a YamlError. -/
inductive YErr where
  | duplicate (key : Sc) (file : String) (mark : Mark)
  | yaml (mark : Option Mark)
  | yamlError (file : Option String) (mark : Option Mark)
  | illegalName (file : String)
  | keyNotFound (name : String)
  | fileNotFound (name : String)
  | recursion
deriving DecidableEq, Repr

/-- A document after composing: a syntax error, nothing, or its root. -/
inductive Doc where
  | bad (mark : Mark)
  | empty
  | root (n : Node)

/-- The names of the files that have been read so far, latest first. -/
abbrev Log := List String

/-- The check in `construct_mapping` (pyyaml_yaml_model.py:173-188). -/
def checkKeys (file : String) : List Key → List (Sc × Mark × Node) → Except YErr Unit
  | _, [] => .ok ()
  | seen, (s, mark, _) :: rest =>
    match s.key with
    | none => .error (.yaml (some mark))
    | some k => if k ∈ seen then .error (.duplicate s file mark) else checkKeys file (k :: seen) rest

mutual

/-- Constructing the object of a node (pyyaml_yaml_model.py:105-116, 173-189), where `inc` constructs includes. All keys of a
mapping are checked before its values are constructed. -/
def build (inc : String → Mark → Log → Except YErr (Val × Log)) (file : String) : Node → Log → Except YErr (Val × Log)
  | .scalar s mark, log =>
    match s.key with
    | none => .error (.yaml (some mark))
    | some _ => .ok (.scalar s, log)
  | .seq l, log => (buildSeq inc file l log).map fun r => (.seq r.1, r.2)
  | .map l, log =>
    match checkKeys file [] l with
    | .error e => .error e
    | .ok () => (buildMap inc file l log).map fun r => (.map r.1, r.2)
  | .incl name mark, log => inc name mark log

/-- The items of a sequence. -/
def buildSeq (inc : String → Mark → Log → Except YErr (Val × Log)) (file : String) :
    List Node → Log → Except YErr (List Val × Log)
  | [], log => .ok ([], log)
  | n :: ns, log =>
    match build inc file n log with
    | .error e => .error e
    | .ok (v, log) => (buildSeq inc file ns log).map fun r => (v :: r.1, r.2)

/-- The values of a mapping. -/
def buildMap (inc : String → Mark → Log → Except YErr (Val × Log)) (file : String) :
    List (Sc × Mark × Node) → Log → Except YErr (List (Sc × Val) × Log)
  | [], log => .ok ([], log)
  | (s, _, n) :: ns, log =>
    match build inc file n log with
    | .error e => .error e
    | .ok (v, log) => (buildMap inc file ns log).map fun r => ((s, v) :: r.1, r.2)

end

/-- Where included files are: in a directory, where they are opened anew every time, or in a dict of open streams. -/
inductive Place where
  | dir (files : String → Option Doc)
  | streams (docs : String → Option Doc)

/-- `YamlReader.load` (pyyaml_yaml_model.py:171-199) with the include constructor of the loader (118-148). Composing reads a
stream to its end before anything is constructed, so that a stream that was read before is empty. `fuel` is Python's
recursion limit. `legal` is the check of the file name (191). -/
def loadDoc (legal : String → Bool) (place : Option Place) : ℕ → String → Doc → Log → Except YErr (Val × Log)
  | 0, _, _, _ => .error .recursion
  | fuel + 1, file, doc, log =>
    if legal file then
      match doc with
      | .bad mark => .error (.yaml (some mark))
      | .empty => .ok (.scalar .null, log)
      | .root n =>
        build (fun name mark log =>
          match place with
          | none => .error (.yaml (some mark))
          | some (.dir files) =>
            match files name with
            | none => .error (.fileNotFound name)
            | some d => loadDoc legal place fuel name d (name :: log)
          | some (.streams docs) =>
            match docs name with
            | none => .error (.keyNotFound name)
            | some d => loadDoc legal place fuel name (if name ∈ log then .empty else d) (name :: log)) file n log
    else .error (.illegalName file)

/-- A call of `read_yaml`: the main file, whether includes are enabled, the directory and the (non-empty) streams. -/
structure Request where
  main : String
  doc : Doc
  enable : Bool
  dir : Option (String → Option Doc)
  streams : Option (String → Option Doc)

/-- The include constructor of a request (pyyaml_yaml_model.py:126-144): streams before directory. -/
def Request.place (r : Request) : Option Place :=
  match r.streams, r.dir with
  | some d, _ => some (.streams d)
  | none, some f => some (.dir f)
  | none, none => none

/-- What the class `SafeLineLoader` remembers: its include constructor, with the streams it has read. -/
structure Loader where
  place : Option Place
  log : Log

/-- `add_constructor` in `YamlReader.__init__` (pyyaml_yaml_model.py:165-169): it is kept by the class. -/
def Loader.register (l : Loader) (r : Request) : Loader :=
  if r.enable = true ∧ r.place.isSome then ⟨r.place, []⟩ else l

/-- `read_yaml` (pyyaml_yaml_model.py:234-276). After an error the streams read are not followed further. -/
def readYaml (legal : String → Bool) (fuel : ℕ) (l : Loader) (r : Request) : Except YErr Val × Loader :=
  let l := l.register r
  match loadDoc legal l.place fuel r.main r.doc l.log with
  | .ok (.map m, log) => (.ok (.map m), { l with log := log })
  | .ok (_, log) => (.error (.yamlError none none), { l with log := log })
  | .error (.yaml mark) => (.error (.yamlError (mark.map fun _ => r.main) mark), l)
  | .error e => (.error e, l)

end Verif.YamlRead
