/-!
# Files of a model

`libecalc/infrastructure/file_io.py`: which files are accepted, which one is the main file, how they are renamed and
how they are found from the main file.

A path is the list of its parts, a text is a list of characters. Simplifications: paths are relative and have no `.` or
`..` (as in an archive); lower case is ASCII; the content of a file is a text; opening the archive itself
is not modelled, nor is the random ending that replaces the start of a name of more than a hundred characters.
-/

namespace Verif.Files

abbrev Text := List Char

/-- `str(Path)`: the parts with slashes between. -/
def join : List Text → Text
  | [] => []
  | [p] => p
  | p :: ps => p ++ '/' :: join ps

/-- Split at slashes. -/
def split : Text → List Text
  | [] => [[]]
  | c :: cs =>
    if c = '/' then [] :: split cs
    else match split cs with
      | p :: ps => (c :: p) :: ps
      | [] => [[c]]

/-- `Path(text).parts` for a relative path. -/
def parts (t : Text) : List Text := (split t).filter fun p => p ≠ [] ∧ p ≠ ['.']

/-- `text.replace(old, "")`; `skip` characters of an occurrence are still to be removed. -/
def removeAll (old : Text) : Nat → Text → Text
  | _, [] => []
  | skip + 1, _ :: cs => removeAll old skip cs
  | 0, c :: cs =>
    if old.isPrefixOf (c :: cs) ∧ old ≠ [] then removeAll old (old.length - 1) cs
    else c :: removeAll old 0 cs

/-- `find_longest_common_path` (file_io.py:218-234). -/
def commonPath : List Text → List Text → Text
  | p :: ps, q :: qs => if p = q then p ++ '/' :: commonPath ps qs else []
  | _, _ => []

/-- `strip_common_path` (file_io.py:237-243). -/
def stripCommon (common path : Text) : Text := removeAll common 0 path

/-- `make_relative_path` (file_io.py:246-261). The parts of a relative path are never empty or a slash. -/
def makeRelative (linked main : Text) : Text :=
  (parts main).dropLast.foldl (fun l _ => '.' :: '.' :: '/' :: l) linked

/-- What `make_relative_paths` (file_io.py:302-324) says about one file that is not the main file. -/
def relativePath (file main : List Text) : Text :=
  let common := commonPath file main
  makeRelative (stripCommon common (join file)) (stripCommon common (join main))

/-- The name without the directory (`Path.name`). -/
def name (p : List Text) : Text := p.getLast?.getD []

/-- `find_duplicates` (file_io.py:264-275). -/
def duplicates (files : List (List Text)) : List Text :=
  let names := files.map name
  names.eraseDups.filter fun n => 1 < names.count n

/-- The name of one file after `rename_duplicates` (file_io.py:278-299). -/
def renamed (duplicates : List Text) (file : List Text) : Text :=
  if name file ∈ duplicates then (join file).map fun c => if c = '/' then '_' else c
  else name file

/-! ## File types -/

/-- `Path(filename).suffix`: from the last dot of the name, unless the dot is the first or the last character. -/
def suffix (filename : Text) : Text :=
  let n := name (parts filename)
  let ext := (n.reverse.takeWhile (· ≠ '.')).reverse
  if '.' ∈ n ∧ ext ≠ [] ∧ ext.length + 1 < n.length then '.' :: ext else []

def lower (t : Text) : Text := t.map Char.toLower

inductive IOErr
  | index
  | combination
  | noMain
  | severalMain
deriving DecidableEq, Repr

/-- `allowed_file` (file_io.py:139-140): `suffix.split(".")[1]` needs a suffix. -/
def allowed (filename : Text) : Except IOErr Bool :=
  if '.' ∈ filename then
    if suffix filename = [] then .error .index
    else .ok ((suffix filename).tail ∈ [['y','a','m','l'], ['c','s','v'], ['y','m','l'], ['z','i','p']])
  else .ok false

/-- `is_csv`, `is_yaml` (file_io.py:63-74). -/
def isCsv (filename : Text) : Bool := lower (suffix filename) = ['.','c','s','v']
def isYaml (filename : Text) : Bool := lower (suffix filename) ∈ [['.','y','m','l'], ['.','y','a','m','l']]

/-- `is_zip` (file_io.py:76-83): a substring of `.zip`. -/
def isZip (filename : Text) : Bool := lower (suffix filename) <:+: ['.','z','i','p']

/-- What happens to a file. -/
inductive Sorted
  | valid
  | invalid
  | zip
deriving DecidableEq, Repr

/-- One round of `validate_filetypes` (file_io.py:171-212), `count` files in all. -/
def sortFile (count : Nat) (filename : Text) : Except IOErr Sorted :=
  match allowed filename with
  | .error e => .error e
  | .ok false => .ok .invalid
  | .ok true =>
    if isZip filename then (if 1 < count then .error .combination else .ok .zip)
    else if isCsv filename || isYaml filename then .ok .valid
    else .ok .invalid

/-- `validate_filetypes` without what is in an archive: every file with its verdict, or the error. -/
def sortFiles (count : Nat) : List Text → Except IOErr (List (Text × Sorted))
  | [] => .ok []
  | f :: fs =>
    match sortFile count f with
    | .error e => .error e
    | .ok s => match sortFiles count fs with
      | .error e => .error e
      | .ok r => .ok ((f, s) :: r)

def validateFiletypes (files : List Text) : Except IOErr (List (Text × Sorted)) := sortFiles files.length files

/-- `MAIN_PROVEN_FILE` (file_io.py:18). -/
def mainWords : List Text := ["INSTALLATION".toList, "TIME_SERIES".toList, "FACILITY_INPUTS".toList, "FUEL_TYPES".toList]

/-- `is_main_yaml_file` (file_io.py:115-119). -/
def isMain (content : Text) : Bool := mainWords.any fun w => w <:+: content

/-- `get_main_file` (file_io.py:142-168); a file is its name and its content. -/
def mainFile (files : List (Text × Text)) : Except IOErr (Text × Text) :=
  match files.filter fun f => isYaml f.1 && isMain f.2 with
  | [] => .error .noMain
  | [f] => .ok f
  | _ => .error .severalMain

end Verif.Files
