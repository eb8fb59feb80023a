import Verif.Model.Files

/-!
# Model of uploaded archives

`libecalc/infrastructure/file_io.py`: unpacking an archive, sorting uploaded files and choosing the main file, with what
is in the files. Names, endings and words are those of `Verif.Files`.

Simplifications:
* what `zipfile` makes of the bytes of an archive is given: its entries in the order of the directory, each with its
  content or the way reading it fails, or no archive at all;
* the content of a file is its text, `none` for bytes that are no UTF-8;
* which paths are folders where the process runs (`Path.is_dir`) is a parameter that does not change meanwhile;
* texts of messages are dropped.
-/

namespace Verif.Archive
open Verif.Files

/-- What can be raised. -/
inductive AErr where
  /-- `EcalcError` with the title "Bad zip file" for `zipfile.BadZipFile` -/
  | badZip
  /-- `EcalcError` with the title "Bad zip file" for paths that occur twice -/
  | duplicated
  /-- `EcalcError` with the title "Invalid file type" -/
  | fileType
  /-- `EcalcError` with the title "Invalid file combination" -/
  | combination
  /-- `EcalcError` for no main file -/
  | noMain
  /-- `EcalcError` for several main files -/
  | severalMain
  /-- `RuntimeError` or `NotImplementedError` of `zipfile` (encrypted, unknown compression) -/
  | reading
  /-- `IndexError` of `allowed_file` -/
  | index
  /-- `UnicodeDecodeError` -/
  | decode
  deriving DecidableEq, Repr

/-- Reading an entry. -/
inductive Body where
  | bytes (text : Option Text)
  /-- `zipfile.BadZipFile`, as for a wrong checksum -/
  | damaged
  /-- another exception of `zipfile` -/
  | refused
  deriving DecidableEq, Repr

/-- An entry of an archive: `ZipInfo.filename` and what reading it gives. -/
structure Entry where
  name : Text
  body : Body
  deriving DecidableEq, Repr

/-- `ZipInfo.is_dir()`: the name ends with a slash. -/
def Entry.isFolder (e : Entry) : Bool := e.name.getLast? = some '/'

/-- A `PosixPath`: the number of slashes it starts with (none, one, or exactly two) and its parts. -/
structure FPath where
  root : Nat
  parts : List Text
  deriving DecidableEq, Repr

/-- The root of a POSIX path: more than two slashes are one. -/
def rootOf : Text → Nat
  | '/' :: '/' :: '/' :: _ => 1
  | '/' :: '/' :: _ => 2
  | '/' :: _ => 1
  | _ => 0

/-- `Path(text)`. -/
def FPath.ofText (t : Text) : FPath := ⟨rootOf t, Files.parts t⟩

/-- `str(path)`. -/
def FPath.str (p : FPath) : Text :=
  if p.root = 0 ∧ p.parts = [] then ['.'] else List.replicate p.root '/' ++ join p.parts

/-- `path.name`. -/
def FPath.name (p : FPath) : Text := Files.name p.parts

/-- `EcalcFileType` (file_io.py:51-54). -/
inductive FType where
  | yaml
  | csv
  | zip
  deriving DecidableEq, Repr

/-- `ValidEcalcFile` (file_io.py:103-119). -/
structure Valid where
  path : FPath
  name : Text
  text : Option Text
  type : FType
  deriving DecidableEq, Repr

/-- `InvalidEcalcFile` (file_io.py:122-131). -/
structure Invalid where
  path : FPath
  name : Text
  deriving DecidableEq, Repr

/-- `IGNORED_ZIP_CONTENTS_KEYWORDS` (file_io.py:20). -/
def keywords : List Text := [".DS_Store".toList, "__MACOSX".toList]

/-- `is_ignored_zip_content` (file_io.py:34-35). -/
def ignored (isDir : FPath → Bool) (p : FPath) : Bool := isDir p || keywords.any fun k => decide (k <:+: p.str)

/-- `get_type` (file_io.py:85-100). -/
def getType (filename : Text) : Except AErr FType :=
  if isCsv filename then .ok .csv
  else if isYaml filename then .ok .yaml
  else if isZip filename then .ok .zip
  else .error .fileType

/-- One round of `unpack_zip` (file_io.py:340-375). -/
def unpackEntry (isDir : FPath → Bool) (acc : List Valid × List Invalid) (e : Entry) :
    Except AErr (List Valid × List Invalid) :=
  let p := FPath.ofText e.name
  if ignored isDir p || e.isFolder then .ok acc
  else if isCsv e.name || isYaml e.name then
    match e.body with
    | .damaged => .error .badZip
    | .refused => .error .reading
    | .bytes text =>
      match getType e.name with
      | .ok type => .ok (acc.1 ++ [⟨p, p.name, text, type⟩], acc.2)
      | .error _ => .ok (acc.1, acc.2 ++ [⟨p, p.name⟩])
  else .ok (acc.1, acc.2 ++ [⟨p, p.name⟩])

/-- The loop of `unpack_zip` (file_io.py:339-375). -/
def unpackEntries (isDir : FPath → Bool) : List Valid × List Invalid → List Entry →
    Except AErr (List Valid × List Invalid)
  | acc, [] => .ok acc
  | acc, e :: es =>
    match unpackEntry isDir acc e with
    | .ok acc' => unpackEntries isDir acc' es
    | .error x => .error x

/-- `len(paths) != len(set(paths))` (file_io.py:377-379). -/
def repeated (paths : List FPath) : Bool := paths.length ≠ paths.eraseDups.length

/-- `unpack_zip` (file_io.py:328-384). -/
def unpack (isDir : FPath → Bool) (archive : Option (List Entry)) : Except AErr (List Valid × List Invalid) :=
  match archive with
  | none => .error .badZip
  | some es =>
    match unpackEntries isDir ([], []) es with
    | .error x => .error x
    | .ok (v, i) => if repeated (v.map Valid.path) then .error .duplicated else .ok (v, i)

/-- An uploaded file (`FileWithName`, file_io.py:38-40): its text, and what `zipfile` makes of it. -/
structure Upload where
  name : Text
  text : Option Text
  archive : Option (List Entry)

/-- One round of `validate_filetypes` (file_io.py:182-210), `count` files in all. -/
def sortUpload (isDir : FPath → Bool) (count : Nat) (acc : List Valid × List Invalid) (u : Upload) :
    Except AErr (List Valid × List Invalid) :=
  match allowed u.name with
  | .error _ => .error .index
  | .ok false => .ok (acc.1, acc.2 ++ [⟨FPath.ofText u.name, u.name⟩])
  | .ok true =>
    if isZip u.name then (if 1 < count then .error .combination else unpack isDir u.archive)
    else if isCsv u.name || isYaml u.name then
      match getType u.name with
      | .ok type => .ok (acc.1 ++ [⟨FPath.ofText u.name, u.name, u.text, type⟩], acc.2)
      | .error x => .error x
    else .ok (acc.1, acc.2 ++ [⟨FPath.ofText u.name, u.name⟩])

/-- The loop of `validate_filetypes` (file_io.py:182-210). -/
def sortUploads (isDir : FPath → Bool) (count : Nat) : List Valid × List Invalid → List Upload →
    Except AErr (List Valid × List Invalid)
  | acc, [] => .ok acc
  | acc, u :: us =>
    match sortUpload isDir count acc u with
    | .ok acc' => sortUploads isDir count acc' us
    | .error x => .error x

/-- `validate_filetypes` (file_io.py:170-212). -/
def validate (isDir : FPath → Bool) (us : List Upload) : Except AErr (List Valid × List Invalid) :=
  sortUploads isDir us.length ([], []) us

/-- `path.suffix`, from the name of the path as in `Verif.Files.suffix`. -/
def suffixOf (n : Text) : Text :=
  let ext := (n.reverse.takeWhile (· ≠ '.')).reverse
  if '.' ∈ n ∧ ext ≠ [] ∧ ext.length + 1 < n.length then '.' :: ext else []

/-- `is_yaml` of a path (file_io.py:67-74). -/
def FPath.isYaml (p : FPath) : Bool := lower (suffixOf p.name) ∈ [['.','y','m','l'], ['.','y','a','m','l']]

/-- The condition of the comprehension of `get_main_file` (file_io.py:115-119, 153). -/
def isMainFile (v : Valid) : Except AErr Bool :=
  if v.path.isYaml then
    match v.text with
    | some t => .ok (isMain t)
    | none => .error .decode
  else .ok false

/-- The comprehension of `get_main_file` (file_io.py:153). -/
def mainFiles : List Valid → Except AErr (List Valid)
  | [] => .ok []
  | v :: vs =>
    match isMainFile v with
    | .error x => .error x
    | .ok b =>
      match mainFiles vs with
      | .error x => .error x
      | .ok ms => .ok (if b then v :: ms else ms)

/-- `get_main_file` (file_io.py:142-168). -/
def mainFile (vs : List Valid) : Except AErr Valid :=
  match mainFiles vs with
  | .error x => .error x
  | .ok [] => .error .noMain
  | .ok [v] => .ok v
  | .ok (_ :: _ :: _) => .error .severalMain

end Verif.Archive
