import Mathlib.Data.Rat.Defs
import Mathlib.Algebra.Order.Ring.Rat

/-!
Walking typed models: finding the references of the expressions in a model, and replacing the names of definitions by
the definitions.

Sources: `libecalc/expression/extract_expressions.py` and `libecalc/presentation/yaml/definition_resolver.py`.

Modelled: both walks, function by function, over arbitrary trees of pydantic models, lists and dicts, and over
annotations built from the expression type, `DefinitionReference`, model classes, `None`, other types without
arguments, unions, lists, dicts and `Annotated`. An object carries the fields its class declares together with the
values. Not modelled: pydantic itself (reading and validating a model); sets and tuples (no class of
`yaml_types` has such a field); other generic types; the identity of objects, so a model that is copied with equal
values is the same model. The reading of an expression is a parameter (see `Verif/Model/Lexer.lean`).
-/

namespace Verif.Schema

/-- A type annotation. `expr` is `Annotated[ExpressionType, EXPRESSION_MARKER, ...]` (yaml_expression_type.py:50-54),
`ref` the alias `DefinitionReference` (yaml_process_references.py:6), `model` a class of pydantic models, `nothing` is
`None`, `plain` any other type without arguments, `annotated` an `Annotated` without the marker. -/
inductive Ann where
  | plain
  | nothing
  | expr
  | ref
  | model
  | union (alts : List Ann)
  | list (item : Ann)
  | dict (key value : Ann)
  | annotated (base : Ann)

/-- A field of a class: its name, whether the marker is in its metadata (pydantic moves the metadata of an outer
`Annotated` there), and the annotation that is left. -/
structure Decl where
  name : String
  marked : Bool
  ann : Ann

/-- A string, or a number (`isinstance(v, (str, int, float))`). -/
inductive Scalar where
  | str (s : String)
  | num (q : ℚ)
  deriving DecidableEq

/-- The values. `other` is whatever is none of the others (a date, say). -/
inductive Val where
  | none
  | other (n : Nat)
  | scalar (s : Scalar)
  | list (l : List Val)
  | dict (keys : List String) (l : List Val)
  | obj (cls : String) (fields : List Decl) (values : List Val)

/-! ### Expressions -/

mutual

/-- `_contains_expression_type` with `_is_expression_type` (extract_expressions.py:23-44). The first argument of an
`Annotated` is its base; the metadata have no arguments. -/
def Ann.hasExpr : Ann → Bool
  | .expr => true
  | .union as => anyExpr as
  | .list a => a.hasExpr
  | .dict k v => k.hasExpr || v.hasExpr
  | .annotated a => a.hasExpr
  | _ => false

/-- `any(_contains_expression_type(arg) for arg in args)` (extract_expressions.py:44). -/
def anyExpr : List Ann → Bool
  | [] => false
  | a :: as => a.hasExpr || anyExpr as

end

mutual

/-- Whether `_unwrap_to_model_types` finds anything (extract_expressions.py:47-78); only that is used (:121-122). -/
def Ann.hasModel : Ann → Bool
  | .model => true
  | .union as => anyModel as
  | .list a => a.hasModel
  | .dict k v => k.hasModel || v.hasModel
  | .annotated a => a.hasModel
  | _ => false

/-- The loop over the arguments of a union (extract_expressions.py:55-57). -/
def anyModel : List Ann → Bool
  | [] => false
  | a :: as => a.hasModel || anyModel as

end

/-- `is_expression` (extract_expressions.py:97, with `_has_expression_marker`, :81-83). -/
def Decl.isExpr (d : Decl) : Bool := d.marked || d.ann.hasExpr

mutual

/-- `_collect_expression_values` (extract_expressions.py:86-137), on the fields of a model. -/
def collect : List Decl → List Val → List Scalar
  | d :: ds, v :: vs => fieldValues d v ++ collect ds vs
  | _, _ => []

/-- The body of the loop over the fields (extract_expressions.py:90-135). -/
def fieldValues (d : Decl) : Val → List Scalar
  | .none => []
  | .other _ => []
  | .scalar s => if d.isExpr then [s] else []
  | .list l => if d.isExpr then items l else if d.ann.hasModel then models l else []
  | .dict _ l => if d.isExpr then entries l else if d.ann.hasModel then modelEntries l else []
  | .obj _ ds vs => if d.isExpr then [] else if d.ann.hasModel then collect ds vs else []

/-- The items of a list in a field with expressions (extract_expressions.py:102-106, 114-118). -/
def items : List Val → List Scalar
  | [] => []
  | v :: vs => item v ++ items vs

/-- One item (extract_expressions.py:103-106). -/
def item : Val → List Scalar
  | .scalar s => [s]
  | .obj _ ds vs => collect ds vs
  | _ => []

/-- The values of a dict in a field with expressions (extract_expressions.py:108-118). -/
def entries : List Val → List Scalar
  | [] => []
  | v :: vs => entry v ++ entries vs

/-- One value of the dict (extract_expressions.py:109-118). -/
def entry : Val → List Scalar
  | .scalar s => [s]
  | .obj _ ds vs => collect ds vs
  | .list l => items l
  | _ => []

/-- The models of a list in a field without expressions (extract_expressions.py:125-128, 133-135). -/
def models : List Val → List Scalar
  | [] => []
  | v :: vs => modelItem v ++ models vs

/-- One item (extract_expressions.py:126-128). -/
def modelItem : Val → List Scalar
  | .obj _ ds vs => collect ds vs
  | _ => []

/-- The values of a dict in a field without expressions (extract_expressions.py:129-135). -/
def modelEntries : List Val → List Scalar
  | [] => []
  | v :: vs => modelEntry v ++ modelEntries vs

/-- One value of the dict (extract_expressions.py:130-135). -/
def modelEntry : Val → List Scalar
  | .obj _ ds vs => collect ds vs
  | .list l => models l
  | _ => []

end

/-- Exceptions. -/
inductive Err where
  | invalidExpression
  | key (name : String)
  deriving DecidableEq

/-- `set.update` (extract_expressions.py:158): a set is a list without repetitions. -/
def update (s l : List String) : List String := l.foldl (fun s x => if x ∈ s then s else s ++ [x]) s

/-- The loop of `extract_expression_references` (extract_expressions.py:155-158). `names` is
`Expression.setup_from_expression(...).variables`, nothing if that is not an expression. -/
def gather (names : Scalar → Option (List String)) : List String → List Scalar → Except Err (List String)
  | s, [] => .ok s
  | s, e :: es =>
    match names e with
    | .none => .error .invalidExpression
    | some l => gather names (update s l) es

/-- `extract_expression_references` (extract_expressions.py:140-159). -/
def references (names : Scalar → Option (List String)) (fields : List Decl) (values : List Val) :
    Except Err (List String) := gather names [] (collect fields values)

/-! ### Definitions -/

/-- The definitions by name. -/
abbrev Defs := List (String × Val)

/-- `_is_definition_reference_union` (definition_resolver.py:98-104). -/
def Ann.isRefUnion : Ann → Bool
  | .union as => as.any fun | .ref => true | _ => false
  | _ => false

/-- `_get_item_type` (definition_resolver.py:52-72). The first argument of an `Annotated` is its base. -/
def Ann.itemType : Ann → Ann
  | .union (a :: _) => a
  | .list a => a
  | .dict _ v => v
  | .annotated a => a
  | _ => .plain

/-- `_lookup_definition` (definition_resolver.py:107-114). -/
def lookup (defs : Defs) (s : String) : Except Err Val :=
  match List.lookup s defs with
  | some v => .ok v
  | none => .error (.key s)

mutual

/-- `_resolve_value` (definition_resolver.py:75-95). -/
def resolveValue (defs : Defs) (a : Ann) : Val → Except Err Val
  | .scalar (.str s) => if a.isRefUnion then lookup defs s else .ok (.scalar (.str s))
  | .obj c ds vs => (resolveFields defs ds vs).map (.obj c ds)
  | .dict ks l => (resolveAll defs a.itemType l).map (.dict ks)
  | .list l => (resolveAll defs a.itemType l).map .list
  | v => .ok v

/-- The comprehensions over the items (definition_resolver.py:88, 93). -/
def resolveAll (defs : Defs) (a : Ann) : List Val → Except Err (List Val)
  | [] => .ok []
  | v :: vs =>
    match resolveValue defs a v with
    | .error e => .error e
    | .ok w =>
      match resolveAll defs a vs with
      | .error e => .error e
      | .ok ws => .ok (w :: ws)

/-- The loop of `resolve_definitions` (definition_resolver.py:36-49): the fields of the new model. A field that is
`None` is left alone, and so are the fields that do not change. -/
def resolveFields (defs : Defs) : List Decl → List Val → Except Err (List Val)
  | d :: ds, v :: vs =>
    match resolveValue defs d.ann v with
    | .error e => .error e
    | .ok w =>
      match resolveFields defs ds vs with
      | .error e => .error e
      | .ok ws => .ok (w :: ws)
  | _, vs => .ok vs

end

/-- `resolve_definitions` (definition_resolver.py:19-49). -/
def resolve (defs : Defs) : Val → Except Err Val
  | .obj c ds vs => (resolveFields defs ds vs).map (.obj c ds)
  | v => .ok v

end Verif.Schema
