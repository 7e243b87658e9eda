/-!
Model of v2/component.py: conversion of component dataclasses into flat dictionaries and back, and their Arrow schema.

A column name is a list of segments; `render` is the string that the Python code builds with `'.'.join`.  That working
on segments is the same as working on strings is proved in `Props/Component.lean` (`render_injective`,
`render_removePrefix`) for names that are Python identifiers.

Simplifications: the run-time class of an object is the declared class of its field; dataclasses have neither
`__post_init__` nor `init=False` fields; `Optional[...]` annotations are ignored, as `_get_type`
(component.py:203-208) does: `None` may be stored in any field.
-/

namespace Verif.Component

/-- Whether a dataclass derives from `Component`, from `Key` or from neither, component.py:32, 148. -/
inductive Kind
  | component
  | key
  | plain
  deriving DecidableEq, Repr

/-- The fields of a dataclass in the order of `dataclasses.fields`: a leaf has an Arrow type, a nested field has a
dataclass as its type.  `rep` is `is_repeated` of `create_column`, component.py:159-184. -/
inductive Fields (τ : Type)
  | nil
  | leaf (name : String) (rep : Bool) (ty : τ) (rest : Fields τ)
  | nested (name : String) (rep : Bool) (cname : String) (kind : Kind) (sub : Fields τ) (rest : Fields τ)
  deriving DecidableEq, Repr

/-- A dataclass. -/
structure Cls (τ : Type) where
  name : String
  kind : Kind
  fields : Fields τ
  deriving DecidableEq, Repr

/-- The values of the fields of an object, in order.  The value of a leaf may be `None`. -/
inductive Obj (ω : Type)
  | nil
  | leaf (x : Option ω) (rest : Obj ω)
  | none (rest : Obj ω)
  | obj (sub : Obj ω) (rest : Obj ω)
  deriving DecidableEq, Repr

/-- A part of a column name between two dots: `[Cls]`, `name` or `name[*]`. -/
inductive Seg
  | cls (name : String)
  | field (name : String) (rep : Bool)
  deriving DecidableEq, Repr

abbrev Column := List Seg

/-- The text of a segment, component.py:223, 244-246. -/
def Seg.text : Seg → List Char
  | .cls n => '[' :: (n.toList ++ [']'])
  | .field n true => n.toList ++ ['[', '*', ']']
  | .field n false => n.toList

/-- `'.'.join(field_path)`, component.py:289. -/
def render : Column → List Char
  | [] => []
  | [s] => s.text
  | s :: r => s.text ++ '.' :: render r

/-- `_column_name`, component.py:228-251.  `isKey` is `_issubclass(value_or_type, Key)`, which is false for `None`. -/
def columnName (cname : String) (kind : Kind) (name : String) (rep : Bool) (isKey : Bool) : Column :=
  if kind = .component ∧ isKey = false then [.cls cname, .field name rep] else [.field name rep]

/-- An ordered dictionary. -/
abbrev Dict (α : Type) := List (Column × α)

/-- `columns[key] = value`: an existing key keeps its position. -/
def Dict.set {α : Type} : Dict α → Column → α → Dict α
  | [], k, x => [(k, x)]
  | (k', y) :: d, k, x => if k' = k then (k', x) :: d else (k', y) :: Dict.set d k x

/-- `columns.get(key)`. -/
def Dict.get? {α : Type} : Dict α → Column → Option α
  | [], _ => none
  | (k', y) :: d, k => if k' = k then some y else Dict.get? d k

/-- `flatten_dict` applied to a class with `_return_none`, component.py:254-256, 279-289. -/
def flattenNone {τ ω : Type} (cname : String) (kind : Kind) :
    Fields τ → Column → Dict (Option ω) → Dict (Option ω)
  | .nil, _, d => d
  | .leaf n rep _ rest, ps, d =>
      flattenNone cname kind rest ps (d.set (ps ++ columnName cname kind n rep false) none)
  | .nested n rep c k sub rest, ps, d =>
      flattenNone cname kind rest ps
        (flattenNone c k sub (ps ++ columnName cname kind n rep (k = .key)) d)

/-- `flatten_dict` applied to an object, component.py:279-289.  `none`: the object is not of the class. -/
def flattenDict {τ ω : Type} (cname : String) (kind : Kind) :
    Fields τ → Obj ω → Column → Dict (Option ω) → Option (Dict (Option ω))
  | .nil, .nil, _, d => some d
  | .leaf n rep _ rest, .leaf x orest, ps, d =>
      flattenDict cname kind rest orest ps (d.set (ps ++ columnName cname kind n rep false) x)
  | .nested n rep c k sub rest, .none orest, ps, d =>
      flattenDict cname kind rest orest ps (flattenNone c k sub (ps ++ columnName cname kind n rep false) d)
  | .nested n rep c k sub rest, .obj osub orest, ps, d =>
      match flattenDict c k sub osub (ps ++ columnName cname kind n rep (k = .key)) d with
      | some d' => flattenDict cname kind rest orest ps d'
      | none => none
  | _, _, _, _ => none

/-- `Component.to_flatten_dict`, component.py:112-119. -/
def toFlattenDict {τ ω : Type} (cls : Cls τ) (o : Obj ω) : Option (Dict (Option ω)) :=
  flattenDict cls.name cls.kind cls.fields o [] []

/-- `flatten_arrow_types`, component.py:306-313. -/
def flattenTypes {τ : Type} (cname : String) (kind : Kind) : Fields τ → Column → Dict τ → Dict τ
  | .nil, _, d => d
  | .leaf n rep ty rest, ps, d =>
      flattenTypes cname kind rest ps (d.set (ps ++ columnName cname kind n rep false) ty)
  | .nested n rep c k sub rest, ps, d =>
      flattenTypes cname kind rest ps
        (flattenTypes c k sub (ps ++ columnName cname kind n rep (k = .key)) d)

/-- `Component.schema`, component.py:143-145. -/
def schema {τ : Type} (cls : Cls τ) : Dict τ :=
  flattenTypes cls.name cls.kind cls.fields [] []

/-- `k.removeprefix(f'{p}.')`. -/
def strip (p k : Column) : Column :=
  if p <+: k ∧ p.length < k.length then k.drop p.length else k

/-- `_remove_prefix`, component.py:316-318. -/
def removePrefix {α : Type} (p : Column) (d : Dict α) : Dict α :=
  d.foldl (fun acc kv => acc.set (strip p kv.1) kv.2) []

/-- `unflatten_dict`, component.py:332-351.  `none` is the failed assertion of line 340: a column is missing.  The
keyword arguments of line 350 are the names of the fields, hence the values are recorded by position.  In line 337 a
nested field may receive the bare value of a column. -/
def unflattenDict {τ ω : Type} (cname : String) (kind : Kind) :
    Fields τ → Dict (Option ω) → Option (Obj ω)
  | .nil, _ => some .nil
  | .leaf n rep _ rest, d =>
      match d.get? (columnName cname kind n rep false), unflattenDict cname kind rest d with
      | some x, some r => some (.leaf x r)
      | _, _ => none
  | .nested n rep c k sub rest, d =>
      match d.get? (columnName cname kind n rep (k = .key)) with
      | some x =>
          match unflattenDict cname kind rest d with
          | some r => some (.leaf x r)
          | none => none
      | none =>
          match unflattenDict c k sub (removePrefix (columnName cname kind n rep (k = .key)) d),
              unflattenDict cname kind rest d with
          | some s, some r => some (.obj s r)
          | _, _ => none

/-- `Component.from_dict`, component.py:64-75. -/
def fromDict {τ ω : Type} (cls : Cls τ) (d : Dict (Option ω)) : Option (Obj ω) :=
  unflattenDict cls.name cls.kind cls.fields d

end Verif.Component
