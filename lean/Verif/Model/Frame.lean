/-!
Model of v2/dataframe_utils.py: merging tables on their common key columns.

Simplifications: the order of rows in the result of pandas' `merge(how='outer')` and `groupby` (sorted by key) is not
modelled, and the order of the key columns, which Python takes from a `set`, is that of the left table.  Casting of key
types (`_cast_keys`, dataframe_utils.py:42-45) is not modelled.  `none` is an exception.
-/

namespace Verif.Frame

/-- A table: names of the columns and rows of cells. -/
structure Table (V : Type) where
  cols : List String
  rows : List (List V)
  deriving DecidableEq, Repr

/-- What pandas does with cells: the missing value, and the list built by `agg(list)`. -/
structure Cells (V : Type) where
  null : V
  pack : List V → V

/-- `pandas.DataFrame.merge`'s `how`. -/
inductive How
  | inner
  | left
  | right
  | outer
  deriving DecidableEq, Repr

/-- `_how`, dataframe_utils.py:31-39. -/
def how (leftNullable rightNullable : Bool) : How :=
  if leftNullable && rightNullable then .outer
  else if leftNullable && !rightNullable then .right
  else if !leftNullable && rightNullable then .left
  else .inner

/-- `_select_key_columns`, dataframe_utils.py:27-28. -/
def keyColumns {V : Type} (keyPrefix : String) (t : Table V) : List String :=
  t.cols.filter (fun c => keyPrefix.toList.isPrefixOf c.toList)

/-- The cell of a row in a column; the missing value for columns the table does not have (never used). -/
def cell {V : Type} (cs : Cells V) (t : Table V) (row : List V) (c : String) : V :=
  ((t.cols.zip row).lookup c).getD cs.null

/-- The key of a row. -/
def keyOf {V : Type} (cs : Cells V) (t : Table V) (keys : List String) (row : List V) : List V :=
  keys.map (cell cs t row)

/-- The first of equal elements. -/
def dedup {α : Type} [DecidableEq α] : List α → List α
  | [] => []
  | a :: l => a :: (dedup l).filter (· ≠ a)

/-- `src.groupby(list(keys)).agg(list).reset_index()`, dataframe_utils.py:48-52: pandas drops the rows with a missing
key, and needs at least one key. -/
def groupBy {V : Type} [DecidableEq V] (cs : Cells V) (keys : List String) (t : Table V) : Option (Table V) :=
  if keys = [] then none
  else
    let others := t.cols.filter (fun c => c ∉ keys)
    let groups := dedup ((t.rows.map (keyOf cs t keys)).filter (fun k => cs.null ∉ k))
    some ⟨keys ++ others, groups.map (fun k =>
      k ++ others.map (fun c => cs.pack ((t.rows.filter (fun r => keyOf cs t keys r = k)).map (fun r => cell cs t r c))))⟩

/-- A left join: every row of the left table with its partners, or alone. -/
def leftJoin {α β : Type} (agree : α → β → Bool) (L : List α) (R : List β) : List (Option α × Option β) :=
  L.flatMap (fun l =>
    if (R.filter (agree l)).isEmpty then [(some l, none)] else (R.filter (agree l)).map (fun r => (some l, some r)))

/-- A right join. -/
def rightJoin {α β : Type} (agree : α → β → Bool) (L : List α) (R : List β) : List (Option α × Option β) :=
  R.flatMap (fun r =>
    if (L.filter (fun l => agree l r)).isEmpty then [(none, some r)]
    else (L.filter (fun l => agree l r)).map (fun l => (some l, some r)))

/-- The pairs of rows that pandas' `merge` puts side by side. -/
def pairs {α β : Type} (h : How) (agree : α → β → Bool) (L : List α) (R : List β) : List (Option α × Option β) :=
  match h with
  | .inner => L.flatMap (fun l => (R.filter (agree l)).map (fun r => (some l, some r)))
  | .left => leftJoin agree L R
  | .right => rightJoin agree L R
  | .outer => leftJoin agree L R ++
      (R.filter (fun r => (L.filter (fun l => agree l r)).isEmpty)).map (fun r => (none, some r))

/-- The cell of the result in a column of the left table: a common key comes from whichever side is there. -/
def leftCell {V : Type} (cs : Cells V) (on : List String) (left right : Table V)
    (p : Option (List V) × Option (List V)) (c : String) : V :=
  match p with
  | (some l, _) => cell cs left l c
  | (none, some r) => if c ∈ on then cell cs right r c else cs.null
  | (none, none) => cs.null

/-- The cell of the result in a column of the right table that is not a common key. -/
def rightCell {V : Type} (cs : Cells V) (right : Table V) (p : Option (List V) × Option (List V)) (c : String) : V :=
  match p.2 with
  | some r => cell cs right r c
  | none => cs.null

/-- The cells of one row of the result. -/
def joinCells {V : Type} (cs : Cells V) (on : List String) (left right : Table V) (p : Option (List V) × Option (List V)) :
    List V :=
  left.cols.map (leftCell cs on left right p) ++ (right.cols.filter (fun c => c ∉ on)).map (rightCell cs right p)

/-- The names of the columns of the result: columns other than keys that occur in both tables get suffixes. -/
def joinCols {V : Type} (on : List String) (left right : Table V) : List String :=
  left.cols.map (fun c => if c ∉ on ∧ c ∈ right.cols then c ++ "_x" else c) ++
  (right.cols.filter (fun c => c ∉ on)).map (fun c => if c ∈ left.cols then c ++ "_y" else c)

/-- `left.merge(right, on=on, how=how)`; no key at all is an error. -/
def pandasMerge {V : Type} [DecidableEq V] (cs : Cells V) (h : How) (on : List String) (left right : Table V) :
    Option (Table V) :=
  if on = [] then none
  else some ⟨joinCols on left right,
    (pairs h (fun l r => keyOf cs left on l = keyOf cs right on r) left.rows right.rows).map
      (joinCells cs on left right)⟩

/-- The table itself, or grouped, dataframe_utils.py:96-99. -/
def grouped {V : Type} [DecidableEq V] (cs : Cells V) (group : Bool) (keys common : List String) (t : Table V) :
    Option (Table V) :=
  if group ∧ ¬ (keys ⊆ common) then groupBy cs common t else some t

/-- `merge`, dataframe_utils.py:93-102. -/
def merge {V : Type} [DecidableEq V] (cs : Cells V) (left right : Table V)
    (leftNullable rightNullable leftGroup rightGroup : Bool) (keyPrefix : String) : Option (Table V) :=
  let leftKeys := keyColumns keyPrefix left
  let rightKeys := keyColumns keyPrefix right
  let common := leftKeys.filter (fun c => c ∈ rightKeys)
  match grouped cs leftGroup leftKeys common left, grouped cs rightGroup rightKeys common right with
  | some l, some r => pandasMerge cs (how leftNullable rightNullable) common l r
  | _, _ => none

end Verif.Frame
