import Verif.Model.Component
import Mathlib.Data.List.Basic
import Mathlib.Data.List.Nodup
import Mathlib.Tactic

/-!
C06, C07, C66: flat dictionaries of components.
-/

namespace Verif.Component

variable {τ ω α β : Type}

/-! ## Specification -/

/-- The documented name of a field inside its class (component.py:85-97): fields of a component carry the name of the
component in brackets unless they are keys. -/
def label (cname : String) (kind : Kind) (name : String) (rep : Bool) (fieldKind : Option Kind) : Column :=
  match kind, fieldKind with
  | .component, some .key => [.field name rep]
  | .component, _ => [.cls cname, .field name rep]
  | _, _ => [.field name rep]

/-- The leaves of the tree of fields, in order, with their Arrow types. -/
def leafTypes (cname : String) (kind : Kind) : Fields τ → List (Column × τ)
  | .nil => []
  | .leaf n rep ty rest => (label cname kind n rep none, ty) :: leafTypes cname kind rest
  | .nested n rep c k sub rest =>
      (leafTypes c k sub).map (fun e => (label cname kind n rep (some k) ++ e.1, e.2)) ++ leafTypes cname kind rest

/-- The columns of a class. -/
def leafColumns (cname : String) (kind : Kind) (f : Fields τ) : List Column := (leafTypes cname kind f).map (·.1)

/-- The object has the fields of the class; the key of a component is not `None`. -/
def Fits (kind : Kind) : Fields τ → Obj ω → Prop
  | .nil, .nil => True
  | .leaf _ _ _ rest, .leaf _ orest => Fits kind rest orest
  | .nested _ _ _ k _ rest, .none orest => ¬ (kind = .component ∧ k = .key) ∧ Fits kind rest orest
  | .nested _ _ _ k sub rest, .obj osub orest => Fits k sub osub ∧ Fits kind rest orest
  | _, _ => False

/-- The object all of whose leaves are `None`. -/
def blank : Fields τ → Obj ω
  | .nil => .nil
  | .leaf _ _ _ rest => .leaf none (blank rest)
  | .nested _ _ _ _ sub rest => .obj (blank sub) (blank rest)

/-- The object with every `None` in the place of a nested object replaced by a blank object. -/
def fill : Fields τ → Obj ω → Obj ω
  | .leaf _ _ _ rest, .leaf x orest => .leaf x (fill rest orest)
  | .nested _ _ _ _ sub rest, .none orest => .obj (blank sub) (fill rest orest)
  | .nested _ _ _ _ sub rest, .obj osub orest => .obj (fill sub osub) (fill rest orest)
  | _, o => o

/-- No nested object is `None`. -/
def Full : Obj ω → Prop
  | .nil => True
  | .leaf _ rest => Full rest
  | .none _ => False
  | .obj sub rest => Full sub ∧ Full rest

/-- The leaves of an object without `None` objects, in order. -/
def values : Obj ω → List (Option ω)
  | .nil => []
  | .leaf x rest => x :: values rest
  | .none rest => values rest
  | .obj sub rest => values sub ++ values rest

/-- Names of the fields of one class. -/
def names : Fields τ → List String
  | .nil => []
  | .leaf n _ _ rest => n :: names rest
  | .nested n _ _ _ _ rest => n :: names rest

/-- No class has two fields with the same name (Python guarantees it). -/
def Distinct : Fields τ → Prop
  | .nil => True
  | .leaf n _ _ rest => n ∉ names rest ∧ Distinct rest
  | .nested n _ _ _ sub rest => n ∉ names rest ∧ Distinct sub ∧ Distinct rest

instance decDistinct : (f : Fields τ) → Decidable (Distinct f)
  | .nil => isTrue trivial
  | .leaf n _ _ rest =>
      have := decDistinct rest
      inferInstanceAs (Decidable (n ∉ names rest ∧ Distinct rest))
  | .nested n _ _ _ sub rest =>
      have := decDistinct rest
      have := decDistinct sub
      inferInstanceAs (Decidable (n ∉ names rest ∧ Distinct sub ∧ Distinct rest))

/-- The part of a column name below `p`, or the whole name if it does not lie below `p`. -/
def below (p q : Column) : Column := if p <+: q ∧ p ≠ q then q.drop p.length else q

/-- A column `q` cannot be mistaken for a field of the class: no nested field bears its name, and inside a nested field
no leaf bears its name unless it is a column of that nested field. -/
def Unmistakable (cname : String) (kind : Kind) : Fields τ → Column → Prop
  | .nil, _ => True
  | .leaf _ _ _ rest, q => Unmistakable cname kind rest q
  | .nested n rep c k sub rest, q =>
      q ≠ label cname kind n rep (some k) ∧
      (below (label cname kind n rep (some k)) q ∈ leafColumns c k sub →
        label cname kind n rep (some k) <+: q) ∧
      Unmistakable c k sub (below (label cname kind n rep (some k)) q) ∧
      Unmistakable cname kind rest q

instance decUnmistakable (cname : String) (kind : Kind) :
    (f : Fields τ) → (q : Column) → Decidable (Unmistakable cname kind f q)
  | .nil, _ => isTrue trivial
  | .leaf _ _ _ rest, q => decUnmistakable cname kind rest q
  | .nested n rep c k sub rest, q =>
      have := decUnmistakable cname kind rest q
      have := decUnmistakable c k sub (below (label cname kind n rep (some k)) q)
      inferInstanceAs (Decidable (q ≠ label cname kind n rep (some k) ∧
        (below (label cname kind n rep (some k)) q ∈ leafColumns c k sub →
          label cname kind n rep (some k) <+: q) ∧
        Unmistakable c k sub (below (label cname kind n rep (some k)) q) ∧
        Unmistakable cname kind rest q))

/-! ## Dictionaries -/

theorem get?_set (d : Dict α) (k k' : Column) (x : α) :
    (d.set k x).get? k' = if k = k' then some x else d.get? k' := by
  induction d with
  | nil => simp only [Dict.set, Dict.get?]
  | cons e d ih =>
    obtain ⟨ke, y⟩ := e
    simp only [Dict.set]
    by_cases h : ke = k
    · subst h
      simp only [if_true, Dict.get?]
      by_cases h2 : ke = k' <;> simp [h2]
    · simp only [h, if_false, Dict.get?, ih]
      by_cases h2 : ke = k'
      · subst h2; simp [Ne.symm h]
      · simp [h2]

theorem keys_set (d : Dict α) (k : Column) (x : α) :
    (d.set k x).map (·.1) = if k ∈ d.map (·.1) then d.map (·.1) else d.map (·.1) ++ [k] := by
  induction d with
  | nil => simp [Dict.set]
  | cons e d ih =>
    obtain ⟨ke, y⟩ := e
    simp only [Dict.set]
    by_cases h : ke = k
    · subst h; simp
    · simp only [h, if_false, List.map_cons, ih, List.mem_cons, Ne.symm h, false_or]
      split_ifs <;> simp

theorem set_new (d : Dict α) (k : Column) (x : α) (h : k ∉ d.map (·.1)) : d.set k x = d ++ [(k, x)] := by
  induction d with
  | nil => rfl
  | cons e d ih =>
    obtain ⟨ke, y⟩ := e
    simp only [List.map_cons, List.mem_cons, not_or] at h
    simp [Dict.set, Ne.symm h.1, ih h.2]

theorem nodup_set (d : Dict α) (k : Column) (x : α) (h : (d.map (·.1)).Nodup) :
    ((d.set k x).map (·.1)).Nodup := by
  rw [keys_set]
  split_ifs with hk
  · exact h
  · exact List.nodup_append.mpr ⟨h, by simp, by
      intro a ha b hb; simp only [List.mem_singleton] at hb; subst hb
      exact fun e => hk (e ▸ ha)⟩

theorem get?_none_iff (d : Dict α) (k : Column) : d.get? k = none ↔ k ∉ d.map (·.1) := by
  induction d with
  | nil => simp [Dict.get?]
  | cons e d ih =>
    obtain ⟨ke, y⟩ := e
    simp only [Dict.get?, List.map_cons, List.mem_cons, not_or]
    by_cases h : ke = k
    · simp [h]
    · simp [h, ih, Ne.symm h]

theorem get?_mem (d : Dict α) (k : Column) (x : α) (h : d.get? k = some x) : (k, x) ∈ d := by
  induction d with
  | nil => simp [Dict.get?] at h
  | cons e d ih =>
    obtain ⟨ke, y⟩ := e
    simp only [Dict.get?] at h
    by_cases hk : ke = k
    · simp only [hk, if_true, Option.some.injEq] at h; simp [hk, h]
    · simp only [hk, if_false] at h; exact List.mem_cons_of_mem _ (ih h)

theorem mem_get? (d : Dict α) (k : Column) (x : α) (hn : (d.map (·.1)).Nodup) (h : (k, x) ∈ d) :
    d.get? k = some x := by
  induction d with
  | nil => simp at h
  | cons e d ih =>
    obtain ⟨ke, y⟩ := e
    simp only [List.map_cons, List.nodup_cons] at hn
    simp only [Dict.get?]
    rcases List.mem_cons.mp h with h | h
    · cases h; simp
    · have : ke ≠ k := fun e => hn.1 (e ▸ List.mem_map_of_mem (f := (·.1)) h)
      simp [this, ih hn.2 h]

/-- Setting new keys one after the other appends them. -/
theorem foldl_set (l : List (Column × α)) (d : Dict α) (hn : ((d ++ l).map (·.1)).Nodup) :
    l.foldl (fun (acc : Dict α) kv => acc.set kv.1 kv.2) d = d ++ l := by
  induction l generalizing d with
  | nil => simp
  | cons e l ih =>
    have h1 : e.1 ∉ d.map (·.1) := by
      intro h
      rw [List.map_append, List.nodup_append] at hn
      exact hn.2.2 _ h e.1 (by simp) rfl
    rw [List.foldl_cons, set_new d e.1 e.2 h1, ih]
    · simp
    · simpa using hn

/-! ## Flattening -/

/-- The columns of an object with their values. -/
def leafValues (cname : String) (kind : Kind) (f : Fields τ) (o : Obj ω) : List (Column × Option ω) :=
  (leafColumns cname kind f).zip (values (fill f o))

theorem columnName_leaf (cname : String) (kind : Kind) (n : String) (rep : Bool) :
    columnName cname kind n rep false = label cname kind n rep none := by
  cases kind <;> rfl

theorem columnName_nested (cname : String) (kind : Kind) (n : String) (rep : Bool) (k : Kind) :
    columnName cname kind n rep (k = .key) = label cname kind n rep (some k) := by
  cases kind <;> cases k <;> rfl

theorem columnName_none (cname : String) (kind : Kind) (n : String) (rep : Bool) (k : Kind)
    (h : ¬ (kind = .component ∧ k = .key)) :
    columnName cname kind n rep false = label cname kind n rep (some k) := by
  cases kind <;> cases k <;> first | rfl | simp at h

theorem leafColumns_nil (cname : String) (kind : Kind) :
    leafColumns cname kind (.nil : Fields τ) = [] := rfl

theorem leafColumns_leaf (cname : String) (kind : Kind) (n : String) (rep : Bool) (ty : τ) (rest : Fields τ) :
    leafColumns cname kind (.leaf n rep ty rest) = label cname kind n rep none :: leafColumns cname kind rest := rfl

theorem leafColumns_nested (cname : String) (kind : Kind) (n : String) (rep : Bool) (c : String) (k : Kind)
    (sub rest : Fields τ) :
    leafColumns cname kind (.nested n rep c k sub rest) =
      (leafColumns c k sub).map (label cname kind n rep (some k) ++ ·) ++ leafColumns cname kind rest := by
  simp [leafColumns, leafTypes, Function.comp_def]

theorem values_blank (cname : String) (kind : Kind) (f : Fields τ) :
    values (blank f : Obj ω) = (leafColumns cname kind f).map (fun _ => none) := by
  induction f generalizing cname kind with
  | nil => rfl
  | leaf n rep ty rest ih => simp [blank, values, leafColumns_leaf, ih cname kind]
  | nested n rep c k sub rest ihs ih =>
    simp [blank, values, leafColumns_nested, ih cname kind, ihs c k, Function.comp_def]

theorem length_values (cname : String) (kind kind' : Kind) (f : Fields τ) (o : Obj ω) (h : Fits kind' f o) :
    (values (fill f o)).length = (leafColumns cname kind f).length := by
  induction f generalizing cname kind kind' o with
  | nil => cases o <;> simp [Fits] at h; rfl
  | leaf n rep ty rest ih =>
    cases o <;> simp only [Fits] at h
    simp [fill, values, leafColumns_leaf, ih cname kind _ _ h]
  | nested n rep c k sub rest ihs ih =>
    cases o <;> simp only [Fits] at h
    · simp [fill, values, leafColumns_nested, ih cname kind _ _ h.2, values_blank c k]
    · simp [fill, values, leafColumns_nested, ih cname kind _ _ h.2, ihs c k _ _ h.1]

theorem leafValues_keys (cname : String) (kind kind' : Kind) (f : Fields τ) (o : Obj ω) (h : Fits kind' f o) :
    (leafValues cname kind f o).map (·.1) = leafColumns cname kind f := by
  rw [leafValues, List.map_fst_zip]
  rw [length_values cname kind kind' f o h]

theorem leafValues_leaf (cname : String) (kind : Kind) (n : String) (rep : Bool) (ty : τ) (rest : Fields τ)
    (x : Option ω) (o : Obj ω) :
    leafValues cname kind (.leaf n rep ty rest) (.leaf x o) =
      (label cname kind n rep none, x) :: leafValues cname kind rest o := rfl

theorem leafValues_obj (cname : String) (kind : Kind) (n : String) (rep : Bool) (c : String) (k : Kind)
    (sub rest : Fields τ) (os o : Obj ω) (h : Fits k sub os) :
    leafValues cname kind (.nested n rep c k sub rest) (.obj os o) =
      (leafValues c k sub os).map (fun e => (label cname kind n rep (some k) ++ e.1, e.2)) ++
        leafValues cname kind rest o := by
  rw [leafValues, leafColumns_nested]
  simp only [fill, values]
  rw [List.zip_append (by simp [length_values c k k sub os h])]
  simp only [leafValues, List.zip_map_left]
  rfl

theorem leafValues_none (cname : String) (kind : Kind) (n : String) (rep : Bool) (c : String) (k : Kind)
    (sub rest : Fields τ) (o : Obj ω) :
    leafValues cname kind (.nested n rep c k sub rest) (.none o) =
      (leafColumns c k sub).map (fun e => (label cname kind n rep (some k) ++ e, none)) ++
        leafValues cname kind rest o := by
  rw [leafValues, leafColumns_nested]
  simp only [fill, values]
  rw [List.zip_append (by simp [values_blank c k]), values_blank c k]
  rw [List.zip_map']
  rfl

theorem flattenNone_eq (cname : String) (kind : Kind) (f : Fields τ) (ps : Column) (d : Dict (Option ω)) :
    flattenNone cname kind f ps d =
      ((leafColumns cname kind f).map (fun e => (ps ++ e, none))).foldl
        (fun (acc : Dict (Option ω)) kv => acc.set kv.1 kv.2) d := by
  induction f generalizing cname kind ps d with
  | nil => rfl
  | leaf n rep ty rest ih => simp [flattenNone, leafColumns_leaf, ih, columnName_leaf]
  | nested n rep c k sub rest ihs ih =>
    simp only [flattenNone, columnName_nested, ih, ihs, leafColumns_nested, List.map_append, List.foldl_append,
      List.map_map, Function.comp_def, List.append_assoc]

theorem flattenDict_eq (cname : String) (kind : Kind) (f : Fields τ) (o : Obj ω) (h : Fits kind f o) (ps : Column)
    (d : Dict (Option ω)) :
    flattenDict cname kind f o ps d =
      some (((leafValues cname kind f o).map (fun e => (ps ++ e.1, e.2))).foldl
        (fun (acc : Dict (Option ω)) kv => acc.set kv.1 kv.2) d) := by
  induction f generalizing cname kind o ps d with
  | nil => cases o <;> simp [Fits] at h; rfl
  | leaf n rep ty rest ih =>
    cases o <;> simp only [Fits] at h
    simp [flattenDict, leafValues_leaf, ih _ _ _ h, columnName_leaf]
  | nested n rep c k sub rest ihs ih =>
    cases o <;> simp only [Fits] at h
    · simp only [flattenDict, columnName_none cname kind n rep k h.1, ih _ _ _ h.2, leafValues_none,
        List.map_append, List.foldl_append, List.map_map, Function.comp_def, flattenNone_eq, List.append_assoc]
    · simp only [flattenDict, columnName_nested, ih _ _ _ h.2, leafValues_obj _ _ _ _ _ _ _ _ _ _ h.1,
        List.map_append, List.foldl_append, List.map_map, Function.comp_def, ihs _ _ _ h.1, List.append_assoc]

theorem flattenTypes_eq (cname : String) (kind : Kind) (f : Fields τ) (ps : Column) (d : Dict τ) :
    flattenTypes cname kind f ps d =
      ((leafTypes cname kind f).map (fun e => (ps ++ e.1, e.2))).foldl
        (fun (acc : Dict τ) kv => acc.set kv.1 kv.2) d := by
  induction f generalizing cname kind ps d with
  | nil => rfl
  | leaf n rep ty rest ih => simp [flattenTypes, leafTypes, ih, columnName_leaf]
  | nested n rep c k sub rest ihs ih =>
    simp only [flattenTypes, columnName_nested, ih, ihs, leafTypes, List.map_append, List.foldl_append,
      List.map_map, Function.comp_def, List.append_assoc]

/-! ### Distinct columns -/

/-- The first field name of a column. -/
def headName : Column → Option String
  | .field n _ :: _ => some n
  | .cls _ :: .field n _ :: _ => some n
  | _ => none

theorem headName_label (cname : String) (kind : Kind) (n : String) (rep : Bool) (k : Option Kind) (r : Column) :
    headName (label cname kind n rep k ++ r) = some n := by
  rcases kind with _ | _ | _ <;> rcases k with _ | (_ | _ | _) <;> rfl

theorem headName_leafColumns (cname : String) (kind : Kind) (f : Fields τ) (q : Column)
    (h : q ∈ leafColumns cname kind f) : ∃ n ∈ names f, headName q = some n := by
  induction f with
  | nil => simp [leafColumns_nil] at h
  | leaf n rep ty rest ih =>
    rw [leafColumns_leaf, List.mem_cons] at h
    rcases h with rfl | h
    · exact ⟨n, by simp [names], by simpa using headName_label cname kind n rep none []⟩
    · obtain ⟨m, hm, he⟩ := ih h
      exact ⟨m, by simp [names, hm], he⟩
  | nested n rep c k sub rest ihs ih =>
    rw [leafColumns_nested, List.mem_append] at h
    rcases h with h | h
    · obtain ⟨r, _, rfl⟩ := List.mem_map.mp h
      exact ⟨n, by simp [names], headName_label cname kind n rep (some k) r⟩
    · obtain ⟨m, hm, he⟩ := ih h
      exact ⟨m, by simp [names, hm], he⟩

theorem nodup_leafColumns (cname : String) (kind : Kind) (f : Fields τ) (h : Distinct f) :
    (leafColumns cname kind f).Nodup := by
  induction f generalizing cname kind with
  | nil => simp [leafColumns_nil]
  | leaf n rep ty rest ih =>
    rw [leafColumns_leaf, List.nodup_cons]
    refine ⟨fun hq => ?_, ih cname kind h.2⟩
    obtain ⟨m, hm, he⟩ := headName_leafColumns cname kind rest _ hq
    have := headName_label cname kind n rep none []
    rw [List.append_nil, he] at this
    exact h.1 (by simpa using (Option.some.inj this) ▸ hm)
  | nested n rep c k sub rest ihs ih =>
    rw [leafColumns_nested, List.nodup_append]
    refine ⟨(ihs c k h.2.1).map (fun a b hab => by simpa using hab), ih cname kind h.2.2, ?_⟩
    intro a ha b hb e
    subst e
    obtain ⟨r, _, rfl⟩ := List.mem_map.mp ha
    obtain ⟨m, hm, he⟩ := headName_leafColumns cname kind rest _ hb
    rw [headName_label] at he
    exact h.1 ((Option.some.inj he) ▸ hm)

theorem leafColumns_ne_nil (cname : String) (kind : Kind) (f : Fields τ) : [] ∉ leafColumns cname kind f := by
  intro h
  obtain ⟨n, _, he⟩ := headName_leafColumns cname kind f [] h
  simp [headName] at he

/-! ## C07: the schema -/

/-- C07: `to_flatten_dict` of any object of the class has exactly one column per leaf field, named and ordered as
documented, holding the value of that field (`None` below a `None` object). -/
theorem toFlattenDict_spec (cls : Cls τ) (o : Obj ω) (hd : Distinct cls.fields) (h : Fits cls.kind cls.fields o) :
    toFlattenDict cls o = some ((leafColumns cls.name cls.kind cls.fields).zip (values (fill cls.fields o))) := by
  rw [toFlattenDict, flattenDict_eq _ _ _ _ h]
  simp only [List.nil_append]
  have hk := leafValues_keys cls.name cls.kind cls.kind cls.fields o h
  rw [show (leafValues cls.name cls.kind cls.fields o).map (fun e => (e.1, e.2)) =
    leafValues cls.name cls.kind cls.fields o by simp]
  rw [foldl_set _ _ (by rw [List.nil_append, hk]; exact nodup_leafColumns _ _ _ hd)]
  rfl

/-- C07: the schema lists the leaf fields with their declared Arrow types. -/
theorem schema_spec (cls : Cls τ) (hd : Distinct cls.fields) :
    schema cls = leafTypes cls.name cls.kind cls.fields := by
  rw [schema, flattenTypes_eq]
  simp only [List.nil_append]
  rw [show (leafTypes cls.name cls.kind cls.fields).map (fun e => (e.1, e.2)) =
    leafTypes cls.name cls.kind cls.fields by simp]
  rw [foldl_set _ _ (by rw [List.nil_append]; exact nodup_leafColumns _ _ _ hd)]
  rfl

/-- C07: the names of the schema are the columns of every object of the class, in the same order and without
duplicates. -/
theorem schema_columns (cls : Cls τ) (o : Obj ω) (hd : Distinct cls.fields) (h : Fits cls.kind cls.fields o) :
    ∃ d, toFlattenDict cls o = some d ∧ d.map (·.1) = (schema cls).map (·.1) ∧ (d.map (·.1)).Nodup := by
  refine ⟨_, toFlattenDict_spec cls o hd h, ?_, ?_⟩
  · rw [schema_spec cls hd]
    exact leafValues_keys cls.name cls.kind cls.kind cls.fields o h
  · have := leafValues_keys cls.name cls.kind cls.kind cls.fields o h
    rw [leafValues] at this
    rw [this]
    exact nodup_leafColumns _ _ _ hd

/-- The names of the key fields of a class. -/
def keyFields : Fields τ → List String
  | .nil => []
  | .leaf _ _ _ rest => keyFields rest
  | .nested n _ _ k _ rest => if k = .key then n :: keyFields rest else keyFields rest

theorem column_shape (cname : String) (f : Fields τ) (q : Column) (h : q ∈ leafColumns cname .component f) :
    (∃ r, q = .cls cname :: r) ∨ (∃ n rep r, q = .field n rep :: r ∧ n ∈ keyFields f) := by
  induction f with
  | nil => simp [leafColumns_nil] at h
  | leaf n rep ty rest ih =>
    rw [leafColumns_leaf, List.mem_cons] at h
    rcases h with rfl | h
    · exact Or.inl ⟨_, rfl⟩
    · exact ih h
  | nested n rep c k sub rest ihs ih =>
    rw [leafColumns_nested, List.mem_append] at h
    rcases h with h | h
    · obtain ⟨r, _, rfl⟩ := List.mem_map.mp h
      cases k
      · exact Or.inl ⟨_, rfl⟩
      · exact Or.inr ⟨n, rep, r, rfl, by simp [keyFields]⟩
      · exact Or.inl ⟨_, rfl⟩
    · rcases ih h with h | ⟨m, rep', r, hq, hm⟩
      · exact Or.inl h
      · refine Or.inr ⟨m, rep', r, hq, ?_⟩
        simp only [keyFields]
        split_ifs <;> simp [hm]

/-- C07: a column shared by two components with different names belongs to a key field of both. -/
theorem shared_columns (A B : Cls τ) (hA : A.kind = .component) (hB : B.kind = .component) (hne : A.name ≠ B.name)
    (hdA : Distinct A.fields) (hdB : Distinct B.fields) (q : Column) (hqA : q ∈ (schema A).map (·.1))
    (hqB : q ∈ (schema B).map (·.1)) :
    ∃ n rep r, q = .field n rep :: r ∧ n ∈ keyFields A.fields ∧ n ∈ keyFields B.fields := by
  rw [schema_spec A hdA, hA] at hqA
  rw [schema_spec B hdB, hB] at hqB
  rcases column_shape A.name A.fields q hqA with ⟨r, rfl⟩ | ⟨n, rep, r, rfl, hn⟩
  · rcases column_shape B.name B.fields _ hqB with ⟨r', hr⟩ | ⟨n, rep, r', hr, hn⟩
    · simp only [List.cons.injEq, Seg.cls.injEq] at hr; exact absurd hr.1 hne
    · simp at hr
  · refine ⟨n, rep, r, rfl, hn, ?_⟩
    rcases column_shape B.name B.fields _ hqB with ⟨r', hr⟩ | ⟨n', rep', r', hr, hn'⟩
    · simp at hr
    · simp only [List.cons.injEq, Seg.field.injEq] at hr; rw [hr.1.1]; exact hn'

/-! ## C06, C66: reading back -/

theorem strip_eq_below (p q : Column) : strip p q = below p q := by
  unfold strip below
  by_cases h : p <+: q
  · have hl := h.length_le
    by_cases e : p = q
    · subst e; simp
    · have : p.length < q.length := by
        rcases Nat.lt_or_ge p.length q.length with h' | h'
        · exact h'
        · exact absurd (h.eq_of_length (by omega)) e
      simp [h, e, this]
  · simp [h]

theorem below_append (p r : Column) (h : r ≠ []) : below p (p ++ r) = r := by
  unfold below
  rw [if_pos ⟨List.prefix_append p r, by simpa using Ne.symm h⟩]
  simp

theorem keys_removePrefix_aux (p : Column) (d acc : Dict α) (q : Column)
    (h : q ∈ (d.foldl (fun (acc : Dict α) kv => acc.set (strip p kv.1) kv.2) acc).map (·.1)) :
    q ∈ acc.map (·.1) ∨ ∃ k ∈ d.map (·.1), q = below p k := by
  induction d generalizing acc with
  | nil => exact Or.inl h
  | cons e d ih =>
    rcases ih _ h with h | ⟨k, hk, rfl⟩
    · rw [keys_set] at h
      split_ifs at h with hin
      · exact Or.inl h
      · rcases List.mem_append.mp h with h | h
        · exact Or.inl h
        · simp only [List.mem_singleton] at h
          exact Or.inr ⟨e.1, by simp, by rw [h, strip_eq_below]⟩
    · exact Or.inr ⟨k, by simp [List.mem_map.mp hk], rfl⟩

theorem keys_removePrefix (p : Column) (d : Dict α) (q : Column) (h : q ∈ (removePrefix p d).map (·.1)) :
    ∃ k ∈ d.map (·.1), q = below p k := by
  rcases keys_removePrefix_aux p d [] q h with h | h
  · simp at h
  · exact h

theorem nodup_removePrefix (p : Column) (d : Dict α) : ((removePrefix p d).map (·.1)).Nodup := by
  have : ∀ acc : Dict α, (acc.map (·.1)).Nodup →
      ((d.foldl (fun (acc : Dict α) kv => acc.set (strip p kv.1) kv.2) acc).map (·.1)).Nodup := by
    induction d with
    | nil => intro acc h; exact h
    | cons e d ih => intro acc h; exact ih _ (nodup_set acc _ _ h)
  exact this [] (by simp)

theorem get?_removePrefix (p r : Column) (d : Dict α) (hr : r ≠ []) (hn : (d.map (·.1)).Nodup)
    (huniq : ∀ q ∈ d.map (·.1), below p q = r → q = p ++ r) :
    (removePrefix p d).get? r = d.get? (p ++ r) := by
  have aux : ∀ acc : Dict α, (d.foldl (fun (acc : Dict α) kv => acc.set (strip p kv.1) kv.2) acc).get? r =
      (d.get? (p ++ r)).or (acc.get? r) := by
    induction d with
    | nil => intro acc; simp [Dict.get?]
    | cons e d ih =>
      intro acc
      obtain ⟨ke, y⟩ := e
      simp only [List.map_cons, List.nodup_cons] at hn
      rw [List.foldl_cons, ih hn.2 (fun q hq => huniq q (by simp [List.mem_map.mp hq])), get?_set, strip_eq_below]
      simp only [Dict.get?]
      by_cases h : ke = p ++ r
      · subst h
        rw [(get?_none_iff d (p ++ r)).mpr hn.1, below_append p r hr]
        simp
      · have : below p ke ≠ r := fun e => h (huniq ke (by simp) e)
        simp [h, this]
  rw [removePrefix, aux []]
  simp [Dict.get?]

/-- C66: reading a component back from any dictionary that holds its columns — for instance a row of a table merged
from several components — gives the object that was stored, with blank objects in the place of missing ones, provided
that no other column of the dictionary can be mistaken for one of its fields. -/
theorem unflatten_of_agrees (cname : String) (kind : Kind) (f : Fields τ) (o : Obj ω) (d : Dict (Option ω))
    (h : Fits kind f o) (hn : (d.map (·.1)).Nodup)
    (hv : ∀ e ∈ leafValues cname kind f o, d.get? e.1 = some e.2)
    (hu : ∀ q ∈ d.map (·.1), Unmistakable cname kind f q) :
    unflattenDict cname kind f d = some (fill f o) := by
  induction f generalizing cname kind o d with
  | nil => cases o <;> simp [Fits] at h; rfl
  | leaf n rep ty rest ih =>
    cases o <;> simp only [Fits] at h
    rename_i x orest
    rw [leafValues_leaf] at hv
    have h1 := hv _ (List.mem_cons_self ..)
    have h2 := ih cname kind orest d h hn (fun e he => hv e (List.mem_cons_of_mem _ he)) hu
    simp only [unflattenDict, columnName_leaf, h1, h2, fill]
  | nested n rep c k sub rest ihs ih =>
    have key : ∀ (osub orest : Obj ω), Fits k sub osub → Fits kind rest orest →
        (∀ e ∈ (leafValues c k sub osub).map (fun e => (label cname kind n rep (some k) ++ e.1, e.2)) ++
          leafValues cname kind rest orest, d.get? e.1 = some e.2) →
        unflattenDict cname kind (.nested n rep c k sub rest) d = some (.obj (fill sub osub) (fill rest orest)) := by
      intro osub orest hs hr hv
      have hp : d.get? (label cname kind n rep (some k)) = none := by
        rw [get?_none_iff]
        exact fun hq => (hu _ hq).1 rfl
      have h2 := ih cname kind orest d hr hn (fun e he => hv e (List.mem_append_right _ he))
        (fun q hq => (hu q hq).2.2.2)
      have h1 := ihs c k osub (removePrefix (label cname kind n rep (some k)) d) hs (nodup_removePrefix _ _) ?_ ?_
      · simp only [unflattenDict, columnName_nested, hp, h1, h2]
      · intro e he
        have hc : e.1 ∈ leafColumns c k sub := by
          rw [← leafValues_keys c k k sub osub hs]; exact List.mem_map_of_mem he
        have hne : e.1 ≠ [] := fun e' => leafColumns_ne_nil c k sub (e' ▸ hc)
        rw [get?_removePrefix _ _ _ hne hn]
        · exact hv (label cname kind n rep (some k) ++ e.1, e.2)
            (List.mem_append_left _ (List.mem_map.mpr ⟨e, he, rfl⟩))
        · intro q hq hb
          obtain ⟨hne', hpre, _⟩ := hu q hq
          obtain ⟨t, rfl⟩ := hpre (hb ▸ hc)
          have ht : t ≠ [] := by
            rintro rfl; simp at hne'
          rw [below_append _ _ ht] at hb
          rw [hb]
      · intro q hq
        obtain ⟨q', hq', rfl⟩ := keys_removePrefix _ d q hq
        exact (hu q' hq').2.2.1
    cases o <;> simp only [Fits] at h
    · rename_i orest
      rw [leafValues_none] at hv
      have hb : Fits k sub (blank sub : Obj ω) ∧ fill sub (blank sub : Obj ω) = blank sub := by
        clear ihs ih key hv hu
        have : ∀ (g : Fields τ) (k : Kind), Fits k g (blank g : Obj ω) ∧ fill g (blank g : Obj ω) = blank g := by
          intro g
          induction g with
          | nil => intro k; exact ⟨trivial, rfl⟩
          | leaf _ _ _ rest ih => intro k; exact ⟨(ih k).1, by simp [blank, fill, (ih k).2]⟩
          | nested _ _ _ k' sub rest ihs ih =>
            intro k; exact ⟨⟨(ihs k').1, (ih k).1⟩, by simp [blank, fill, (ih k).2, (ihs k').2]⟩
        exact this sub k
      have := key (blank sub) orest hb.1 h.2 (by
        intro e he
        apply hv
        rcases List.mem_append.mp he with he | he
        · obtain ⟨e', he', rfl⟩ := List.mem_map.mp he
          have hz : leafValues c k sub (blank sub : Obj ω) = (leafColumns c k sub).map (fun e => (e, none)) := by
            rw [leafValues, hb.2, values_blank c k]
            simpa using List.zip_map' (l := leafColumns c k sub) (f := id) (g := fun _ => (none : Option ω))
          rw [hz] at he'
          obtain ⟨e'', he'', rfl⟩ := List.mem_map.mp he'
          exact List.mem_append_left _ (List.mem_map.mpr ⟨e'', he'', rfl⟩)
        · exact List.mem_append_right _ he)
      rw [this, hb.2]; rfl
    · rename_i osub orest
      rw [leafValues_obj _ _ _ _ _ _ _ _ _ _ h.1] at hv
      rw [key osub orest h.1 h.2 hv]; rfl

/-- C06: `from_dict` undoes `to_flatten_dict`, up to blank objects in the place of missing ones, for every object of a
class none of whose columns can be mistaken for another field.  What is missing for the full property: missing nested
objects come back as blank objects (`roundTrip_none_violated`), and columns may be mistaken
(`roundTrip_clash_violated`). -/
theorem roundTrip_partial (cls : Cls τ) (o : Obj ω) (hd : Distinct cls.fields) (h : Fits cls.kind cls.fields o)
    (hu : ∀ q ∈ leafColumns cls.name cls.kind cls.fields, Unmistakable cls.name cls.kind cls.fields q) :
    ∃ d, toFlattenDict cls o = some d ∧ fromDict cls d = some (fill cls.fields o) := by
  have hk := leafValues_keys cls.name cls.kind cls.kind cls.fields o h
  have hn : ((leafValues cls.name cls.kind cls.fields o).map (·.1)).Nodup := by
    rw [hk]; exact nodup_leafColumns _ _ _ hd
  exact ⟨_, toFlattenDict_spec cls o hd h, unflatten_of_agrees cls.name cls.kind cls.fields o
    (leafValues cls.name cls.kind cls.fields o) h hn (fun e he => mem_get? _ _ _ hn he)
    (fun q hq => hu q (by rw [← hk]; exact hq))⟩

theorem fill_full (f : Fields τ) (o : Obj ω) (h : Full o) : fill f o = o := by
  induction f generalizing o with
  | nil => cases o <;> rfl
  | leaf n rep ty rest ih =>
    cases o with
    | leaf x r => simp only [Full] at h; simp [fill, ih r h]
    | _ => rfl
  | nested n rep c k sub rest ihs ih =>
    cases o with
    | none r => simp [Full] at h
    | obj s r => simp only [Full] at h; simp [fill, ih r h.2, ihs s h.1]
    | _ => rfl

/-- C06: an object without missing nested objects is read back unchanged. -/
theorem roundTrip_full (cls : Cls τ) (o : Obj ω) (hd : Distinct cls.fields) (h : Fits cls.kind cls.fields o)
    (hf : Full o)
    (hu : ∀ q ∈ leafColumns cls.name cls.kind cls.fields, Unmistakable cls.name cls.kind cls.fields q) :
    ∃ d, toFlattenDict cls o = some d ∧ fromDict cls d = some o := by
  obtain ⟨d, h1, h2⟩ := roundTrip_partial cls o hd h hu
  exact ⟨d, h1, by rw [h2, fill_full _ _ hf]⟩

/-! ### An exact criterion

`from_dict` treats values as black boxes, hence a class reads back every object if and only if it reads back the one
object whose leaves hold the names of their own columns. -/

/-- Replaces the values of an object. -/
def mapObj {ω ω' : Type} (g : Option ω → Option ω') : Obj ω → Obj ω'
  | .nil => .nil
  | .leaf x rest => .leaf (g x) (mapObj g rest)
  | .none rest => .none (mapObj g rest)
  | .obj sub rest => .obj (mapObj g sub) (mapObj g rest)

/-- The object whose leaves hold the names of their own columns. -/
def ownNames (cname : String) (kind : Kind) (p : Column) : Fields τ → Obj Column
  | .nil => .nil
  | .leaf n rep _ rest => .leaf (some (p ++ label cname kind n rep none)) (ownNames cname kind p rest)
  | .nested n rep c k sub rest =>
      .obj (ownNames c k (p ++ label cname kind n rep (some k)) sub) (ownNames cname kind p rest)

theorem get?_map {α β : Type} (g : α → β) (d : Dict α) (k : Column) :
    Dict.get? (d.map (fun e => (e.1, g e.2))) k = (d.get? k).map g := by
  induction d with
  | nil => rfl
  | cons e d ih => simp only [List.map_cons, Dict.get?, ih]; split_ifs <;> rfl

theorem set_map {α β : Type} (g : α → β) (d : Dict α) (k : Column) (x : α) :
    Dict.set (d.map (fun e => (e.1, g e.2))) k (g x) = (d.set k x).map (fun e => (e.1, g e.2)) := by
  induction d with
  | nil => rfl
  | cons e d ih => simp only [List.map_cons, Dict.set, ih]; split_ifs <;> rfl

theorem removePrefix_map {α β : Type} (g : α → β) (p : Column) (d : Dict α) :
    removePrefix p (d.map (fun e => (e.1, g e.2))) = (removePrefix p d).map (fun e => (e.1, g e.2)) := by
  have : ∀ acc : Dict α, (d.map (fun e => (e.1, g e.2))).foldl
      (fun (acc : Dict β) kv => acc.set (strip p kv.1) kv.2) (acc.map (fun e => (e.1, g e.2))) =
      (d.foldl (fun (acc : Dict α) kv => acc.set (strip p kv.1) kv.2) acc).map (fun e => (e.1, g e.2)) := by
    induction d with
    | nil => intro acc; rfl
    | cons e d ih =>
      intro acc
      simp only [List.map_cons, List.foldl_cons]
      rw [set_map, ih]
  exact this []

theorem unflattenDict_map {ω ω' : Type} (g : Option ω → Option ω') (cname : String) (kind : Kind) (f : Fields τ)
    (d : Dict (Option ω)) :
    unflattenDict cname kind f (d.map (fun e => (e.1, g e.2))) = (unflattenDict cname kind f d).map (mapObj g) := by
  induction f generalizing cname kind d with
  | nil => rfl
  | leaf n rep ty rest ih =>
    simp only [unflattenDict, get?_map, ih]
    cases d.get? (columnName cname kind n rep false) <;> cases unflattenDict cname kind rest d <;> rfl
  | nested n rep c k sub rest ihs ih =>
    simp only [unflattenDict, get?_map, ih, removePrefix_map, ihs]
    cases d.get? (columnName cname kind n rep (k = .key)) with
    | some x => cases unflattenDict cname kind rest d <;> rfl
    | none =>
      cases unflattenDict c k sub (removePrefix (columnName cname kind n rep (k = .key)) d) <;>
        cases unflattenDict cname kind rest d <;> rfl

theorem ownNames_spec (cname : String) (kind : Kind) (p : Column) (f : Fields τ) :
    Fits kind f (ownNames cname kind p f) ∧ Full (ownNames cname kind p f) ∧
      values (ownNames cname kind p f) = (leafColumns cname kind f).map (fun c => some (p ++ c)) := by
  induction f generalizing cname kind p with
  | nil => exact ⟨trivial, trivial, rfl⟩
  | leaf n rep ty rest ih =>
    obtain ⟨h1, h2, h3⟩ := ih cname kind p
    exact ⟨h1, h2, by simp [ownNames, values, leafColumns_leaf, h3]⟩
  | nested n rep c k sub rest ihs ih =>
    obtain ⟨h1, h2, h3⟩ := ih cname kind p
    obtain ⟨g1, g2, g3⟩ := ihs c k (p ++ label cname kind n rep (some k))
    exact ⟨⟨g1, h1⟩, ⟨g2, h2⟩, by simp [ownNames, values, leafColumns_nested, h3, g3, Function.comp_def]⟩

theorem mapObj_spec {ω ω' : Type} (g : Option ω → Option ω') (kind : Kind) (f : Fields τ) (o : Obj ω)
    (h : Fits kind f o) (hf : Full o) :
    Fits kind f (mapObj g o) ∧ Full (mapObj g o) ∧ values (mapObj g o) = (values o).map g := by
  induction f generalizing kind o with
  | nil => cases o <;> simp [Fits] at h; exact ⟨trivial, trivial, rfl⟩
  | leaf n rep ty rest ih =>
    cases o <;> simp only [Fits] at h
    simp only [Full] at hf
    obtain ⟨h1, h2, h3⟩ := ih _ _ h hf
    exact ⟨h1, h2, by simp [mapObj, values, h3]⟩
  | nested n rep c k sub rest ihs ih =>
    cases o <;> simp only [Fits] at h <;> simp only [Full] at hf
    obtain ⟨h1, h2, h3⟩ := ih _ _ h.2 hf.2
    obtain ⟨g1, g2, g3⟩ := ihs _ _ h.1 hf.1
    exact ⟨⟨g1, h1⟩, ⟨g2, h2⟩, by simp [mapObj, values, h3, g3]⟩

theorem fits_fill (kind : Kind) (f : Fields τ) (o : Obj ω) (h : Fits kind f o) :
    Fits kind f (fill f o) ∧ Full (fill f o) := by
  have hb : ∀ (g : Fields τ) (k : Kind), Fits k g (blank g : Obj ω) ∧ Full (blank g : Obj ω) := by
    intro g
    induction g with
    | nil => intro k; exact ⟨trivial, trivial⟩
    | leaf _ _ _ rest ih => intro k; exact ih k
    | nested _ _ _ k' sub rest ihs ih => intro k; exact ⟨⟨(ihs k').1, (ih k).1⟩, (ihs k').2, (ih k).2⟩
  induction f generalizing kind o with
  | nil => cases o <;> simp [Fits] at h; exact ⟨trivial, trivial⟩
  | leaf n rep ty rest ih =>
    cases o <;> simp only [Fits] at h
    exact ih _ _ h
  | nested n rep c k sub rest ihs ih =>
    cases o <;> simp only [Fits] at h
    · exact ⟨⟨(hb sub k).1, (ih _ _ h.2).1⟩, (hb sub k).2, (ih _ _ h.2).2⟩
    · exact ⟨⟨(ihs _ _ h.1).1, (ih _ _ h.2).1⟩, (ihs _ _ h.1).2, (ih _ _ h.2).2⟩

theorem ext_values (kind : Kind) (f : Fields τ) (a b : Obj ω) (ha : Fits kind f a) (hb : Fits kind f b)
    (fa : Full a) (fb : Full b) (h : values a = values b) : a = b := by
  induction f generalizing kind a b with
  | nil => cases a <;> cases b <;> simp [Fits] at ha hb; rfl
  | leaf n rep ty rest ih =>
    cases a <;> cases b <;> simp only [Fits] at ha hb
    simp only [Full] at fa fb
    simp only [values, List.cons.injEq] at h
    rw [h.1, ih _ _ _ ha hb fa fb h.2]
  | nested n rep c k sub rest ihs ih =>
    cases a <;> cases b <;> simp only [Fits] at ha hb <;> simp only [Full] at fa fb
    simp only [values] at h
    have l1 := length_values c k _ _ _ ha.1
    have l2 := length_values c k _ _ _ hb.1
    rw [fill_full _ _ fa.1] at l1
    rw [fill_full _ _ fb.1] at l2
    obtain ⟨e1, e2⟩ := List.append_inj h (by rw [l1, l2])
    rw [ihs _ _ _ ha.1 hb.1 fa.1 fb.1 e1, ih _ _ _ ha.2 hb.2 fa.2 fb.2 e2]

/-- C06: every object of a class is read back (up to blank objects in the place of missing ones) if and only if the one
object whose leaves hold the names of their own columns is. -/
theorem roundTrip_iff (cls : Cls τ) (hd : Distinct cls.fields) :
    (∀ (ω : Type) (o : Obj ω), Fits cls.kind cls.fields o →
      (toFlattenDict cls o).bind (fromDict cls) = some (fill cls.fields o)) ↔
    fromDict cls ((leafColumns cls.name cls.kind cls.fields).map (fun c => (c, some c))) =
      some (ownNames cls.name cls.kind [] cls.fields) := by
  obtain ⟨o1, o2, o3⟩ := ownNames_spec cls.name cls.kind [] cls.fields
  simp only [List.nil_append] at o3
  constructor
  · intro h
    have := h Column _ o1
    rw [toFlattenDict_spec cls _ hd o1, fill_full _ _ o2, o3] at this
    rw [← this]
    simp only [Option.bind_some]
    congr 1
    simpa using (List.zip_map' (l := leafColumns cls.name cls.kind cls.fields) (f := id)
      (g := fun c => some c)).symm
  · intro h ω o ho
    rw [toFlattenDict_spec cls o hd ho, Option.bind_some]
    have hlen := length_values cls.name cls.kind cls.kind cls.fields o ho
    set cols := leafColumns cls.name cls.kind cls.fields with hcols
    set vs := values (fill cls.fields o) with hvs
    have hnd : cols.Nodup := nodup_leafColumns _ _ _ hd
    let dd : Dict (Option ω) := cols.zip vs
    have hkeys : dd.map (·.1) = cols := by
      show (cols.zip vs).map Prod.fst = cols
      rw [List.map_fst_zip]; omega
    let g : Option Column → Option ω := fun c => (c.bind (fun c => dd.get? c)).getD none
    have hg : ∀ i (hi : i < cols.length), g (some cols[i]) = vs[i]'(by omega) := by
      intro i hi
      have hm : (cols[i], vs[i]'(by omega)) ∈ dd := by
        rw [List.mem_iff_getElem]
        exact ⟨i, by simp [dd]; omega, by simp [dd]⟩
      have := mem_get? dd _ _ (by rw [hkeys]; exact hnd) hm
      simp [g, this]
    have hmap : cols.map (fun c => g (some c)) = vs := by
      apply List.ext_getElem
      · simp; omega
      · intro i h1 h2
        simp only [List.getElem_map]
        exact hg i (by simpa using h1)
    have hdd : cols.zip vs = (cols.map (fun c => (c, some c))).map (fun e => (e.1, g e.2)) := by
      rw [List.map_map]
      conv_lhs => rw [← hmap]
      simpa [Function.comp_def] using List.zip_map' (l := cols) (f := id) (g := fun c => g (some c))
    rw [hdd, fromDict, unflattenDict_map]
    rw [fromDict] at h
    rw [h, Option.map_some]
    obtain ⟨m1, m2, m3⟩ := mapObj_spec g cls.kind cls.fields _ o1 o2
    obtain ⟨f1, f2⟩ := fits_fill cls.kind cls.fields o ho
    congr 1
    refine ext_values cls.kind cls.fields _ _ m1 f1 m2 f2 ?_
    rw [m3, o3, List.map_map, Function.comp_def, hmap]

/-! ## Column names as strings -/

/-- A Python identifier: not empty and without the characters that structure column names. -/
def Ident (n : String) : Prop := n.toList ≠ [] ∧ ∀ c ∈ n.toList, c ≠ '.' ∧ c ≠ '[' ∧ c ≠ ']' ∧ c ≠ '*'

def Seg.Ok : Seg → Prop
  | .cls n => Ident n
  | .field n _ => Ident n

theorem Seg.text_ne_nil (s : Seg) (h : s.Ok) : s.text ≠ [] := by
  rcases s with n | ⟨n, _ | _⟩ <;> simp [Seg.text]
  have := h.1
  simpa using this

theorem Seg.text_no_dot (s : Seg) (h : s.Ok) : '.' ∉ s.text := by
  rcases s with n | ⟨n, _ | _⟩ <;> simp only [Seg.text, List.mem_cons, List.mem_append, List.not_mem_nil, not_or]
  · exact ⟨by decide, fun hc => (h.2 _ hc).1 rfl, by decide, by simp⟩
  · exact fun hc => (h.2 _ hc).1 rfl
  · exact ⟨fun hc => (h.2 _ hc).1 rfl, by decide, by decide, by decide, by simp⟩

theorem Seg.text_injective (s t : Seg) (hs : s.Ok) (ht : t.Ok) (h : s.text = t.text) : s = t := by
  have nb : ∀ n : String, Ident n → ∀ c ∈ n.toList, c ≠ '[' ∧ c ≠ ']' := fun n hn c hc => ⟨(hn.2 c hc).2.1, (hn.2 c hc).2.2.1⟩
  rcases s with n | ⟨n, _ | _⟩ <;> rcases t with m | ⟨m, _ | _⟩ <;> simp only [Seg.text] at h
  · have := List.append_cancel_right (List.cons.inj h).2
    rw [String.toList_inj.mp this]
  · exact absurd rfl (nb m ht '[' (h ▸ List.mem_cons_self ..)).1
  · cases hm : m.toList with
    | nil => exact absurd hm ht.1
    | cons c r =>
      rw [hm] at h
      have := (List.cons.inj h).1
      exact absurd this.symm (nb m ht c (by rw [hm]; simp)).1
  · exact absurd rfl (nb n hs '[' (h.symm ▸ List.mem_cons_self ..)).1
  · rw [String.toList_inj.mp h]
  · exact absurd rfl (nb n hs '[' (by rw [h]; simp)).1
  · cases hm : n.toList with
    | nil => exact absurd hm hs.1
    | cons c r =>
      rw [hm] at h
      have := (List.cons.inj h).1
      exact absurd this (nb n hs c (by rw [hm]; simp)).1
  · exact absurd rfl (nb m ht '[' (by rw [← h]; simp)).1
  · rw [String.toList_inj.mp (List.append_cancel_right h)]

theorem render_cons (s : Seg) (r : Column) (h : r ≠ []) : render (s :: r) = s.text ++ '.' :: render r := by
  cases r with
  | nil => exact absurd rfl h
  | cons t r => rfl

/-- Splitting at the first dot is unique. -/
theorem split_dot (a b x y : List Char) (ha : '.' ∉ a) (hb : '.' ∉ b) (h : a ++ '.' :: x = b ++ '.' :: y) :
    a = b ∧ x = y := by
  induction a generalizing b with
  | nil =>
    cases b with
    | nil => simpa using h
    | cons c b => simp only [List.nil_append, List.cons_append, List.cons.injEq] at h; simp [← h.1] at hb
  | cons d a ih =>
    cases b with
    | nil => simp only [List.nil_append, List.cons_append, List.cons.injEq] at h; simp [h.1] at ha
    | cons c b =>
      simp only [List.cons_append, List.cons.injEq] at h
      simp only [List.mem_cons, not_or] at ha hb
      obtain ⟨h1, h2⟩ := ih b ha.2 hb.2 h.2
      exact ⟨by rw [h.1, h1], h2⟩

/-- The strings built by the code determine the segments. -/
theorem render_injective (a b : Column) (ha : ∀ s ∈ a, s.Ok) (hb : ∀ s ∈ b, s.Ok) (h : render a = render b) :
    a = b := by
  induction a generalizing b with
  | nil =>
    rcases b with _ | ⟨t, _ | ⟨u, b⟩⟩
    · rfl
    · exact absurd h.symm (t.text_ne_nil (hb t (by simp)))
    · rw [render_cons _ _ (by simp)] at h; simp [render] at h
  | cons s a ih =>
    have hs := s.text_no_dot (ha s (by simp))
    rcases b with _ | ⟨t, b⟩
    · rcases a with _ | ⟨u, a⟩
      · exact absurd h (s.text_ne_nil (ha s (by simp)))
      · rw [render_cons _ _ (by simp)] at h; simp [render] at h
    · have ht := t.text_no_dot (hb t (by simp))
      by_cases ea : a = [] <;> by_cases eb : b = []
      · subst ea eb
        rw [Seg.text_injective s t (ha s (by simp)) (hb t (by simp)) h]
      · subst ea
        rw [render_cons _ _ eb] at h
        exact absurd (show '.' ∈ s.text by simp only [render] at h; rw [h]; simp) hs
      · subst eb
        rw [render_cons _ _ ea] at h
        exact absurd (show '.' ∈ t.text by simp only [render] at h; rw [← h]; simp) ht
      · rw [render_cons _ _ ea, render_cons _ _ eb] at h
        obtain ⟨h1, h2⟩ := split_dot _ _ _ _ hs ht h
        rw [Seg.text_injective s t (ha s (by simp)) (hb t (by simp)) h1,
          ih b (fun s hs => ha s (by simp [hs])) (fun s hs => hb s (by simp [hs])) h2]

/-- `str.removeprefix`. -/
def removePrefixChars (p k : List Char) : List Char := if p <+: k then k.drop p.length else k

theorem render_append (p r : Column) (hp : p ≠ []) (hr : r ≠ []) :
    render (p ++ r) = render p ++ '.' :: render r := by
  induction p with
  | nil => exact absurd rfl hp
  | cons s p ih =>
    by_cases e : p = []
    · subst e; simp only [List.cons_append, List.nil_append]; rw [render_cons _ _ hr]; rfl
    · rw [List.cons_append, render_cons _ _ (by simp [e]), render_cons _ _ e, ih e]; simp

theorem prefix_of_render (p k : Column) (hp : p ≠ []) (hpo : ∀ s ∈ p, s.Ok) (hko : ∀ s ∈ k, s.Ok) (x : List Char)
    (h : render k = render p ++ '.' :: x) : p <+: k ∧ p.length < k.length := by
  induction p generalizing k with
  | nil => exact absurd rfl hp
  | cons s p ih =>
    have hs := s.text_no_dot (hpo s (by simp))
    rcases k with _ | ⟨t, k⟩
    · simp [render] at h
    · have ht := t.text_no_dot (hko t (by simp))
      have hk : k ≠ [] := by
        rintro rfl
        simp only [render] at h
        exact ht (by rw [h]; simp)
      rw [render_cons _ _ hk] at h
      by_cases e : p = []
      · subst e
        obtain ⟨h1, h2⟩ := split_dot _ _ _ _ ht hs h
        rw [Seg.text_injective t s (hko t (by simp)) (hpo s (by simp)) h1]
        refine ⟨by simp, ?_⟩
        have := List.length_pos_iff.mpr hk
        simp; omega
      · rw [render_cons _ _ e, List.append_assoc, List.cons_append] at h
        obtain ⟨h1, h2⟩ := split_dot _ _ _ _ ht hs h
        obtain ⟨g1, g2⟩ := ih k e (fun s hs => hpo s (by simp [hs])) (fun s hs => hko s (by simp [hs])) h2
        rw [Seg.text_injective t s (hko t (by simp)) (hpo s (by simp)) h1]
        exact ⟨by simpa using g1, by simpa using g2⟩

/-- Removing the string `f'{p}.'` from the front of a column name is what `strip` does on segments. -/
theorem render_removePrefix (p k : Column) (hp : p ≠ []) (hpo : ∀ s ∈ p, s.Ok) (hko : ∀ s ∈ k, s.Ok) :
    removePrefixChars (render p ++ ['.']) (render k) = render (strip p k) := by
  unfold removePrefixChars strip
  by_cases h : p <+: k ∧ p.length < k.length
  · obtain ⟨⟨r, rfl⟩, hl⟩ := h
    have hr : r ≠ [] := by rintro rfl; simp at hl
    have e : render (p ++ r) = (render p ++ ['.']) ++ render r := by rw [render_append p r hp hr]; simp
    rw [e, if_pos (List.prefix_append _ _), if_pos (c := p <+: p ++ r ∧ p.length < (p ++ r).length)
      ⟨List.prefix_append _ _, hl⟩, List.drop_left, List.drop_left]
  · rw [if_neg h, if_neg]
    rintro ⟨x, hx⟩
    exact h (prefix_of_render p k hp hpo hko x (by rw [← hx]; simp))

/-! ## Violations and examples -/

/-- The classes of the docstring, component.py:43-61. -/
def docComponent : Cls String :=
  ⟨"MyComponent", .component,
    .nested "key" false "MyKey" .key (.leaf "context_name" false "string" (.leaf "object_id" false "string" .nil))
    (.nested "bar" true "Bar" .plain
      (.nested "foo" false "Foo" .plain
        (.leaf "name" false "list<string>" (.leaf "value" false "list<int32>" .nil)) .nil)
    (.nested "baz" false "Baz" .plain (.leaf "value" false "float32" .nil) .nil))⟩

/-- The documented schema of the docstring, component.py:128-135. -/
example : (schema docComponent).map (fun e => (String.ofList (render e.1), e.2)) =
    [("key.context_name", "string"), ("key.object_id", "string"),
     ("[MyComponent].bar[*].foo.name", "list<string>"), ("[MyComponent].bar[*].foo.value", "list<int32>"),
     ("[MyComponent].baz.value", "float32")] := by decide +kernel

example : Distinct docComponent.fields ∧
    (∀ q ∈ leafColumns docComponent.name docComponent.kind docComponent.fields,
      Unmistakable docComponent.name docComponent.kind docComponent.fields q) ∧
    Fits docComponent.kind docComponent.fields
      (.obj (.leaf (some 1) (.leaf (some 2) .nil)) (.none (.obj (.leaf (some 3) .nil) .nil)) : Obj Nat) := by
  refine ⟨by decide +kernel, by decide +kernel, ?_⟩
  simp [docComponent, Fits]

/-- A class with an inner leaf and a later outer leaf of the same name: `class Foo: x`, `class Bar: foo: Foo; x`. -/
def clashLeaf : Cls Unit :=
  ⟨"Bar", .plain, .nested "foo" false "Foo" .plain (.leaf "x" false () .nil) (.leaf "x" false () .nil)⟩

/-- C06 fails: the inner `x` is read back with the value of the outer `x`. -/
theorem roundTrip_clash_violated :
    Distinct clashLeaf.fields ∧
    toFlattenDict clashLeaf (.obj (.leaf (some 1) .nil) (.leaf (some 2) .nil) : Obj Nat) =
      some [([.field "foo" false, .field "x" false], some 1), ([.field "x" false], some 2)] ∧
    fromDict clashLeaf [([.field "foo" false, .field "x" false], some 1), ([.field "x" false], some 2)] =
      some (.obj (.leaf (some 2) .nil) (.leaf (some 2) .nil)) := by
  decide +kernel

/-- With the outer leaf declared first the same class does read back every object, although its columns can be
mistaken: the criterion of `roundTrip_iff` is needed to see it. -/
example : ∀ (ω : Type) (o : Obj ω),
    Fits .plain (.leaf "x" false () (.nested "foo" false "Foo" .plain (.leaf "x" false () .nil) .nil)) o →
    (toFlattenDict (⟨"Bar", .plain, .leaf "x" false ()
        (.nested "foo" false "Foo" .plain (.leaf "x" false () .nil) .nil)⟩ : Cls Unit) o).bind
      (fromDict ⟨"Bar", .plain, .leaf "x" false ()
        (.nested "foo" false "Foo" .plain (.leaf "x" false () .nil) .nil)⟩) =
      some (fill (.leaf "x" false () (.nested "foo" false "Foo" .plain (.leaf "x" false () .nil) .nil)) o) :=
  (roundTrip_iff (⟨"Bar", .plain, .leaf "x" false ()
    (.nested "foo" false "Foo" .plain (.leaf "x" false () .nil) .nil)⟩ : Cls Unit) (by decide +kernel)).mpr
    (by decide +kernel)

/-- C06 fails: `class A: b: B`, `class B: c`, `class Bar: a: A; b: int`: the nested field `a.b` is read back as the
number stored in `b`. -/
theorem roundTrip_nested_clash_violated :
    let cls : Cls Unit := ⟨"Bar", .plain, .nested "a" false "A" .plain
      (.nested "b" false "B" .plain (.leaf "c" false () .nil) .nil) (.leaf "b" false () .nil)⟩
    Distinct cls.fields ∧
    (toFlattenDict cls (.obj (.obj (.leaf (some 1) .nil) .nil) (.leaf (some 2) .nil) : Obj Nat)).bind (fromDict cls) =
      some (.obj (.leaf (some 2) .nil) (.leaf (some 2) .nil)) := by
  decide +kernel

/-- C07 fails for a component whose key is `None`: its columns are not those of the schema. -/
theorem schema_none_key_violated :
    let cls : Cls Unit := ⟨"C", .component, .nested "key" false "K" .key (.leaf "id" false () .nil) .nil⟩
    (toFlattenDict cls (.none .nil : Obj Nat)).map (·.map (·.1)) = some [[.cls "C", .field "key" false, .field "id" false]] ∧
    (schema cls).map (·.1) = [[.field "key" false, .field "id" false]] := by
  decide +kernel

end Verif.Component
