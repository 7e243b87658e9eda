import Verif.Model.Ops
import Verif.Props.Curve
import Mathlib.Data.Finset.Sort
import Mathlib.Tactic.IntervalCases
import Mathlib.Data.List.Sort

/-!
Property C116: how the metric operations read objects and frames from tensors.
-/

namespace Verif.Ops

open Verif.Breakdown Verif.Measure Verif.Detection Verif.Curve

/-! ### Specification -/

/-- The documented meaning of the columns of a box tensor (metrics_ops.cc:52-55, detection_metrics.py:96-103). -/
def columns (dof : Nat) : List (Box → Option ℚ) :=
  if dof = 4 then [Box.cx, Box.cy, Box.length, Box.width]
  else if dof = 5 then [Box.cx, Box.cy, Box.length, Box.width, Box.heading]
  else if dof = 7 then [Box.cx, Box.cy, Box.cz, Box.length, Box.width, Box.height, Box.heading]
  else []

/-- The number of fields of a box that are set. -/
def Box.numSet (b : Box) : Nat :=
  ([b.cx, b.cy, b.cz, b.length, b.width, b.height, b.heading].filterMap id).length

/-- The shapes of the tensors agree. -/
structure Consistent (t : Tensors) : Prop where
  dof : t.dof = 4 ∨ t.dof = 5 ∨ t.dof = 7
  rows : ∀ r ∈ t.bbox, r.length = t.dof
  type : t.type.length = t.bbox.length
  frame : t.frame.length = t.bbox.length
  score : ∀ l, t.score = some l → l.length = t.bbox.length
  nlz : ∀ l, t.nlz = some l → l.length = t.bbox.length
  detLevel : ∀ l, t.detLevel = some l → l.length = t.bbox.length
  trkLevel : ∀ l, t.trkLevel = some l → l.length = t.bbox.length
  speed : ∀ l, t.speed = some l → l.length = t.bbox.length

/-- Row `i` of the tensors is object `o` of frame `id`. -/
structure IsRow (t : Tensors) (i : Nat) (id : ℤ) (o : Obj) : Prop where
  frame : t.frame[i]? = some id
  type : t.type[i]? = some o.type
  box : ∃ r, t.bbox[i]? = some r ∧ (columns t.dof).map (fun f => f o.box) = r.map some ∧ o.box.numSet = t.dof
  score : o.score = t.score.bind (·[i]?)
  nlz : o.nlz = t.nlz.bind (·[i]?)
  detLevel : o.detLevel = t.detLevel.bind (·[i]?)
  trkLevel : o.trkLevel = t.trkLevel.bind (·[i]?)
  speed : o.speed = t.speed.bind (·[i]?)
  id : o.id = none

/-- The objects of a frame, in the order of the rows. -/
def rowsFor {κ α : Type} [DecidableEq κ] (rs : List (κ × α)) (k : κ) : List α := (rs.filter fun r => decide (r.1 = k)).map Prod.snd

/-- The ids that occur, in ascending order. -/
def idList {κ α : Type} [LinearOrder κ] (a b : List (κ × α)) : List κ :=
  ((a.map Prod.fst ++ b.map Prod.fst).toFinset).sort (· ≤ ·)

/-- The frames of two lists of rows: one for each id that occurs, in ascending order. -/
def framesOf (a b : List (ℤ × Obj)) : List (List Obj × List Obj) := (idList a b).map fun k => (rowsFor a k, rowsFor b k)

/-- One frame without objects if there is none. -/
def orEmpty (fs : List (List Obj × List Obj)) : List (List Obj × List Obj) := if fs = [] then [([], [])] else fs

/-- The rows of the tensors are exactly `rs`. -/
def RowsAre (t : Tensors) (rs : List (ℤ × Obj)) : Prop :=
  rs.length = t.bbox.length ∧ ∀ i r, rs[i]? = some r → IsRow t i r.1 r.2

/-! ### Rows -/

theorem boxByDimension_ok {dof : Nat} {r : List ℚ} (hd : dof = 4 ∨ dof = 5 ∨ dof = 7) (hr : r.length = dof) :
    ∃ b, boxByDimension dof r = some b ∧ (columns dof).map (fun f => f b) = r.map some ∧ b.numSet = dof := by
  rcases hd with rfl | rfl | rfl
  · match r, hr with
    | [a, b, c, d], _ => exact ⟨_, rfl, rfl, rfl⟩
  · match r, hr with
    | [a, b, c, d, e], _ => exact ⟨_, rfl, rfl, rfl⟩
  · match r, hr with
    | [a, b, c, d, e, f, g], _ => exact ⟨_, rfl, rfl, rfl⟩

/-- C116: a box of another number of columns than 4, 5 or 7 is refused. -/
theorem boxByDimension_refuses {dof : Nat} (r : List ℚ) (h4 : dof ≠ 4) (h5 : dof ≠ 5) (h7 : dof ≠ 7) :
    boxByDimension dof r = none := by simp [boxByDimension, h4, h5, h7]

theorem field_ok {α : Type} {n i : Nat} (t : Option (List α)) (h : ∀ l, t = some l → l.length = n) (hi : i < n) :
    field i t = some (t.bind (·[i]?)) := by
  cases t with
  | none => rfl
  | some l =>
    have := h l rfl
    simp [field, List.getElem?_eq_getElem (show i < l.length by omega)]

theorem rowObj_ok {t : Tensors} (h : Consistent t) {i : Nat} (hi : i < t.bbox.length) :
    ∃ o id, rowObj t i = some o ∧ t.frame[i]? = some id ∧ IsRow t i id o := by
  have ht : t.type[i]? = some (t.type[i]'(by rw [h.type]; exact hi)) := List.getElem?_eq_getElem _
  have hf : t.frame[i]? = some (t.frame[i]'(by rw [h.frame]; exact hi)) := List.getElem?_eq_getElem _
  have hb : t.bbox[i]? = some t.bbox[i] := List.getElem?_eq_getElem hi
  obtain ⟨b, b1, b2, b3⟩ := boxByDimension_ok h.dof (h.rows _ (List.getElem_mem hi))
  refine ⟨⟨t.type[i]'(by rw [h.type]; exact hi), b, t.score.bind (·[i]?), t.nlz.bind (·[i]?), t.detLevel.bind (·[i]?),
    t.trkLevel.bind (·[i]?), t.speed.bind (·[i]?), none⟩, _, ?_, hf, ?_⟩
  · unfold rowObj
    simp only [ht, hb, b1, field_ok _ h.score hi, field_ok _ h.nlz hi, field_ok _ h.detLevel hi,
      field_ok _ h.trkLevel hi, field_ok _ h.speed hi, Option.bind_eq_bind, Option.bind_some]
    rfl
  · exact ⟨hf, ht, ⟨_, hb, b2, b3⟩, rfl, rfl, rfl, rfl, rfl, rfl⟩

/-! ### Grouping -/

section Group
variable {κ α : Type} [DecidableEq κ]

theorem push_keys (m : List (κ × List α)) (k : κ) (v : α) :
    (push m k v).map Prod.fst = if k ∈ m.map Prod.fst then m.map Prod.fst else m.map Prod.fst ++ [k] := by
  induction m with
  | nil => simp [push]
  | cons e m ih =>
    obtain ⟨k', l⟩ := e
    unfold push
    by_cases h : k' = k
    · simp [h]
    · rw [if_neg h, List.map_cons, ih]
      have h' : ¬k = k' := fun e => h e.symm
      by_cases hm : k ∈ m.map Prod.fst
      · simp only [hm, if_true, List.map_cons, List.mem_cons, or_true]
      · simp only [hm, if_false, List.map_cons, List.mem_cons, h', or_self, List.cons_append]

theorem push_lookup (m : List (κ × List α)) (k : κ) (v : α) (j : κ) :
    lookup (push m k v) j = if j = k then lookup m j ++ [v] else lookup m j := by
  induction m with
  | nil =>
    simp only [push, lookup]
    by_cases h : j = k
    · subst h; simp
    · rw [if_neg h, if_neg (fun e => h e.symm)]
  | cons e m ih =>
    obtain ⟨k', l⟩ := e
    unfold push
    by_cases h : k' = k
    · subst h
      rw [if_pos rfl]
      by_cases hj : j = k'
      · subst hj; simp [lookup]
      · simp [lookup, hj, Ne.symm hj]
    · rw [if_neg h]
      simp only [lookup]
      by_cases hj : k' = j
      · subst hj; simp [h]
      · rw [if_neg hj, ih]; simp [hj]

/-- Grouping rows by a key: the map has each key once, and its value is the list of the objects with that key in the
order of the rows. -/
theorem group_spec (rs : List (κ × α)) : ∀ m : List (κ × List α), (m.map Prod.fst).Nodup →
    ((rs.foldl (fun m r => push m r.1 r.2) m).map Prod.fst).Nodup ∧
    (∀ j, j ∈ (rs.foldl (fun m r => push m r.1 r.2) m).map Prod.fst ↔ j ∈ m.map Prod.fst ∨ j ∈ rs.map Prod.fst) ∧
    ∀ j, lookup (rs.foldl (fun m r => push m r.1 r.2) m) j = lookup m j ++ rowsFor rs j := by
  induction rs with
  | nil => intro m hm; simp [hm, rowsFor]
  | cons r rs ih =>
    intro m hm
    have hn : ((push m r.1 r.2).map Prod.fst).Nodup := by
      rw [push_keys]
      split_ifs with h
      · exact hm
      · rw [List.nodup_append]
        exact ⟨hm, by simp, by rintro a ha b hb rfl; simp at hb; exact h (hb ▸ ha)⟩
    obtain ⟨h1, h2, h3⟩ := ih _ hn
    rw [List.foldl_cons]
    refine ⟨h1, ?_, ?_⟩
    · intro j
      rw [h2, push_keys]
      split_ifs with h
      · rw [List.map_cons, List.mem_cons]
        constructor
        · rintro (h' | h')
          · exact Or.inl h'
          · exact Or.inr (Or.inr h')
        · rintro (h' | rfl | h')
          · exact Or.inl h'
          · exact Or.inl h
          · exact Or.inr h'
      · rw [List.map_cons, List.mem_cons, List.mem_append, List.mem_singleton, or_assoc]
    · intro j
      rw [h3, push_lookup]
      unfold rowsFor
      rw [List.filter_cons]
      by_cases hj : j = r.1
      · subst hj; simp
      · simp [hj, Ne.symm hj]

end Group

/-- A loop over rows that can all be read is a fold over the rows. -/
theorem foldlM_rows {t : Tensors} (n : Nat) (rs : List (ℤ × Obj)) (hl : rs.length = n)
    (h : ∀ i r, rs[i]? = some r → rowObj t i = some r.2 ∧ t.frame[i]? = some r.1) (m : List (ℤ × List Obj)) :
    (List.range n).foldlM (fun m i => do
      let o ← rowObj t i
      let id ← t.frame[i]?
      pure (push m id o)) m = some (rs.foldl (fun m r => push m r.1 r.2) m) := by
  subst hl
  induction rs using List.reverseRecOn with
  | nil => rfl
  | append_singleton rs r ih =>
    rw [List.length_append, List.length_singleton, List.range_succ, List.foldlM_append]
    have := ih fun i r' hr' => h i r' (by
      have hi := (List.getElem?_eq_some_iff.mp hr').1
      rw [List.getElem?_append_left hi]; exact hr')
    rw [this]
    obtain ⟨h1, h2⟩ := h rs.length r (by simp)
    simp only [Option.bind_eq_bind, Option.bind_some, List.foldlM_cons, List.foldlM_nil, h1, h2, List.foldl_append,
      List.foldl_cons, List.foldl_nil]
    rfl

/-- C116: consistent tensors are read without a failing check, row by row, and grouped by frame; each frame has
exactly its rows, in their order. -/
theorem parse_spec {t : Tensors} (h : Consistent t) :
    ∃ rs m, RowsAre t rs ∧ parseObjects t = some m ∧ (m.map Prod.fst).Nodup ∧
      (∀ id, id ∈ m.map Prod.fst ↔ id ∈ rs.map Prod.fst) ∧ ∀ id, lookup m id = rowsFor rs id := by
  obtain ⟨rs, r1, r2⟩ : ∃ rs : List (ℤ × Obj), rs.length = t.bbox.length ∧
      ∀ i r, rs[i]? = some r → IsRow t i r.1 r.2 ∧ rowObj t i = some r.2 := by
    obtain ⟨rs, h1, h2⟩ := mapM_exists (fun i => (rowObj t i).bind fun o => (t.frame[i]?).map fun id => (id, o))
      (fun i r => IsRow t i r.1 r.2 ∧ rowObj t i = some r.2) (List.range t.bbox.length) (by
        intro i hi
        obtain ⟨o, id, o1, o2, o3⟩ := rowObj_ok h (List.mem_range.mp hi)
        exact ⟨(id, o), by simp [o1, o2], o3, o1⟩)
    refine ⟨rs, by rw [← h2.length_eq]; simp, ?_⟩
    intro i r hr
    obtain ⟨hi, e⟩ := List.getElem?_eq_some_iff.mp hr
    have := h2.get (i := i) (by rw [h2.length_eq]; exact hi) hi
    rw [List.get_eq_getElem, List.get_eq_getElem, e, List.getElem_range] at this
    exact this
  have hs : ∀ {β : Type} (x : Option (List β)), (∀ l, x = some l → l.length = t.bbox.length) → sizeOk t.bbox.length x = true := by
    intro β x hx
    cases x with
    | none => rfl
    | some l => simp [sizeOk, hx l rfl]
  have hp : parseObjects t = some (rs.foldl (fun m r => push m r.1 r.2) []) := by
    unfold parseObjects
    simp only [h.type, h.frame, hs _ h.score, hs _ h.nlz, hs _ h.detLevel, hs _ h.trkLevel, hs _ h.speed, ne_eq,
      not_true_eq_false, if_false, Bool.and_true, Bool.true_and, Option.bind_eq_bind]
    exact foldlM_rows _ rs r1 (fun i r hr => ⟨(r2 i r hr).2, (r2 i r hr).1.frame⟩) []
  obtain ⟨g1, g2, g3⟩ := group_spec rs [] List.nodup_nil
  refine ⟨rs, _, ⟨r1, fun i r hr => (r2 i r hr).1⟩, hp, g1, ?_, ?_⟩
  · intro id; rw [g2]; simp
  · intro id; rw [g3]; simp [lookup]

/-- C116: tensors with different numbers of rows are refused. -/
theorem parse_refuses (t : Tensors) (h : t.type.length ≠ t.bbox.length ∨ t.frame.length ≠ t.bbox.length ∨
    (∃ l, t.score = some l ∧ l.length ≠ t.bbox.length) ∨ (∃ l, t.nlz = some l ∧ l.length ≠ t.bbox.length) ∨
    (∃ l, t.detLevel = some l ∧ l.length ≠ t.bbox.length) ∨ (∃ l, t.trkLevel = some l ∧ l.length ≠ t.bbox.length) ∨
    (∃ l, t.speed = some l ∧ l.length ≠ t.bbox.length)) : parseObjects t = none := by
  unfold parseObjects
  have hs : ∀ {β : Type} (x : Option (List β)), (∃ l, x = some l ∧ l.length ≠ t.bbox.length) → sizeOk t.bbox.length x = false := by
    rintro β x ⟨l, rfl, hl⟩
    simp [sizeOk, hl]
  by_cases h1 : t.type.length = t.bbox.length
  swap
  · simp [h1]
  by_cases h2 : t.frame.length = t.bbox.length
  swap
  · simp [h1, h2]
  rcases h with h | h | h | h | h | h | h
  · exact absurd h1 h
  · exact absurd h2 h
  all_goals simp [h1, h2, hs _ h]

theorem filterMap_id_length {α : Type} (l : List (Option α)) : (l.filterMap id).length = (l.filter Option.isSome).length := by
  induction l with
  | nil => rfl
  | cons a l ih => cases a <;> simp_all

/-- A box is determined by the columns and the number of fields that are set. -/
theorem box_unique {dof : Nat} (hd : dof = 4 ∨ dof = 5 ∨ dof = 7) {r : List ℚ} {a b : Box} (hr : r.length = dof)
    (ha : (columns dof).map (fun f => f a) = r.map some) (hb : (columns dof).map (fun f => f b) = r.map some)
    (na : a.numSet = dof) (nb : b.numSet = dof) : a = b := by
  obtain ⟨a1, a2, a3, a4, a5, a6, a7⟩ := a
  obtain ⟨b1, b2, b3, b4, b5, b6, b7⟩ := b
  rcases hd with rfl | rfl | rfl
  · match r, hr with
    | [x, y, z, w], _ =>
      simp only [columns, if_true, List.map_cons, List.map_nil, List.cons.injEq, and_true] at ha hb
      obtain ⟨rfl, rfl, rfl, rfl⟩ := ha
      obtain ⟨rfl, rfl, rfl, rfl⟩ := hb
      cases a3 <;> cases a6 <;> cases a7 <;> simp [Box.numSet] at na
      cases b3 <;> cases b6 <;> cases b7 <;> simp [Box.numSet] at nb
      rfl
  · match r, hr with
    | [x, y, z, w, v], _ =>
      simp [columns] at ha hb
      obtain ⟨rfl, rfl, rfl, rfl, rfl⟩ := ha
      obtain ⟨rfl, rfl, rfl, rfl, rfl⟩ := hb
      cases a3 <;> cases a6 <;> simp [Box.numSet] at na
      cases b3 <;> cases b6 <;> simp [Box.numSet] at nb
      rfl
  · match r, hr with
    | [x, y, z, w, v, u, s], _ =>
      simp [columns] at ha hb
      obtain ⟨rfl, rfl, rfl, rfl, rfl, rfl, rfl⟩ := ha
      obtain ⟨rfl, rfl, rfl, rfl, rfl, rfl, rfl⟩ := hb
      rfl

theorem IsRow.unique {t : Tensors} (hc : Consistent t) {i : Nat} {x y : ℤ × Obj} (p : IsRow t i x.1 x.2) (q : IsRow t i y.1 y.2) :
    x = y := by
  obtain ⟨xi, xt, xb, xs, xn, xd, xk, xv, xo⟩ := x
  obtain ⟨yi, yt, yb, ys, yn, yd, yk, yv, yo⟩ := y
  have e1 : xi = yi := by have := p.frame.symm.trans q.frame; simpa using this
  have e2 : xt = yt := by have := p.type.symm.trans q.type; simpa using this
  have e3 : xb = yb := by
    obtain ⟨r, r1, r2, r3⟩ := p.box
    obtain ⟨r', r1', r2', r3'⟩ := q.box
    rw [r1] at r1'
    cases r1'
    exact box_unique hc.dof (hc.rows r (List.mem_of_getElem? r1)) r2 r2' r3 r3'
  have e4 : xs = ys := p.score.trans q.score.symm
  have e5 : xn = yn := p.nlz.trans q.nlz.symm
  have e6 : xd = yd := p.detLevel.trans q.detLevel.symm
  have e7 : xk = yk := p.trkLevel.trans q.trkLevel.symm
  have e8 : xv = yv := p.speed.trans q.speed.symm
  have e9 : xo = yo := p.id.trans q.id.symm
  rw [e1, e2, e3, e4, e5, e6, e7, e8, e9]

/-- The rows are determined by the tensors. -/
theorem RowsAre.unique {t : Tensors} {a b : List (ℤ × Obj)} (ha : RowsAre t a) (hb : RowsAre t b) (hc : Consistent t) : a = b := by
  apply List.ext_getElem (ha.1.trans hb.1.symm)
  intro i h1 h2
  exact IsRow.unique hc (ha.2 i _ (List.getElem?_eq_getElem h1)) (hb.2 i _ (List.getElem?_eq_getElem h2))

/-! ### Frames -/

theorem insert_mem {κ : Type} [LinearOrder κ] (i : κ) : ∀ (l : List κ) (j : κ), j ∈ setInsert i l ↔ j = i ∨ j ∈ l := by
  intro l
  induction l with
  | nil => intro j; simp [setInsert]
  | cons k l ih =>
    intro j
    unfold setInsert
    split_ifs with h1 h2
    · simp
    · subst h2; simp
    · simp only [List.mem_cons, ih]; tauto

theorem insert_sorted {κ : Type} [LinearOrder κ] (i : κ) : ∀ (l : List κ), l.Pairwise (· < ·) → (setInsert i l).Pairwise (· < ·) := by
  intro l
  induction l with
  | nil => intro _; simp [setInsert]
  | cons k l ih =>
    intro h
    have hk := List.pairwise_cons.mp h
    unfold setInsert
    split_ifs with h1 h2
    · exact List.pairwise_cons.mpr ⟨fun b hb => by
        rcases List.mem_cons.mp hb with rfl | hb
        · exact h1
        · exact h1.trans (hk.1 b hb), h⟩
    · exact h
    · refine List.pairwise_cons.mpr ⟨fun b hb => ?_, ih hk.2⟩
      rcases (insert_mem i l b).mp hb with rfl | hb
      · exact lt_of_le_of_ne (not_lt.mp h1) (fun e => h2 e.symm)
      · exact hk.1 b hb

theorem foldl_insert {κ : Type} [LinearOrder κ] (l : List κ) : ∀ s : List κ, s.Pairwise (· < ·) →
    (l.foldl (fun s k => setInsert k s) s).Pairwise (· < ·) ∧
    ∀ j, j ∈ l.foldl (fun s k => setInsert k s) s ↔ j ∈ s ∨ j ∈ l := by
  induction l with
  | nil => intro s h; simp [h]
  | cons a l ih =>
    intro s h
    obtain ⟨h1, h2⟩ := ih _ (insert_sorted a s h)
    refine ⟨h1, fun j => ?_⟩
    rw [List.foldl_cons, h2, insert_mem, List.mem_cons]
    tauto

theorem sorted_unique {κ : Type} [LinearOrder κ] {a b : List κ} (ha : a.Pairwise (· < ·)) (hb : b.Pairwise (· < ·))
    (h : ∀ x, x ∈ a ↔ x ∈ b) : a = b := by
  apply List.Perm.eq_of_pairwise (le := (· ≤ ·))
  · intro x y _ _ h1 h2; exact le_antisymm h1 h2
  · exact ha.imp le_of_lt
  · exact hb.imp le_of_lt
  · exact (List.perm_ext_iff_of_nodup (ha.imp ne_of_lt) (hb.imp ne_of_lt)).mpr h

theorem idList_sorted {κ α : Type} [LinearOrder κ] (a b : List (κ × α)) : (idList a b).Pairwise (· < ·) := by
  exact Finset.sortedLT_sort _ |>.pairwise

theorem mem_idList {κ α : Type} [LinearOrder κ] (a b : List (κ × α)) (k : κ) :
    k ∈ idList a b ↔ k ∈ a.map Prod.fst ∨ k ∈ b.map Prod.fst := by
  unfold idList
  rw [Finset.mem_sort, List.mem_toFinset, List.mem_append]

theorem idsOf_eq {κ α β : Type} [LinearOrder κ] {p q : List (κ × List α)} {a b : List (κ × β)}
    (hp : ∀ k, k ∈ p.map Prod.fst ↔ k ∈ a.map Prod.fst) (hq : ∀ k, k ∈ q.map Prod.fst ↔ k ∈ b.map Prod.fst) :
    idsOf p q = idList a b := by
  obtain ⟨h1, h2⟩ := foldl_insert (p.map Prod.fst ++ q.map Prod.fst) [] List.Pairwise.nil
  apply sorted_unique h1 (idList_sorted a b)
  intro k
  rw [mem_idList, ← hp, ← hq, h2, List.mem_append]
  simp

theorem alignFrames_eq {p q : List (ℤ × List Obj)} {a b : List (ℤ × Obj)}
    (hp : ∀ k, k ∈ p.map Prod.fst ↔ k ∈ a.map Prod.fst) (hq : ∀ k, k ∈ q.map Prod.fst ↔ k ∈ b.map Prod.fst)
    (lp : ∀ k, lookup p k = rowsFor a k) (lq : ∀ k, lookup q k = rowsFor b k) :
    alignFrames p q = orEmpty (framesOf a b) := by
  unfold alignFrames orEmpty framesOf
  simp only [idsOf_eq hp hq, lp, lq, List.isEmpty_iff]

/-- C116: the frames that are evaluated are, for every frame id of a prediction or a ground truth in ascending order,
the predictions and the ground truths with that id in the order of their rows; a call without rows evaluates one frame
without objects. -/
theorem frames_spec {pd : PdTensors} {gt : GtTensors} {a b : List (ℤ × Obj)} (hp : Consistent pd.args) (hg : Consistent gt.args)
    (ha : RowsAre pd.args a) (hb : RowsAre gt.args b) : opFrames pd gt = some (orEmpty (framesOf a b)) := by
  obtain ⟨a', m, r1, m1, -, m2, m3⟩ := parse_spec hp
  obtain ⟨b', n, s1, n1, -, n2, n3⟩ := parse_spec hg
  obtain rfl := r1.unique ha hp
  obtain rfl := s1.unique hb hg
  unfold opFrames
  rw [m1, n1]
  simp only [Option.bind_eq_bind, Option.bind_some]
  rw [alignFrames_eq m2 n2 m3 n3]
  rfl

/-- C116: every row is in exactly one frame. -/
theorem frames_count (a b : List (ℤ × Obj)) :
    ((framesOf a b).map fun f => f.1.length).sum = a.length ∧ ((framesOf a b).map fun f => f.2.length).sum = b.length := by
  have key : ∀ (ids : List ℤ) (rs : List (ℤ × Obj)), ids.Nodup → (∀ r ∈ rs, r.1 ∈ ids) →
      (ids.map fun k => (rowsFor rs k).length).sum = rs.length := by
    intro ids rs hn hm
    induction rs with
    | nil => simp [rowsFor]
    | cons r rs ih =>
      have h1 : ∀ k, (rowsFor (r :: rs) k).length = (if r.1 = k then 1 else 0) + (rowsFor rs k).length := by
        intro k
        unfold rowsFor
        rw [List.filter_cons]
        by_cases hk : r.1 = k
        · simp [hk]; omega
        · simp [hk]
      rw [List.map_congr_left (fun k _ => h1 k), List.sum_map_add, ih fun x hx => hm x (List.mem_cons_of_mem _ hx)]
      have h2 : (ids.map fun k => if r.1 = k then 1 else 0).sum = 1 := by
        have : (ids.map fun k => if r.1 = k then 1 else 0).sum = ids.count r.1 := by
          clear hn hm ih h1
          induction ids with
          | nil => rfl
          | cons x l ih =>
            rw [List.map_cons, List.sum_cons, ih, List.count_cons]
            by_cases hx : r.1 = x
            · subst hx; simp; omega
            · simp [hx, Ne.symm hx]
        rw [this, List.count_eq_one_of_mem hn (hm r List.mem_cons_self)]
      rw [h2, List.length_cons]; omega
  have hn : (idList a b).Nodup := (idList_sorted a b).imp ne_of_lt
  unfold framesOf
  rw [List.map_map, List.map_map]
  exact ⟨key _ a hn fun r hr => (mem_idList a b _).mpr (Or.inl (List.mem_map_of_mem hr)),
    key _ b hn fun r hr => (mem_idList a b _).mpr (Or.inr (List.mem_map_of_mem hr))⟩

end Verif.Ops
