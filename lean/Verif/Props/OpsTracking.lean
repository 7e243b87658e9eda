import Verif.Model.OpsTracking
import Verif.Props.OpsState
import Verif.Props.TrackingScene

/-!
Properties C122 and C123: how the tracking operation reads sequences from tensors, and what it returns.
-/

namespace Verif.OpsTracking

open Verif.Ops Verif.Detection Verif.Curve

variable {κ : Type} [LinearOrder κ] {O : Type}

/-! ### Specification -/

/-- The shapes of the tensors agree. -/
structure SeqConsistent (t : SeqTensors κ) : Prop where
  base : Consistent t.base
  sequence : t.sequence.length = t.base.bbox.length
  object : t.object.length = t.base.bbox.length

/-- Row `i` of the tensors is object `o` of frame `f` of sequence `s`. -/
structure IsSeqRow (t : SeqTensors κ) (i : Nat) (s : κ) (f : ℤ) (o : Obj) : Prop where
  sequence : t.sequence[i]? = some s
  object : t.object[i]? = o.id
  id : o.id ≠ none
  row : IsRow t.base i f { o with id := none }

/-- The rows of the tensors are exactly `rs`. -/
def SeqRowsAre (t : SeqTensors κ) (rs : List (κ × ℤ × Obj)) : Prop :=
  rs.length = t.base.bbox.length ∧ ∀ i r, rs[i]? = some r → IsSeqRow t i r.1 r.2.1 r.2.2

/-- The sequences of two lists of rows: one for each id that occurs, in ascending order, each with its frames in
ascending order. -/
def sequencesOf (a b : List (κ × ℤ × Obj)) : List (List (List Obj × List Obj)) :=
  (idList a b).map fun s => framesOf (rowsFor a s) (rowsFor b s)

/-! ### Grouping by sequence and frame -/

section Group
variable {μ α : Type} [DecidableEq μ]

theorem pushIn_keys (m : List (κ × List (μ × List α))) (k : κ) (f : μ) (v : α) :
    (pushIn m k f v).map Prod.fst = if k ∈ m.map Prod.fst then m.map Prod.fst else m.map Prod.fst ++ [k] := by
  induction m with
  | nil => simp [pushIn]
  | cons e m ih =>
    obtain ⟨k', l⟩ := e
    unfold pushIn
    by_cases h : k' = k
    · simp [h]
    · rw [if_neg h, List.map_cons, ih]
      have h' : ¬k = k' := fun e => h e.symm
      by_cases hm : k ∈ m.map Prod.fst
      · simp only [hm, if_true, List.map_cons, List.mem_cons, or_true]
      · simp only [hm, if_false, List.map_cons, List.mem_cons, h', or_self, List.cons_append]

theorem pushIn_lookup (m : List (κ × List (μ × List α))) (k : κ) (f : μ) (v : α) (j : κ) :
    lookup (pushIn m k f v) j = if j = k then push (lookup m j) f v else lookup m j := by
  induction m with
  | nil =>
    simp only [pushIn, lookup]
    by_cases h : j = k
    · subst h; simp
    · rw [if_neg h, if_neg (fun e => h e.symm)]
  | cons e m ih =>
    obtain ⟨k', l⟩ := e
    unfold pushIn
    by_cases h : k' = k
    · subst h
      rw [if_pos rfl]
      by_cases hj : j = k'
      · subst hj; simp [lookup]
      · simp [lookup, hj, Ne.symm hj]
    · rw [if_neg h]
      simp only [lookup]
      by_cases hj : k' = j
      · subst hj; simp [h]
      · rw [if_neg hj, ih]; simp [hj]

/-- Grouping rows by two keys. -/
theorem group2_spec (rs : List (κ × μ × α)) : ∀ m : List (κ × List (μ × List α)),
    (∀ j, j ∈ (rs.foldl (fun m r => pushIn m r.1 r.2.1 r.2.2) m).map Prod.fst ↔ j ∈ m.map Prod.fst ∨ j ∈ rs.map Prod.fst) ∧
    ∀ j, lookup (rs.foldl (fun m r => pushIn m r.1 r.2.1 r.2.2) m) j =
      (rowsFor rs j).foldl (fun m r => push m r.1 r.2) (lookup m j) := by
  induction rs with
  | nil => intro m; simp [rowsFor]
  | cons r rs ih =>
    intro m
    obtain ⟨h2, h3⟩ := ih (pushIn m r.1 r.2.1 r.2.2)
    rw [List.foldl_cons]
    refine ⟨?_, ?_⟩
    · intro j
      rw [h2, pushIn_keys]
      split_ifs with h
      · rw [List.map_cons, List.mem_cons]
        constructor
        · rintro (h' | h')
          · exact Or.inl h'
          · exact Or.inr (Or.inr h')
        · rintro (h' | rfl | h')
          · exact Or.inl h'
          · exact Or.inl h
          · exact Or.inr h'
      · rw [List.map_cons, List.mem_cons, List.mem_append, List.mem_singleton, or_assoc]
    · intro j
      rw [h3, pushIn_lookup]
      unfold rowsFor
      rw [List.filter_cons]
      by_cases hj : j = r.1
      · subst hj; simp
      · simp [hj, Ne.symm hj]

end Group

theorem seqRow_ok {t : SeqTensors κ} (h : SeqConsistent t) {i : Nat} (hi : i < t.base.bbox.length) :
    ∃ s f o, seqRow t i = some (s, f, o) ∧ IsSeqRow t i s f o := by
  obtain ⟨o, f, o1, o2, o3⟩ := rowObj_ok h.base hi
  have hs : t.sequence[i]? = some (t.sequence[i]'(by rw [h.sequence]; exact hi)) := List.getElem?_eq_getElem _
  have ho : t.object[i]? = some (t.object[i]'(by rw [h.object]; exact hi)) := List.getElem?_eq_getElem _
  refine ⟨_, f, { o with id := some (t.object[i]'(by rw [h.object]; exact hi)) }, ?_, hs, ho, by simp, ?_⟩
  · unfold seqRow
    simp only [o1, o2, hs, ho, Option.bind_eq_bind, Option.bind_some]
    rfl
  · have := o3.id
    obtain ⟨a, b, c, d, e, g, k, l⟩ := o
    simp only at this
    subst this
    exact o3

/-- C122: tensors of consistent shapes are read without a failing check, row by row, and grouped by sequence and frame. -/
theorem sequences_parse {t : SeqTensors κ} (h : SeqConsistent t) :
    ∃ rs m, SeqRowsAre t rs ∧ parseSequences t = some m ∧
      (∀ s, s ∈ m.map Prod.fst ↔ s ∈ rs.map Prod.fst) ∧
      (∀ s f, f ∈ (lookup m s).map Prod.fst ↔ f ∈ (rowsFor rs s).map Prod.fst) ∧
      ∀ s f, lookup (lookup m s) f = rowsFor (rowsFor rs s) f := by
  obtain ⟨rs, r1, r2⟩ : ∃ rs : List (κ × ℤ × Obj), rs.length = t.base.bbox.length ∧
      ∀ i r, rs[i]? = some r → IsSeqRow t i r.1 r.2.1 r.2.2 ∧ seqRow t i = some r := by
    obtain ⟨rs, h1, h2⟩ := mapM_exists (seqRow t) (fun i r => IsSeqRow t i r.1 r.2.1 r.2.2 ∧ seqRow t i = some r)
      (List.range t.base.bbox.length) (by
        intro i hi
        obtain ⟨s, f, o, o1, o2⟩ := seqRow_ok h (List.mem_range.mp hi)
        exact ⟨_, o1, o2, o1⟩)
    refine ⟨rs, by rw [← h2.length_eq]; simp, ?_⟩
    intro i r hr
    obtain ⟨hi, e⟩ := List.getElem?_eq_some_iff.mp hr
    have := h2.get (i := i) (by rw [h2.length_eq]; exact hi) hi
    rw [List.get_eq_getElem, List.get_eq_getElem, e, List.getElem_range] at this
    exact this
  have hs : ∀ {β : Type} (x : Option (List β)), (∀ l, x = some l → l.length = t.base.bbox.length) →
      sizeOk t.base.bbox.length x = true := by
    intro β x hx
    cases x with
    | none => rfl
    | some l => simp [sizeOk, hx l rfl]
  have hfold : ∀ (rs : List (κ × ℤ × Obj)) (n : Nat), rs.length = n → (∀ i r, rs[i]? = some r → seqRow t i = some r) →
      (List.range n).foldlM (fun m i => do
        let r ← seqRow t i
        pure (pushIn m r.1 r.2.1 r.2.2)) [] = some (rs.foldl (fun m r => pushIn m r.1 r.2.1 r.2.2) []) := by
    intro rs n hl hr
    subst hl
    induction rs using List.reverseRecOn with
    | nil => rfl
    | append_singleton rs r ih =>
      rw [List.length_append, List.length_singleton, List.range_succ, List.foldlM_append]
      rw [ih fun i r' hr' => hr i r' (by
        have hi := (List.getElem?_eq_some_iff.mp hr').1
        rw [List.getElem?_append_left hi]; exact hr')]
      have h1 := hr rs.length r (by simp)
      simp only [Option.bind_eq_bind, Option.bind_some, List.foldlM_cons, List.foldlM_nil, h1, List.foldl_append,
        List.foldl_cons, List.foldl_nil]
      rfl
  have hp : parseSequences t = some (rs.foldl (fun m r => pushIn m r.1 r.2.1 r.2.2) []) := by
    unfold parseSequences
    simp only [h.base.type, h.base.frame, h.sequence, h.object, hs _ h.base.score, hs _ h.base.nlz, hs _ h.base.detLevel,
      hs _ h.base.trkLevel, hs _ h.base.speed, ne_eq, not_true_eq_false, if_false, Bool.and_true, Bool.true_and,
      Option.bind_eq_bind]
    exact hfold rs _ r1 fun i r hr => (r2 i r hr).2
  obtain ⟨g2, g3⟩ := group2_spec rs []
  refine ⟨rs, _, ⟨r1, fun i r hr => (r2 i r hr).1⟩, hp, ?_, ?_, ?_⟩
  · intro s; rw [g2]; simp
  · intro s f
    obtain ⟨-, k2, -⟩ := group_spec (rowsFor rs s) [] List.nodup_nil
    rw [g3, show lookup ([] : List (κ × List (ℤ × List Obj))) s = [] from rfl, k2]; simp
  · intro s f
    obtain ⟨-, -, k3⟩ := group_spec (rowsFor rs s) [] List.nodup_nil
    rw [g3, show lookup ([] : List (κ × List (ℤ × List Obj))) s = [] from rfl, k3]; simp [lookup]

/-- C122: tensors with different numbers of rows are refused. -/
theorem sequences_refuse (t : SeqTensors κ) (h : t.base.type.length ≠ t.base.bbox.length ∨
    t.base.frame.length ≠ t.base.bbox.length ∨ t.sequence.length ≠ t.base.bbox.length ∨
    t.object.length ≠ t.base.bbox.length ∨
    (∃ l, t.base.score = some l ∧ l.length ≠ t.base.bbox.length) ∨ (∃ l, t.base.nlz = some l ∧ l.length ≠ t.base.bbox.length) ∨
    (∃ l, t.base.detLevel = some l ∧ l.length ≠ t.base.bbox.length) ∨
    (∃ l, t.base.trkLevel = some l ∧ l.length ≠ t.base.bbox.length) ∨
    (∃ l, t.base.speed = some l ∧ l.length ≠ t.base.bbox.length)) : parseSequences t = none := by
  unfold parseSequences
  have hs : ∀ {β : Type} (x : Option (List β)), (∃ l, x = some l ∧ l.length ≠ t.base.bbox.length) →
      sizeOk t.base.bbox.length x = false := by
    rintro β x ⟨l, rfl, hl⟩
    simp [sizeOk, hl]
  by_cases h1 : t.base.type.length = t.base.bbox.length
  swap
  · simp [h1]
  by_cases h2 : t.base.frame.length = t.base.bbox.length
  swap
  · simp [h1, h2]
  by_cases h3 : t.sequence.length = t.base.bbox.length
  swap
  · simp [h1, h2, h3]
  by_cases h4 : t.object.length = t.base.bbox.length
  swap
  · simp [h1, h2, h3, h4]
  rcases h with h | h | h | h | h | h | h | h | h
  · exact absurd h1 h
  · exact absurd h2 h
  · exact absurd h3 h
  · exact absurd h4 h
  all_goals simp [h1, h2, h3, h4, hs _ h]

/-- The rows are determined by the tensors. -/
theorem SeqRowsAre.unique {t : SeqTensors κ} {a b : List (κ × ℤ × Obj)} (ha : SeqRowsAre t a) (hb : SeqRowsAre t b)
    (hc : SeqConsistent t) : a = b := by
  apply List.ext_getElem (ha.1.trans hb.1.symm)
  intro i h1 h2
  have p := ha.2 i _ (List.getElem?_eq_getElem h1)
  have q := hb.2 i _ (List.getElem?_eq_getElem h2)
  revert p q
  generalize a[i] = x
  generalize b[i] = y
  obtain ⟨s, f, o⟩ := x
  obtain ⟨s', f', o'⟩ := y
  intro p q
  have e1 : s = s' := by have := p.sequence.symm.trans q.sequence; simpa using this
  have e2 : o.id = o'.id := p.object.symm.trans q.object
  have e3 := IsRow.unique hc.base (x := (f, { o with id := none })) (y := (f', { o' with id := none })) p.row q.row
  obtain ⟨o1, o2, o3, o4, o5, o6, o7, o8⟩ := o
  obtain ⟨p1, p2, p3, p4, p5, p6, p7, p8⟩ := o'
  simp only [Prod.mk.injEq, Obj.mk.injEq, and_true] at e3
  simp only at e2
  simp only [e1, e2, e3]

/-- C122: the sequences that are evaluated are, for each sequence id of a prediction or a ground truth in ascending
order, its frames in ascending order of their ids, each with the predictions and the ground truths of that sequence and
frame in the order of their rows. -/
theorem scenes_spec {pd : PdTensors κ} {gt : GtTensors κ} {a b : List (κ × ℤ × Obj)} (hp : SeqConsistent pd.args)
    (hg : SeqConsistent gt.args) (ha : SeqRowsAre pd.args a) (hb : SeqRowsAre gt.args b) :
    opScenes pd gt = some (sequencesOf a b) := by
  obtain ⟨a', m, r1, m1, m2, m3, m4⟩ := sequences_parse hp
  obtain ⟨b', n, s1, n1, n2, n3, n4⟩ := sequences_parse hg
  obtain rfl := r1.unique ha hp
  obtain rfl := s1.unique hb hg
  unfold opScenes
  rw [m1, n1]
  simp only [Option.bind_eq_bind, Option.bind_some]
  show some (alignSequences m n) = _
  unfold alignSequences sequencesOf framesOf
  rw [idsOf_eq m2 n2]
  congr 1
  apply List.map_congr_left
  intro s _
  rw [idsOf_eq (m3 s) (n3 s)]
  simp only [m4, n4]

theorem mem_rowsFor {β α : Type} [DecidableEq β] (rs : List (β × α)) (k : β) (x : α) : x ∈ rowsFor rs k ↔ (k, x) ∈ rs := by
  unfold rowsFor
  rw [List.mem_map]
  constructor
  · rintro ⟨r, hr, rfl⟩
    obtain ⟨h1, h2⟩ := List.mem_filter.mp hr
    rw [← of_decide_eq_true h2]; exact h1
  · intro h
    exact ⟨_, List.mem_filter.mpr ⟨h, by simp⟩, rfl⟩

/-- C122: every sequence that is evaluated has a frame, and every frame has an object. -/
theorem scenes_nonempty {a b : List (κ × ℤ × Obj)} {xs : List (List Obj × List Obj)} (h : xs ∈ sequencesOf a b) :
    xs ≠ [] ∧ ∀ x ∈ xs, x.1 ≠ [] ∨ x.2 ≠ [] := by
  obtain ⟨s, hs, rfl⟩ := List.mem_map.mp h
  constructor
  · intro e
    have h0 : idList (rowsFor a s) (rowsFor b s) = [] := List.map_eq_nil_iff.mp e
    have hn : ∀ f, f ∉ idList (rowsFor a s) (rowsFor b s) := by simp [h0]
    rcases (mem_idList a b s).mp hs with h | h
    · obtain ⟨r, hr, rfl⟩ := List.mem_map.mp h
      exact hn r.2.1 ((mem_idList _ _ _).mpr (Or.inl (List.mem_map.mpr ⟨r.2, (mem_rowsFor a r.1 r.2).mpr hr, rfl⟩)))
    · obtain ⟨r, hr, rfl⟩ := List.mem_map.mp h
      exact hn r.2.1 ((mem_idList _ _ _).mpr (Or.inr (List.mem_map.mpr ⟨r.2, (mem_rowsFor b r.1 r.2).mpr hr, rfl⟩)))
  · intro x hx
    obtain ⟨f, hf, rfl⟩ := List.mem_map.mp hx
    rcases (mem_idList _ _ f).mp hf with h | h
    · obtain ⟨r, hr, rfl⟩ := List.mem_map.mp h
      exact Or.inl (List.ne_nil_of_mem ((mem_rowsFor _ r.1 r.2).mpr hr))
    · obtain ⟨r, hr, rfl⟩ := List.mem_map.mp h
      exact Or.inr (List.ne_nil_of_mem ((mem_rowsFor _ r.1 r.2).mpr hr))

theorem idList_congr {κ α : Type} [LinearOrder κ] {a a' b b' : List (κ × α)}
    (ha : ∀ k, k ∈ a.map Prod.fst ↔ k ∈ a'.map Prod.fst) (hb : ∀ k, k ∈ b.map Prod.fst ↔ k ∈ b'.map Prod.fst) :
    idList a b = idList a' b' := by
  apply sorted_unique (idList_sorted a b) (idList_sorted a' b')
  intro k
  rw [mem_idList, mem_idList, ha, hb]

/-- C122: rows of different frames or sequences may be interleaved in any way. -/
theorem interleave_sequences {a a' b b' : List (κ × ℤ × Obj)}
    (ha : ∀ s f, rowsFor (rowsFor a s) f = rowsFor (rowsFor a' s) f)
    (hb : ∀ s f, rowsFor (rowsFor b s) f = rowsFor (rowsFor b' s) f) : sequencesOf a b = sequencesOf a' b' := by
  have key : ∀ {x y : List (κ × ℤ × Obj)}, (∀ s f, rowsFor (rowsFor x s) f = rowsFor (rowsFor y s) f) →
      ∀ r, r ∈ x → r ∈ y := by
    rintro x y h ⟨s, f, o⟩ hr
    have := (mem_rowsFor (rowsFor x s) f o).mpr ((mem_rowsFor x s _).mpr hr)
    rw [h] at this
    exact (mem_rowsFor y s _).mp ((mem_rowsFor _ f o).mp this)
  have hs : ∀ {x y : List (κ × ℤ × Obj)}, (∀ s f, rowsFor (rowsFor x s) f = rowsFor (rowsFor y s) f) →
      ∀ s, s ∈ x.map Prod.fst ↔ s ∈ y.map Prod.fst := by
    intro x y h s
    constructor
    · intro hm
      obtain ⟨r, hr, rfl⟩ := List.mem_map.mp hm
      exact List.mem_map_of_mem (key h r hr)
    · intro hm
      obtain ⟨r, hr, rfl⟩ := List.mem_map.mp hm
      exact List.mem_map_of_mem (key (fun s f => (h s f).symm) r hr)
  have hf : ∀ {x y : List (κ × ℤ × Obj)}, (∀ s f, rowsFor (rowsFor x s) f = rowsFor (rowsFor y s) f) →
      ∀ s f, f ∈ (rowsFor x s).map Prod.fst ↔ f ∈ (rowsFor y s).map Prod.fst := by
    intro x y h s f
    constructor
    · intro hm
      obtain ⟨r, hr, rfl⟩ := List.mem_map.mp hm
      exact List.mem_map_of_mem ((mem_rowsFor y s r).mpr (key h _ ((mem_rowsFor x s r).mp hr)))
    · intro hm
      obtain ⟨r, hr, rfl⟩ := List.mem_map.mp hm
      exact List.mem_map_of_mem ((mem_rowsFor x s r).mpr (key (fun s f => (h s f).symm) _ ((mem_rowsFor y s r).mp hr)))
  unfold sequencesOf framesOf
  rw [idList_congr (hs ha) (hs hb)]
  apply List.map_congr_left
  intro s _
  rw [idList_congr (hf ha s) (hf hb s)]
  simp only [ha, hb]

theorem count_rows {ν α : Type} [LinearOrder ν] (ids : List ν) (rs : List (ν × α)) (hn : ids.Nodup) (hm : ∀ r ∈ rs, r.1 ∈ ids) :
    (ids.map fun k => (rowsFor rs k).length).sum = rs.length := by
  induction rs with
  | nil => simp [rowsFor]
  | cons r rs ih =>
    have h1 : ∀ k, (rowsFor (r :: rs) k).length = (if r.1 = k then 1 else 0) + (rowsFor rs k).length := by
      intro k
      unfold rowsFor
      rw [List.filter_cons]
      by_cases hk : r.1 = k
      · simp [hk]; omega
      · simp [hk]
    rw [List.map_congr_left (fun k _ => h1 k), List.sum_map_add, ih fun x hx => hm x (List.mem_cons_of_mem _ hx)]
    have h2 : (ids.map fun k => if r.1 = k then 1 else 0).sum = 1 := by
      have : (ids.map fun k => if r.1 = k then 1 else 0).sum = ids.count r.1 := by
        clear hn hm ih h1
        induction ids with
        | nil => rfl
        | cons x l ih =>
          rw [List.map_cons, List.sum_cons, ih, List.count_cons]
          by_cases hx : r.1 = x
          · subst hx; simp; omega
          · simp [hx, Ne.symm hx]
      rw [this, List.count_eq_one_of_mem hn (hm r List.mem_cons_self)]
    rw [h2, List.length_cons]; omega

/-- C122: every row is in exactly one frame of one sequence. -/
theorem scenes_count (a b : List (κ × ℤ × Obj)) :
    ((sequencesOf a b).map fun xs => (xs.map fun f => f.1.length).sum).sum = a.length ∧
    ((sequencesOf a b).map fun xs => (xs.map fun f => f.2.length).sum).sum = b.length := by
  unfold sequencesOf
  rw [List.map_map, List.map_map]
  have hn : (idList a b).Nodup := (idList_sorted a b).imp ne_of_lt
  constructor
  · rw [← count_rows (idList a b) a hn fun r hr => (mem_idList a b _).mpr (Or.inl (List.mem_map_of_mem hr))]
    exact congrArg List.sum (List.map_congr_left fun s _ => (frames_count _ _).1)
  · rw [← count_rows (idList a b) b hn fun r hr => (mem_idList a b _).mpr (Or.inr (List.mem_map_of_mem hr))]
    exact congrArg List.sum (List.map_congr_left fun s _ => (frames_count _ _).2)

/-! ### The operation -/

/-- Tasks that write their own slots: whatever the order in which they run, slot `i` holds the result of task `i`. -/
theorem pool_slots {α β : Type} (f : α → Nat → Option β) (d : β) (xs : List α) (order : List Nat)
    (h : order.Perm (List.range xs.length)) :
    order.foldlM (fun slots i => do
      let x ← xs[i]?
      let m ← f x i
      pure (slots.set i m)) (List.replicate xs.length d) = xs.zipIdx.mapM fun e => f e.1 e.2 := by
  have hF : (fun (slots : List β) (i : Nat) => do
      let x ← xs[i]?
      let m ← f x i
      pure (slots.set i m)) = fun s i => ((xs[i]?).bind fun x => f x i).bind fun m => some (s.set i m) := by
    funext s i
    cases xs[i]? with
    | none => rfl
    | some x => rfl
  rw [hF]
  by_cases hall : ∀ e ∈ xs.zipIdx, ∃ m, f e.1 e.2 = some m
  · obtain ⟨r, r1, r2, r3⟩ := set_fold (fun i => (xs[i]?).bind fun x => f x i) order (List.replicate xs.length d) (by
        intro i hi
        have hlt := List.mem_range.mp (h.mem_iff.mp hi)
        obtain ⟨m, hm⟩ := hall (xs[i], i) (List.mem_zipIdx_iff_getElem?.mpr (List.getElem?_eq_getElem hlt))
        exact ⟨m, by simpa [List.getElem?_eq_getElem hlt] using hm⟩)
    rw [r1]
    obtain ⟨ms, m1, m2⟩ := mapM_exists (fun e : α × Nat => f e.1 e.2) (fun e m => f e.1 e.2 = some m) xs.zipIdx
      (fun e he => by obtain ⟨m, hm⟩ := hall e he; exact ⟨m, hm, hm⟩)
    rw [m1]
    congr 1
    rw [List.length_replicate] at r2 r3
    have hml : ms.length = xs.length := by rw [← m2.length_eq]; simp
    apply List.ext_getElem (r2.trans hml.symm)
    intro i h1 h2
    have hi : i < xs.length := r2 ▸ h1
    have e1 := r3 i hi
    rw [if_pos (h.mem_iff.mpr (List.mem_range.mpr hi)), List.getElem?_eq_getElem h1, List.getElem?_eq_getElem hi] at e1
    have e2 := m2.get (i := i) (by simpa using hi) h2
    simp only [List.get_eq_getElem, List.getElem_zipIdx, Nat.zero_add] at e2
    simp only [Option.bind_some, e2, Option.some.injEq] at e1
    exact e1
  · push Not at hall
    obtain ⟨⟨x, i⟩, hx, hn⟩ := hall
    have hnone : f x i = none := by
      cases hc : f x i with
      | none => rfl
      | some m => exact absurd hc (hn m)
    rw [mapM_none _ _ ⟨(x, i), hx, hnone⟩]
    apply set_fold_none
    have hg := List.mem_zipIdx_iff_getElem?.mp hx
    have hi := (List.getElem?_eq_some_iff.mp hg).1
    exact ⟨i, h.mem_iff.mpr (List.mem_range.mpr hi), by simp only at hg; simp [hg, hnone]⟩

/-- C123: the operation returns what the library returns for the sequences of the tensors, whatever the order in which
the tasks of its thread pool run. -/
theorem tracking_op_is_library (E : Env O) (c : Config O) (desired : Nat) (H : Nat → Tracking.Orders) {pd : PdTensors κ}
    {gt : GtTensors κ} {ss : List (List (List Obj × List Obj))} (hs : opScenes pd gt = some ss) {order : List Nat}
    (h : order.Perm (List.range ss.length)) :
    trackingOp E c desired H order pd gt =
      (Tracking.computeMetrics E.motion c desired H (ss.map E.scene)).map createOutput := by
  unfold trackingOp Tracking.computeMetrics
  rw [hs]
  simp only [Option.bind_eq_bind, Option.bind_some]
  cases Tracking.usedCutoffs c desired (ss.map E.scene) with
  | none => rfl
  | some k =>
    simp only [Option.bind_some]
    have : runPool E.motion { c with cutoffs := k } H (ss.map E.scene) order =
        (ss.map E.scene).zipIdx.mapM fun e => Tracking.computeMeasurements E.motion { c with cutoffs := k } (H e.2) e.1 :=
      pool_slots (fun x i => Tracking.computeMeasurements E.motion { c with cutoffs := k } (H i) x) [] (ss.map E.scene)
        order (by simpa using h)
    rw [this]
    cases (ss.map E.scene).zipIdx.mapM fun e => Tracking.computeMeasurements E.motion { c with cutoffs := k } (H e.2) e.1 with
    | none => rfl
    | some ms =>
      simp only [Option.bind_some]
      cases Tracking.metricsOf ms <;> rfl

end Verif.OpsTracking
