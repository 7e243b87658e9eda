import Verif.Model.Segmentation
import Mathlib.Tactic
import Mathlib.Data.List.Perm.Basic

/-!
C22: the segmentation IoU.
-/

namespace Verif.Segmentation

/-! ## Specification: counts over labelled points, each a pair (prediction, ground truth) -/

/-- Points of class `c` in both prediction and ground truth. -/
def interCount (pts : List (Nat × Nat)) (c : Nat) : Nat := pts.countP (fun e => e.1 = c ∧ e.2 = c)

/-- Points of class `c` in the ground truth, or predicted to be and with an evaluated class in the ground truth. -/
def unionCount (types : List Nat) (pts : List (Nat × Nat)) (c : Nat) : Nat :=
  pts.countP (fun e => e.2 = c ∨ (e.1 = c ∧ e.2 ∈ types))

/-- The IoU of a class; 1 for a class that does not occur. -/
def iouSpec (types : List Nat) (pts : List (Nat × Nat)) (c : Nat) : ℚ :=
  if unionCount types pts c = 0 then 1 else (interCount pts c : ℚ) / unionCount types pts c

/-- The documented metrics of labelled points. -/
def metricsSpec (types : List Nat) (pts : List (Nat × Nat)) : Metrics :=
  ⟨types.map (fun c => (c, iouSpec types pts c)),
   if types = [] then none else some ((types.map (iouSpec types pts)).sum / types.length),
   ⟨types.map (fun c => (interCount pts c : Int)), types.map (fun c => (unionCount types pts c : Int))⟩⟩

/-- The metrics of a sequence of frames: predictions and ground truths. -/
def run (s : Iou) (frames : List (List Nat × List Nat)) : Option Iou :=
  frames.foldlM (fun s f => update s f.1 f.2) s

/-! ## Updating -/

theorem bump_foldl (types : List Nat) (pts : List (Nat × Nat)) (m : Nat → Nat → Int) (i j : Nat) :
    pts.foldl (fun m e => bump m (index types e.2) (index types e.1)) m i j =
      m i j + pts.countP (fun e => index types e.2 = i ∧ index types e.1 = j) := by
  induction pts generalizing m with
  | nil => simp
  | cons e pts ih =>
    rw [List.foldl_cons, ih, List.countP_cons]
    simp only [bump]
    by_cases h : i = index types e.2 ∧ j = index types e.1
    · obtain ⟨rfl, rfl⟩ := h
      simp; ring
    · have h' : ¬ (index types e.2 = i ∧ index types e.1 = j) := fun ⟨a, b⟩ => h ⟨a.symm, b.symm⟩
      simp [h, h']

/-- The confusion matrix counts the points. -/
def Counts (s : Iou) (pts : List (Nat × Nat)) : Prop :=
  ∀ i j, i ≤ s.types.length → j ≤ s.types.length →
    s.confusion i j = pts.countP (fun e => index s.types e.2 = i ∧ index s.types e.1 = j)

theorem update_counts (s s' : Iou) (p g : List Nat) (pts : List (Nat × Nat)) (h : Counts s pts)
    (hu : update s p g = some s') : Counts s' (pts ++ p.zip g) ∧ s'.types = s.types := by
  simp only [update] at hu
  split_ifs at hu with hl
  cases hu
  refine ⟨fun i j hi hj => ?_, rfl⟩
  simp only at hi hj ⊢
  rw [bump_foldl, h i j hi hj, List.countP_append]
  push_cast
  rfl

theorem run_counts (s s' : Iou) (frames : List (List Nat × List Nat)) (pts : List (Nat × Nat)) (h : Counts s pts)
    (hr : run s frames = some s') :
    Counts s' (pts ++ frames.flatMap (fun f => f.1.zip f.2)) ∧ s'.types = s.types := by
  induction frames generalizing s pts with
  | nil => simp only [run, List.foldlM_nil] at hr; cases hr; exact ⟨by simpa using h, rfl⟩
  | cons f fs ih =>
    simp only [run, List.foldlM_cons] at hr
    obtain ⟨s1, h1, h2⟩ := Option.bind_eq_some_iff.mp hr
    obtain ⟨c1, t1⟩ := update_counts s s1 f.1 f.2 pts h h1
    obtain ⟨c2, t2⟩ := ih s1 _ c1 h2
    exact ⟨by simpa using c2, t2.trans t1⟩

theorem run_some (s : Iou) (frames : List (List Nat × List Nat)) (h : ∀ f ∈ frames, f.1.length = f.2.length) :
    ∃ s', run s frames = some s' := by
  induction frames generalizing s with
  | nil => exact ⟨s, rfl⟩
  | cons f fs ih =>
    have : update s f.1 f.2 = some ⟨s.types, (f.1.zip f.2).foldl
        (fun m e => bump m (index s.types e.2) (index s.types e.1)) s.confusion⟩ := by
      rw [update, if_neg (by simp [h f (by simp)])]
    obtain ⟨s', h'⟩ := ih _ (fun f hf => h f (by simp [hf]))
    exact ⟨s', by simp only [run, List.foldlM_cons, this]; exact h'⟩

/-! ## Counting -/

theorem index_lt (types : List Nat) (t : Nat) : index types t < types.length ↔ t ∈ types := List.idxOf_lt_length_iff

theorem index_le (types : List Nat) (t : Nat) : index types t ≤ types.length := List.idxOf_le_length

theorem index_eq (types : List Nat) (hn : types.Nodup) (i : Nat) (hi : i < types.length) (t : Nat) :
    index types t = i ↔ t = types[i] := by
  constructor
  · intro h
    have hlt : types.idxOf t < types.length := by rw [index] at h; omega
    have := List.getElem_idxOf hlt
    rw [index] at h
    subst h
    exact this.symm
  · rintro rfl
    exact hn.idxOf_getElem i hi

theorem sum_countP {β : Type} (n : Nat) (l : List β) (f : β → Nat) (p : β → Bool) :
    ((List.range n).map (fun j => l.countP (fun e => p e && decide (f e = j)))).sum =
      l.countP (fun e => p e && decide (f e < n)) := by
  induction l with
  | nil => simp
  | cons e l ih =>
    simp only [List.countP_cons]
    have : ((List.range n).map (fun j => l.countP (fun e => p e && decide (f e = j)) +
        if (p e && decide (f e = j)) = true then 1 else 0)).sum =
        ((List.range n).map (fun j => l.countP (fun e => p e && decide (f e = j)))).sum +
        ((List.range n).map (fun j => if (p e && decide (f e = j)) = true then 1 else 0)).sum := by
      rw [List.sum_map_add]
    rw [this, ih]
    congr 1
    have hs : ∀ n, ((List.range n).map (fun j => if (p e && decide (f e = j)) = true then 1 else 0)).sum =
        if (p e && decide (f e < n)) = true then 1 else 0 := by
      intro n
      induction n with
      | zero => simp
      | succ n ihn =>
        rw [List.range_succ, List.map_append, List.sum_append, ihn]
        simp only [List.map_cons, List.map_nil, List.sum_cons, List.sum_nil, Bool.and_eq_true, decide_eq_true_eq]
        rcases p e with _ | _
        · simp
        · simp only [true_and]
          split_ifs <;> omega
    exact hs n

theorem unionOf_eq (s : Iou) (i : Nat) :
    unionOf s i = ((List.range s.types.length).map (fun j => s.confusion i j)).sum +
      ((List.range s.types.length).map (fun j => s.confusion j i)).sum - s.confusion i i +
      s.confusion i s.types.length := by
  have : ∀ (l : List Nat) (a : Int), l.foldl (fun u j => u + s.confusion i j + s.confusion j i) a =
      a + (l.map (fun j => s.confusion i j)).sum + (l.map (fun j => s.confusion j i)).sum := by
    intro l
    induction l with
    | nil => intro a; simp
    | cons b l ih => intro a; rw [List.foldl_cons, ih]; simp; ring
  rw [unionOf, this]; ring

theorem unionOf_spec (s : Iou) (pts : List (Nat × Nat)) (h : Counts s pts) (hn : s.types.Nodup) (i : Nat)
    (hi : i < s.types.length) : unionOf s i = unionCount s.types pts s.types[i] := by
  have hrow : ((List.range s.types.length).map (fun j => s.confusion i j)).sum =
      ((pts.countP (fun e => e.2 = s.types[i] ∧ e.1 ∈ s.types) : Nat) : Int) := by
    have e1 : (List.range s.types.length).map (fun j => s.confusion i j) =
        (List.range s.types.length).map (fun j =>
          ((pts.countP (fun e => decide (index s.types e.2 = i) && decide (index s.types e.1 = j)) : Nat) : Int)) := by
      refine List.map_congr_left fun j hj => ?_
      rw [h i j (by omega) (by have := List.mem_range.mp hj; omega)]
      simp only [Bool.decide_and]
    have e2 := sum_countP s.types.length pts (fun e => index s.types e.1) (fun e => decide (index s.types e.2 = i))
    rw [e1]
    have e3 : ((List.range s.types.length).map (fun j =>
          ((pts.countP (fun e => decide (index s.types e.2 = i) && decide (index s.types e.1 = j)) : Nat) : Int))).sum =
        ((((List.range s.types.length).map (fun j =>
          pts.countP (fun e => decide (index s.types e.2 = i) && decide (index s.types e.1 = j)))).sum : Nat) : Int) := by
      rw [Nat.cast_list_sum, List.map_map]; rfl
    rw [e3, e2]
    congr 1
    apply List.countP_congr
    intro e _
    simp [index_lt, index_eq s.types hn i hi]
  have hcol : ((List.range s.types.length).map (fun j => s.confusion j i)).sum =
      ((pts.countP (fun e => e.1 = s.types[i] ∧ e.2 ∈ s.types) : Nat) : Int) := by
    have e1 : (List.range s.types.length).map (fun j => s.confusion j i) =
        (List.range s.types.length).map (fun j =>
          ((pts.countP (fun e => decide (index s.types e.1 = i) && decide (index s.types e.2 = j)) : Nat) : Int)) := by
      refine List.map_congr_left fun j hj => ?_
      rw [h j i (by have := List.mem_range.mp hj; omega) (by omega)]
      congr 1
      apply List.countP_congr
      intro e _
      simp [and_comm]
    have e2 := sum_countP s.types.length pts (fun e => index s.types e.2) (fun e => decide (index s.types e.1 = i))
    rw [e1]
    have e3 : ((List.range s.types.length).map (fun j =>
          ((pts.countP (fun e => decide (index s.types e.1 = i) && decide (index s.types e.2 = j)) : Nat) : Int))).sum =
        ((((List.range s.types.length).map (fun j =>
          pts.countP (fun e => decide (index s.types e.1 = i) && decide (index s.types e.2 = j)))).sum : Nat) : Int) := by
      rw [Nat.cast_list_sum, List.map_map]; rfl
    rw [e3, e2]
    congr 1
    apply List.countP_congr
    intro e _
    simp [index_lt, index_eq s.types hn i hi]
  have hdiag : s.confusion i i = ((pts.countP (fun e => e.2 = s.types[i] ∧ e.1 = s.types[i]) : Nat) : Int) := by
    rw [h i i (by omega) (by omega)]
    congr 1
    apply List.countP_congr
    intro e _
    simp [index_eq s.types hn i hi]
  have hlast : s.confusion i s.types.length = ((pts.countP (fun e => e.2 = s.types[i] ∧ e.1 ∉ s.types) : Nat) : Int) := by
    rw [h i s.types.length (by omega) le_rfl]
    congr 1
    apply List.countP_congr
    intro e _
    have := index_le s.types e.1
    have h2 := index_lt s.types e.1
    have h3 : index s.types e.1 = s.types.length ↔ e.1 ∉ s.types := by rw [← h2]; omega
    simp [index_eq s.types hn i hi, h3]
  rw [unionOf_eq, hrow, hcol, hdiag, hlast, unionCount]
  have hm : s.types[i] ∈ s.types := List.getElem_mem hi
  generalize s.types[i] = c at *
  clear hrow hcol hdiag hlast h
  induction pts with
  | nil => simp
  | cons e pts ih =>
    simp only [List.countP_cons, Nat.cast_add] at ih ⊢
    have key : (((if decide (e.2 = c ∧ e.1 ∈ s.types) = true then 1 else 0 : Nat) : Int) +
        ((if decide (e.1 = c ∧ e.2 ∈ s.types) = true then 1 else 0 : Nat) : Int) -
        ((if decide (e.2 = c ∧ e.1 = c) = true then 1 else 0 : Nat) : Int) +
        ((if decide (e.2 = c ∧ e.1 ∉ s.types) = true then 1 else 0 : Nat) : Int)) =
        ((if decide (e.2 = c ∨ e.1 = c ∧ e.2 ∈ s.types) = true then 1 else 0 : Nat) : Int) := by
      by_cases a : e.2 = c <;> by_cases b : e.1 = c <;> by_cases d : e.1 ∈ s.types <;>
        by_cases f : e.2 ∈ s.types <;> simp_all
    linarith

theorem map_range_get {γ : Type} (l : List Nat) (f : Nat → γ) (g : Nat → γ)
    (h : ∀ i (hi : i < l.length), f i = g l[i]) : (List.range l.length).map f = l.map g := by
  apply List.ext_getElem
  · simp
  · intro i h1 h2
    simp only [List.getElem_map, List.getElem_range]
    exact h i (by simpa using h1)

theorem zipWith_map_same {β γ δ : Type} (h : β → γ → δ) (l : List Nat) (f : Nat → β) (g : Nat → γ) :
    (l.map f).zipWith h (l.map g) = l.map (fun c => h (f c) (g c)) := by
  induction l with
  | nil => rfl
  | cons a l ih => simp [ih]

theorem ratio_spec (a b : Nat) : ratio (a : Int) (b : Int) = if b = 0 then 1 else (a : ℚ) / b := by
  rw [ratio]
  by_cases h : b = 0
  · simp [h]
  · rw [if_pos (by omega), if_neg h]; simp

theorem mean_spec (l : List ℚ) : mean l = if l = [] then none else some (l.sum / l.length) := by
  rw [mean]
  by_cases h : l = []
  · simp [h]
  · rw [if_neg (by simpa using h), if_neg h, List.sum_eq_foldl]

theorem results_spec (types : List Nat) (pts : List (Nat × Nat)) :
    results types (types.map (fun c => (interCount pts c : Int)))
      (types.map (fun c => (unionCount types pts c : Int))) = metricsSpec types pts := by
  have hz : (types.map (fun c => (interCount pts c : Int))).zipWith ratio
      (types.map (fun c => (unionCount types pts c : Int))) = types.map (iouSpec types pts) := by
    rw [zipWith_map_same]
    apply List.map_congr_left
    intro c _
    exact ratio_spec _ _
  rw [results, metricsSpec, hz, mean_spec]
  congr 1
  · conv_lhs => rw [← List.map_id types, List.map_map]
    rw [List.zip_map']; simp
  · simp

theorem compute_counts (s : Iou) (pts : List (Nat × Nat)) (h : Counts s pts) (hn : s.types.Nodup) :
    computeIOU s = metricsSpec s.types pts := by
  rw [computeIOU, ← results_spec]
  congr 1
  · apply map_range_get
    intro i hi
    rw [h i i (by omega) (by omega), interCount]
    congr 1
    apply List.countP_congr
    intro e _
    simp [index_eq s.types hn i hi, and_comm]
  · exact map_range_get _ _ _ (fun i hi => unionOf_spec s pts h hn i hi)

/-! ## C22 -/

/-- C22: after any sequence of frames (predictions and ground truths of equal lengths), `ComputeIOU` reports the
documented metrics of all their points together. -/
theorem computeIOU_spec (types : List Nat) (hn : types.Nodup) (frames : List (List Nat × List Nat))
    (hl : ∀ f ∈ frames, f.1.length = f.2.length) :
    ∃ s s', new types = some s ∧ run s frames = some s' ∧
      computeIOU s' = metricsSpec types (frames.flatMap (fun f => f.1.zip f.2)) := by
  refine ⟨⟨types, fun _ _ => 0⟩, ?_⟩
  obtain ⟨s', hs'⟩ := run_some ⟨types, fun _ _ => 0⟩ frames hl
  obtain ⟨h1, h2⟩ := run_counts ⟨types, fun _ _ => 0⟩ s' frames [] (fun i j _ _ => by simp) hs'
  refine ⟨s', by rw [new, if_pos hn], hs', ?_⟩
  have := compute_counts s' _ h1 (by rw [h2]; exact hn)
  rw [h2] at this
  simpa using this

/-- C22: duplicate types are rejected. -/
theorem new_rejects (types : List Nat) (h : ¬ types.Nodup) : new types = none := by rw [new, if_neg h]

/-- C22: a frame with predictions and ground truths of different lengths is rejected. -/
theorem update_rejects (s : Iou) (p g : List Nat) (h : p.length ≠ g.length) : update s p g = none := by
  rw [update, if_pos h]

/-- C22: after `Reset` an object is as good as new: whatever was evaluated before, the metrics are those of the frames
that follow. -/
theorem reset_spec (types : List Nat) (hn : types.Nodup) (before after : List (List Nat × List Nat)) (s s1 s2 : Iou)
    (h0 : new types = some s) (h1 : run s before = some s1) (h2 : run (reset s1) after = some s2) :
    computeIOU s2 = metricsSpec types (after.flatMap (fun f => f.1.zip f.2)) := by
  rw [new, if_pos hn] at h0
  cases h0
  obtain ⟨_, t1⟩ := run_counts ⟨types, fun _ _ => 0⟩ s1 before [] (fun i j _ _ => by simp) h1
  obtain ⟨c2, t2⟩ := run_counts (reset s1) s2 after [] (fun i j hi hj => by
    simp only [reset] at hi hj ⊢
    rw [if_pos ⟨by omega, by omega⟩]; simp) h2
  have ht : s2.types = types := by rw [t2]; exact t1
  have := compute_counts s2 _ c2 (by rw [ht]; exact hn)
  rw [ht] at this
  simpa using this

/-- C22: the order of points, hence of frames, does not matter. -/
theorem metricsSpec_perm (types : List Nat) (a b : List (Nat × Nat)) (h : a.Perm b) :
    metricsSpec types a = metricsSpec types b := by
  have h1 : ∀ c, interCount a c = interCount b c := fun c => h.countP_eq _
  have h2 : ∀ c, unionCount types a c = unionCount types b c := fun c => h.countP_eq _
  have h3 : iouSpec types a = iouSpec types b := by funext c; simp [iouSpec, h1, h2]
  simp [metricsSpec, h1, h2, h3]

theorem inter_le_union (types : List Nat) (pts : List (Nat × Nat)) (c : Nat) :
    interCount pts c ≤ unionCount types pts c := by
  apply List.countP_mono_left
  intro e _ h
  simp only [decide_eq_true_eq] at h ⊢
  exact .inl h.2

theorem iouSpec_bounds (types : List Nat) (pts : List (Nat × Nat)) (c : Nat) :
    0 ≤ iouSpec types pts c ∧ iouSpec types pts c ≤ 1 := by
  rw [iouSpec]
  split_ifs with h
  · exact ⟨by norm_num, le_rfl⟩
  · have hp : (0 : ℚ) < unionCount types pts c := by exact_mod_cast Nat.pos_of_ne_zero h
    refine ⟨by positivity, ?_⟩
    rw [div_le_one hp]
    exact_mod_cast inter_le_union types pts c

/-- C22: every reported IoU, and the mean, lies in [0, 1]. -/
theorem metricsSpec_bounds (types : List Nat) (pts : List (Nat × Nat)) :
    (∀ e ∈ (metricsSpec types pts).perClass, 0 ≤ e.2 ∧ e.2 ≤ 1) ∧
    (∀ m, (metricsSpec types pts).miou = some m → 0 ≤ m ∧ m ≤ 1) := by
  constructor
  · intro e he
    obtain ⟨c, _, rfl⟩ := List.mem_map.mp he
    exact iouSpec_bounds types pts c
  · intro m hm
    simp only [metricsSpec] at hm
    split_ifs at hm with h
    simp only [Option.some.injEq] at hm
    subst hm
    have hp : (0 : ℚ) < types.length := by exact_mod_cast List.length_pos_iff.mpr h
    have hs : ∀ l : List Nat, 0 ≤ (l.map (iouSpec types pts)).sum ∧ (l.map (iouSpec types pts)).sum ≤ l.length := by
      intro l
      induction l with
      | nil => simp
      | cons c l ih =>
        have := iouSpec_bounds types pts c
        simp only [List.map_cons, List.sum_cons, List.length_cons, Nat.cast_add, Nat.cast_one]
        constructor <;> linarith [ih.1, ih.2]
    exact ⟨div_nonneg (hs types).1 hp.le, by rw [div_le_one hp]; exact (hs types).2⟩

/-! ## Merging -/

/-- 2³¹. -/
def limit : Nat := 2147483648

theorem toInt32_eq (n : Nat) (h : n < limit) : toInt32 (n : Int) = n := by
  rw [limit] at h
  have h3 : (n : Int) < 2147483648 := by exact_mod_cast h
  rw [toInt32, Int.bmod_eq_of_le] <;> norm_num <;> omega

theorem accumulate_spec (types : List Nat) (shards : List (List (Nat × Nat))) :
    accumulate types.length (shards.map (fun pts => (metricsSpec types pts).measurements)) =
      some ⟨types.map (fun c => (interCount shards.flatten c : Int)),
        types.map (fun c => (unionCount types shards.flatten c : Int))⟩ := by
  have key : ∀ (f g : Nat → Int), (shards.map (fun pts => (metricsSpec types pts).measurements)).foldlM
      (fun (acc : Measurements) r =>
        if r.unions.length = types.length ∧ r.intersections.length = types.length then
          some ⟨acc.intersections.zipWith (· + ·) r.intersections, acc.unions.zipWith (· + ·) r.unions⟩
        else none) (⟨types.map f, types.map g⟩ : Measurements) =
      some ⟨types.map (fun c => f c + (interCount shards.flatten c : Int)),
        types.map (fun c => g c + (unionCount types shards.flatten c : Int))⟩ := by
    induction shards with
    | nil => intro f g; simp [interCount, unionCount]
    | cons p ps ih =>
      intro f g
      rw [List.map_cons, List.foldlM_cons]
      have := ih (fun c => f c + (interCount p c : Int)) (fun c => g c + (unionCount types p c : Int))
      rw [if_pos (by simp [metricsSpec])]
      refine (Option.bind_eq_some_iff.mpr ⟨_, rfl, ?_⟩)
      simp only [metricsSpec, zipWith_map_same] at this ⊢
      rw [this]
      simp only [interCount, unionCount, List.flatten_cons, List.countP_append, Nat.cast_add, add_assoc]
  have := key (fun _ => 0) (fun _ => 0)
  simp only [zero_add, List.map_const'] at this
  exact this

theorem map_fix (t : Int → Int) (b : Nat) (ht : ∀ n : Nat, n < b → t (n : Int) = n) (types : List Nat)
    (f : Nat → Nat) (h : ∀ c ∈ types, f c < b) :
    (types.map (fun c => (f c : Int))).map t = types.map (fun c => (f c : Int)) := by
  rw [List.map_map]
  apply List.map_congr_left
  intro c hc
  exact ht _ (h c hc)

/-- C22: merging the measurements of shards gives the metrics of all their points, as long as no class has 2³¹ or more
points.  What is missing: larger counts, see `merge_overflow_violated`. -/
theorem merge_partial (types : List Nat) (s : Iou) (hs : s.types = types) (shards : List (List (Nat × Nat)))
    (hb : ∀ c ∈ types, unionCount types shards.flatten c < limit) :
    mergeResults s (shards.map (fun pts => (metricsSpec types pts).measurements)) =
      some (metricsSpec types shards.flatten) := by
  have h0 := accumulate_spec types shards
  have h1 : (types.map (fun c => (interCount shards.flatten c : Int))).map toInt32 =
      types.map (fun c => (interCount shards.flatten c : Int)) :=
    map_fix toInt32 limit toInt32_eq types _ (fun c hc => lt_of_le_of_lt (inter_le_union types _ c) (hb c hc))
  have h2 : (types.map (fun c => (unionCount types shards.flatten c : Int))).map toInt32 =
      types.map (fun c => (unionCount types shards.flatten c : Int)) :=
    map_fix toInt32 limit toInt32_eq types _ hb
  rw [mergeResults, hs, h0, Option.map_some, h1, h2, results_spec]

/-- C22: measurements of another number of classes are rejected. -/
theorem merge_rejects (s : Iou) (rs : List Measurements)
    (h : ∃ r ∈ rs, r.unions.length ≠ s.types.length ∨ r.intersections.length ≠ s.types.length) :
    mergeResults s rs = none := by
  have key : ∀ acc : Measurements, rs.foldlM (fun (acc : Measurements) r =>
      if r.unions.length = s.types.length ∧ r.intersections.length = s.types.length then
        some (⟨acc.intersections.zipWith (· + ·) r.intersections, acc.unions.zipWith (· + ·) r.unions⟩ : Measurements)
      else none) acc = none := by
    induction rs with
    | nil => simp at h
    | cons r rs ih =>
      intro acc
      rw [List.foldlM_cons]
      by_cases hr : r.unions.length = s.types.length ∧ r.intersections.length = s.types.length
      · rw [if_pos hr]
        have : ∃ r ∈ rs, r.unions.length ≠ s.types.length ∨ r.intersections.length ≠ s.types.length := by
          obtain ⟨r', hr', h'⟩ := h
          rcases List.mem_cons.mp hr' with rfl | hm
          · rcases h' with h' | h'
            · exact absurd hr.1 h'
            · exact absurd hr.2 h'
          · exact ⟨r', hm, h'⟩
        exact ih this _
      · rw [if_neg hr]; rfl
  rw [mergeResults, accumulate, key]; rfl

/-- C22 fails for large data: the counts of merged shards are narrowed to 32 bits.  Two shards of 2³⁰ points of a
class, all predicted wrongly (IoU 0), merge into an IoU of 1. -/
theorem merge_overflow_violated :
    let shard : Measurements := ⟨[0], [2 ^ 30]⟩
    (results [1] [0] [2 ^ 30]).perClass = [(1, 0)] ∧
    (mergeResults ⟨[1], fun _ _ => 0⟩ [shard, shard]).map (fun m => (m.perClass, m.miou)) =
      some ([(1, 1)], some 1) := by
  refine ⟨by simp [results, ratio], ?_⟩
  simp [mergeResults, accumulate, results, ratio, mean, toInt32]

/-! ### Examples -/

example : metricsSpec [1, 2] [(1, 1), (2, 1), (3, 1), (1, 2), (1, 3), (2, 2)] =
    ⟨[(1, 1 / 4), (2, 1 / 3)], some (7 / 24), ⟨[1, 1], [4, 3]⟩⟩ := by
  decide +kernel

example : ∀ c ∈ [1, 2], unionCount [1, 2] ([[(1, 1), (2, 1)], [(3, 1), (1, 2)]] : List (List (Nat × Nat))).flatten c < limit := by
  decide +kernel

end Verif.Segmentation
