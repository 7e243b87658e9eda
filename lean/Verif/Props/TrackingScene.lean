import Verif.Props.Tracking

/-!
C120 and C121: the tracking measurements of a scene, with the speeds of its predictions, and the tracking metrics of
several scenes.
-/

namespace Verif.Tracking

open Verif.Breakdown Verif.Detection Verif.Measure

variable {O ι : Type}

/-! ### Speeds -/

theorem argmin_fold (l : List ℚ) : ∀ (pre : List ℚ) (best : Nat × ℚ), pre[best.1]? = some best.2 →
    (∀ v ∈ pre, best.2 ≤ v) → (∀ j v, j < best.1 → pre[j]? = some v → best.2 < v) →
    let r := (l.zipIdx pre.length).foldl argminStep best
    (pre ++ l)[r.1]? = some r.2 ∧ (∀ v ∈ pre ++ l, r.2 ≤ v) ∧ ∀ j v, j < r.1 → (pre ++ l)[j]? = some v → r.2 < v := by
  induction l with
  | nil => intro pre best h1 h2 h3; simpa using ⟨h1, h2, h3⟩
  | cons a l ih =>
    intro pre best h1 h2 h3
    have hb := (List.getElem?_eq_some_iff.mp h1).1
    have key := ih (pre ++ [a]) (argminStep best (a, pre.length)) ?_ ?_ ?_
    · simp only [List.length_append, List.length_singleton, List.append_assoc, List.singleton_append] at key
      rw [List.zipIdx_cons, List.foldl_cons]
      exact key
    · unfold argminStep
      split_ifs with h
      · simp
      · rw [List.getElem?_append_left hb]; exact h1
    · intro v hv
      unfold argminStep
      split_ifs with h
      · rcases List.mem_append.mp hv with hv | hv
        · exact le_of_lt (lt_of_lt_of_le h (h2 v hv))
        · exact le_of_eq (List.mem_singleton.mp hv).symm
      · rcases List.mem_append.mp hv with hv | hv
        · exact h2 v hv
        · rw [List.mem_singleton.mp hv]; exact not_lt.mp h
    · intro j v hj hv
      unfold argminStep at hj ⊢
      split_ifs at hj ⊢ with h
      · simp only at hj
        rw [List.getElem?_append_left hj] at hv
        exact lt_of_lt_of_le h (h2 v (List.mem_of_getElem? hv))
      · rw [List.getElem?_append_left (by omega)] at hv
        exact h3 j v hj hv

/-- `Argmin` is the first position of the least number. -/
theorem argmin_spec (l : List ℚ) (h : l ≠ []) : ∃ j v, argmin l = some j ∧ l[j]? = some v ∧ (∀ w ∈ l, v ≤ w) ∧
    ∀ i w, i < j → l[i]? = some w → v < w := by
  cases l with
  | nil => exact absurd rfl h
  | cons a l =>
    have := argmin_fold l [a] (0, a) rfl (by simp) (by simp)
    simp only [List.length_singleton, List.singleton_append] at this
    exact ⟨_, _, rfl, this⟩

/-- Specification: the squared distance of two centres. -/
def dist2 (a b : ℚ × ℚ × ℚ) : ℚ := (a.1 - b.1) ^ 2 + (a.2.1 - b.2.1) ^ 2 + (a.2.2 - b.2.2) ^ 2

/-- Specification: `v` is the speed of the first of the ground truths that are nearest to `p` (zero if it has none),
and zero if there is no ground truth. -/
def SpeedOf (M : Motion O) (gts : List (Item O ι)) (p : Item O ι) (v : ℚ × ℚ) : Prop :=
  (gts = [] ∧ v = (0, 0)) ∨ ∃ (j : Nat) (g : Item O ι), gts[j]? = some g ∧ v = (M.speed g.core).getD (0, 0) ∧
    (∀ g' ∈ gts, dist2 (M.center p.core) (M.center g.core) ≤ dist2 (M.center p.core) (M.center g'.core)) ∧
    ∀ (i : Nat) (g' : Item O ι), i < j → gts[i]? = some g' →
      dist2 (M.center p.core) (M.center g.core) < dist2 (M.center p.core) (M.center g'.core)

/-- Specification: a prediction is given the speed `SpeedOf` and is otherwise unchanged. -/
def Sped (M : Motion O) (gts : List (Item O ι)) (p q : Item O ι) : Prop :=
  ∃ v, SpeedOf M gts p v ∧ q.core = M.setSpeed v p.core ∧ q.id = p.id ∧ q.score = p.score ∧ q.nlz = p.nlz ∧
    q.level = p.level

theorem distance2_eq (a b : ℚ × ℚ × ℚ) : distance2 a b = dist2 a b := by
  unfold distance2 dist2; ring

theorem estimateSpeed_spec (M : Motion O) (pds gts : List (Item O ι)) :
    ∃ r, estimateSpeed M pds gts = some r ∧ List.Forall₂ (Sped M gts) pds r := by
  unfold estimateSpeed
  cases gts with
  | nil =>
    refine ⟨_, by rw [List.isEmpty_nil, if_pos rfl], ?_⟩
    rw [List.forall₂_map_right_iff, List.forall₂_same]
    exact fun p _ => ⟨(0, 0), Or.inl ⟨rfl, rfl⟩, rfl, rfl, rfl, rfl, rfl⟩
  | cons g0 gs =>
    simp only [List.isEmpty_cons, Bool.false_eq_true, if_false]
    apply mapM_exists
    intro p _
    obtain ⟨j, v, a1, a2, a3, a4⟩ := argmin_spec
      ((g0 :: gs).map fun g => distance2 (M.center p.core) (M.center g.core)) (by simp)
    rw [List.getElem?_map] at a2
    cases hg : (g0 :: gs)[j]? with
    | none => rw [hg] at a2; cases a2
    | some g =>
      rw [hg, Option.map_some, Option.some.injEq] at a2
      subst a2
      refine ⟨{ p with core := M.setSpeed ((M.speed g.core).getD (0, 0)) p.core },
        by rw [a1]; simp only [Option.bind_eq_bind, Option.bind_some, hg]; rfl,
        (M.speed g.core).getD (0, 0), Or.inr ⟨j, g, hg, rfl, ?_, ?_⟩, rfl, rfl, rfl, rfl, rfl⟩
      · intro g' hg'
        rw [← distance2_eq, ← distance2_eq]
        exact a3 _ (List.mem_map.mpr ⟨g', hg', rfl⟩)
      · intro i g' hi hg'
        rw [← distance2_eq, ← distance2_eq]
        exact a4 i _ hi (by rw [List.getElem?_map, hg']; rfl)

/-- Specification: whether speeds are estimated: the velocity breakdown (7) is configured and the first prediction of
the first frame has no speed. -/
def Estimates (M : Motion O) (c : Config O) (xs : List (Frame O ι)) : Prop :=
  (∃ g ∈ c.generators, g.1 = 7) ∧ ∃ x p, xs.head? = some x ∧ x.preds.head? = some p ∧ M.speed p.core = none

/-- Specification: the frames that are evaluated. -/
def Prepared (M : Motion O) (c : Config O) (xs ys : List (Frame O ι)) : Prop :=
  (Estimates M c xs ∧ List.Forall₂ (fun x y => List.Forall₂ (Sped M x.gts) x.preds y.preds ∧ y.gts = x.gts ∧
    y.canMatch = x.canMatch ∧ y.iou = x.iou ∧ y.doMatch = x.doMatch) xs ys) ∨ (¬ Estimates M c xs ∧ ys = xs)

theorem needSpeed_iff (M : Motion O) (c : Config O) (xs : List (Frame O ι)) :
    needSpeed M c xs = true ↔ Estimates M c xs := by
  unfold needSpeed Estimates hasVelocity
  rw [Bool.and_eq_true, List.any_eq_true]
  refine and_congr (by simp) ?_
  cases xs with
  | nil => simp
  | cons x xs =>
    cases hx : x.preds with
    | nil => simp [hx]
    | cons p ps => simp [hx]

theorem prepared_spec (M : Motion O) (c : Config O) (xs : List (Frame O ι)) :
    ∃ ys, prepared M c xs = some ys ∧ Prepared M c xs ys := by
  unfold prepared
  by_cases h : needSpeed M c xs = true
  · rw [if_pos h]
    obtain ⟨ys, y1, y2⟩ := mapM_exists
      (fun x : Frame O ι => (estimateSpeed M x.preds x.gts).map fun ps => { x with preds := ps })
      (fun x y => List.Forall₂ (Sped M x.gts) x.preds y.preds ∧ y.gts = x.gts ∧
        y.canMatch = x.canMatch ∧ y.iou = x.iou ∧ y.doMatch = x.doMatch) xs (by
        intro x _
        obtain ⟨r, r1, r2⟩ := estimateSpeed_spec M x.preds x.gts
        exact ⟨{ x with preds := r }, by rw [r1]; rfl, r2, rfl, rfl, rfl, rfl⟩)
    exact ⟨ys, y1, Or.inl ⟨(needSpeed_iff M c xs).mp h, y2⟩⟩
  · rw [if_neg h]
    exact ⟨xs, rfl, Or.inr ⟨fun e => h ((needSpeed_iff M c xs).mpr e), rfl⟩⟩

/-- The generators also place predictions whose speed has been set. -/
def SpeedSafe (M : Motion O) (c : Config O) (xs : List (Frame O ι)) : Prop :=
  ∀ x ∈ xs, ∀ p ∈ x.preds, ∀ g ∈ c.generators, ∀ v, Placed g.2 (M.setSpeed v p.core)

theorem prepared_usable {M : Motion O} {c : Config O} {xs ys : List (Frame O ι)} (h : SceneUsable c xs)
    (hs : SpeedSafe M c xs) (hp : Prepared M c xs ys) : SceneUsable c ys ∧ ys.length = xs.length := by
  rcases hp with ⟨-, hp⟩ | ⟨-, rfl⟩
  · refine ⟨⟨h.levels, ?_⟩, hp.length_eq.symm⟩
    refine forall₂_mem_right (Q := FrameUsable c) hp ?_
    rintro x hx y ⟨h1, h2, h3, h4, h5⟩
    have hf := h.frames x hx
    have hl := h1.length_eq
    refine ⟨?_, ?_, ?_, ?_, ?_, ?_⟩
    · intro g hg
      refine forall₂_mem_right (Q := fun p : Item O ι => Placed g.2 p.core) h1 ?_
      rintro p hp q ⟨v, -, q1, -⟩
      rw [q1]
      exact hs x hx p hp g hg v
    · rw [h2]; exact hf.gts
    · rw [h2]; exact hf.ids
    · rw [h2, h3, ← hl]; exact hf.can
    · rw [h2, h4, ← hl]; exact hf.iou
    · rw [h2, h3, h5, ← hl]; exact hf.doMatch
  · exact ⟨h, rfl⟩

/-! ### The measurements of a scene -/

variable [DecidableEq ι]

/-- C120: the tracking evaluation of a usable scene never aborts, whatever the iteration orders of its hash
containers, and returns, in the order of the breakdown names and levels, for each score cutoff what multi object
tracking yields on the frames restricted to the objects of the shard and the predictions that reach the cutoff. -/
theorem scene_spec (M : Motion O) {c : Config O} {xs : List (Frame O ι)} (h : SceneUsable c xs)
    (hs : SpeedSafe M c xs) (hne : xs ≠ []) (H : Orders) :
    ∃ ys per, Prepared M c xs ys ∧ computeMeasurements M c H xs = some per.flatten ∧
      List.Forall₂ (fun k r => ShardOk c ys k.1 k.2.1 k.2.2 r) (shardList c) per := by
  obtain ⟨ys, y1, y2⟩ := prepared_spec M c xs
  obtain ⟨hu, hl⟩ := prepared_usable h hs y2
  have hne' : ys ≠ [] := by
    intro e; rw [e] at hl; exact hne (List.length_eq_zero_iff.mp hl.symm)
  obtain ⟨subs, per, s1, s2, s3, s4⟩ := evaluate_spec hu hne' H
  refine ⟨ys, per, y2, ?_, s4⟩
  unfold computeMeasurements
  simp only [y1, s1, Option.bind_eq_bind, Option.bind_some]
  rw [if_pos s2, s3]
  rfl

/-- C120: a scene without frames has no measurements. -/
theorem scene_empty (M : Motion O) (c : Config O) (H : Orders) : computeMeasurements M c H ([] : List (Frame O ι)) = some [] := by
  have : needSpeed M c ([] : List (Frame O ι)) = false := by simp [needSpeed]
  simp [computeMeasurements, prepared, this, numShardsOf]

/-- Specification: the breakdowns of a configuration, in the documented order, each with all cutoffs. -/
def trackingShape (c : Config O) : List (Measure.Breakdown × List ℚ) :=
  c.generators.zipIdx.flatMap fun g => (List.range g.1.2.numShards).flatMap fun s =>
    (Detection.levelsOf c g.2).map fun l => (⟨g.1.1, s, l⟩, c.cutoffs)

/-- C120: the shape of the measurements depends on the configuration only. -/
theorem scene_shape (M : Motion O) {c : Config O} {xs : List (Frame O ι)} (h : SceneUsable c xs)
    (hs : SpeedSafe M c xs) (hne : xs ≠ []) (hc : c.cutoffs ≠ []) (H : Orders) :
    ∃ v, computeMeasurements M c H xs = some v ∧ shape Trk.cutoff (v.map strip) = trackingShape c ∧
      WellFormed (fun _ => True) (v.map strip) := by
  obtain ⟨ys, per, -, h1, h2⟩ := scene_spec M h hs hne H
  refine ⟨_, h1, ?_, ?_⟩
  · unfold shape
    rw [List.map_map]
    rw [forall₂_flatten_map (fun k r => ShardOk c ys k.1 k.2.1 k.2.2 r) _
      (fun k : Nat × (Nat × Gen O) × Nat => (Detection.levelsOf c k.1).map fun l =>
        ((⟨k.2.1.1, k.2.2, l⟩ : Measure.Breakdown), c.cutoffs)) (shardList c) per h2]
    · unfold shardList trackingShape
      rw [List.flatMap_assoc]
      apply List.flatMap_congr
      intro e _
      rw [List.flatMap_map]
    · intro k r hr
      apply forall₂_map_eq
      refine hr.imp ?_
      rintro l q ⟨q1, q2⟩
      simp only [Function.comp, strip, q1, List.map_map]
      rw [forall₂_map_eq (Trk.cutoff ∘ Prod.fst) id c.cutoffs q.items (q2.imp fun _ _ w => w.1), List.map_id]
  · intro g hg
    obtain ⟨g', hg', rfl⟩ := List.mem_map.mp hg
    rw [List.mem_flatten] at hg'
    obtain ⟨r, hr, hg'⟩ := hg'
    obtain ⟨k, -, hk⟩ := exists_of_forall₂_right h2 r hr
    obtain ⟨l, -, -, hl⟩ := exists_of_forall₂_right hk g' hg'
    refine ⟨?_, fun _ _ => trivial⟩
    intro hnil
    have hnil : g'.items = [] := by simpa [strip] using hnil
    rw [hnil] at hl
    exact hc (by simpa using hl.length_eq)

/-- C120: every measurement of a usable scene is plausible: matches and misses add up to the ground truths, no counter
is negative, and the matching cost is at most the number of matches. -/
theorem scene_totals (M : Motion O) {c : Config O} {xs : List (Frame O ι)} (h : SceneUsable c xs)
    (hs : SpeedSafe M c xs) (hne : xs ≠ []) (H : Orders) :
    ∃ v, computeMeasurements M c H xs = some v ∧ ∀ g ∈ v, ∀ m ∈ g.items,
      m.1.matches_ + m.1.misses = m.1.objects ∧ 0 ≤ m.1.misses ∧ 0 ≤ m.1.fps ∧ 0 ≤ m.1.mismatches ∧ 0 ≤ m.1.cost ∧
        m.1.cost ≤ m.1.matches_ := by
  obtain ⟨ys, per, -, h1, h2⟩ := scene_spec M h hs hne H
  refine ⟨_, h1, ?_⟩
  intro g hg m hm
  rw [List.mem_flatten] at hg
  obtain ⟨r, hr, hg⟩ := hg
  obtain ⟨k, -, hk⟩ := exists_of_forall₂_right h2 r hr
  obtain ⟨l, -, -, hl⟩ := exists_of_forall₂_right hk g hg
  obtain ⟨q, -, -, ins, Ns, st, -, hu, -, ⟨hs, e1, e2⟩, e3, -⟩ := exists_of_forall₂_right hl m hm
  obtain ⟨st', r1, r2⟩ := Mot.run_totals l c.details hs (by
    intro f hf
    exact hu _ (by rw [← e1]; exact List.mem_map.mpr ⟨f, hf, rfl⟩))
  rw [e2] at r1
  cases r1
  rw [e3]
  exact r2

/-! ### The metrics of several scenes -/

theorem merge_nil (m : List (Measure.Group Trk)) : mergeVecTrk [] m = some m := by
  unfold mergeVecTrk
  cases m <;> simp

theorem merge_skips_empty (fs : List (List (Measure.Group Trk))) :
    mergeAllTrk fs = mergeAllTrk (fs.filter fun f => !f.isEmpty) := by
  unfold mergeAllTrk
  generalize ([] : List (Measure.Group Trk)) = m
  induction fs generalizing m with
  | nil => rfl
  | cons f fs ih =>
    cases f with
    | nil =>
      rw [List.foldlM_cons, merge_nil]
      simpa using ih m
    | cons g f =>
      rw [List.filter_cons_of_pos (by simp), List.foldlM_cons, List.foldlM_cons]
      congr 1
      funext m'
      exact ih m'

theorem countsAt_nil (i j : Nat) : countsAt Trk.counts [] i j = 0 := by simp [countsAt, entry]

theorem sum_filter_nonempty (fs : List (List (Measure.Group Trk))) (i j : Nat) :
    ((fs.filter fun f => !f.isEmpty).map fun f => countsAt Trk.counts f i j).sum =
      (fs.map fun f => countsAt Trk.counts f i j).sum := by
  induction fs with
  | nil => rfl
  | cons f fs ih =>
    cases f with
    | nil => simp only [List.filter_cons, List.isEmpty_nil, Bool.not_true, Bool.false_eq_true, if_false, List.map_cons,
        List.sum_cons, countsAt_nil, zero_add, ih]
    | cons g f => simp only [List.filter_cons, List.isEmpty_cons, Bool.not_false, if_true, List.map_cons, List.sum_cons, ih]

/-- Merging measurements of scenes, some of which may be empty. -/
theorem merge_all (S : List (Measure.Breakdown × List ℚ)) (fs : List (List (Measure.Group Trk)))
    (h : ∀ f ∈ fs, f ≠ [] → WellFormed (fun _ => True) f ∧ shape Trk.cutoff f = S) :
    ∃ v, mergeAllTrk fs = some v ∧ (shape Trk.cutoff v = if ∀ f ∈ fs, f = [] then [] else S) ∧
      ∀ i j, countsAt Trk.counts v i j = (fs.map fun f => countsAt Trk.counts f i j).sum := by
  rw [merge_skips_empty]
  by_cases hall : ∀ f ∈ fs, f = []
  · have he : fs.filter (fun f => !f.isEmpty) = [] := by
      rw [List.filter_eq_nil_iff]
      intro f hf; rw [hall f hf]; simp
    refine ⟨[], by rw [he]; rfl, by simp only [if_pos hall]; rfl, ?_⟩
    intro i j
    rw [← sum_filter_nonempty, he]
    exact countsAt_nil i j
  · have hne : fs.filter (fun f => !f.isEmpty) ≠ [] := by
      intro e
      apply hall
      intro f hf
      by_contra hn
      have : f ∈ fs.filter fun f => !f.isEmpty := List.mem_filter.mpr ⟨hf, by
        cases f with
        | nil => exact absurd rfl hn
        | cons => rfl⟩
      rw [e] at this
      cases this
    obtain ⟨v, v1, v2, v3⟩ := tracking_accumulates S _ hne (by
      intro f hf
      obtain ⟨hf, hn⟩ := List.mem_filter.mp hf
      have hn : f ≠ [] := by rintro rfl; simp at hn
      exact ⟨hn, (h f hf hn).1, (h f hf hn).2⟩)
    refine ⟨v, v1, by rw [if_neg hall]; exact (v2 v (by simp)).2.2, ?_⟩
    intro i j
    rw [v3, sum_filter_nonempty]

/-- Usable scenes: each frame is usable, and there may be scenes without frames. -/
def AllUsable (M : Motion O) (c : Config O) (scenes : List (List (Frame O ι))) : Prop :=
  ∀ xs ∈ scenes, SceneUsable c xs ∧ SpeedSafe M c xs

theorem scene_any (M : Motion O) {c : Config O} {xs : List (Frame O ι)} (h : SceneUsable c xs)
    (hs : SpeedSafe M c xs) (hc : c.cutoffs ≠ []) (H : Orders) :
    ∃ v, computeMeasurements M c H xs = some v ∧
      ((xs = [] ∧ v = []) ∨ (xs ≠ [] ∧ shape Trk.cutoff (v.map strip) = trackingShape c ∧ WellFormed (fun _ => True) (v.map strip))) := by
  by_cases hne : xs = []
  · subst hne
    exact ⟨[], scene_empty M c H, Or.inl ⟨rfl, rfl⟩⟩
  · obtain ⟨v, v1, v2, v3⟩ := scene_shape M h hs hne hc H
    exact ⟨v, v1, Or.inr ⟨hne, v2, v3⟩⟩

/-- C120: the metrics of any usable scenes: the counters of each breakdown, level and cutoff are summed over the
scenes, and the metrics of a breakdown are those of its sums. -/
theorem metrics_spec (M : Motion O) {c : Config O} (desired : Nat) {scenes : List (List (Frame O ι))} {k : List ℚ}
    (hk : usedCutoffs c desired scenes = some k) (hk0 : k ≠ []) (h : AllUsable M { c with cutoffs := k } scenes)
    (hne : ∃ xs ∈ scenes, xs ≠ []) (H : Nat → Orders) :
    ∃ fs v, List.Forall₂ (fun (e : List (Frame O ι) × Nat) f =>
        computeMeasurements M { c with cutoffs := k } (H e.2) e.1 = some f) scenes.zipIdx fs ∧
      computeMetrics M c desired H scenes = some (v.map fun g => (g.breakdown, toTrkMetrics g.items)) ∧
      shape Trk.cutoff v = trackingShape { c with cutoffs := k } ∧
      ∀ i j, countsAt Trk.counts v i j = (fs.map fun f => countsAt Trk.counts (f.map strip) i j).sum := by
  let c' : Config O := { c with cutoffs := k }
  obtain ⟨fs, f1, f2⟩ := mapM_exists (fun e : List (Frame O ι) × Nat => computeMeasurements M c' (H e.2) e.1)
    (fun e v => computeMeasurements M c' (H e.2) e.1 = some v ∧ ((e.1 = [] ∧ v = []) ∨ (e.1 ≠ [] ∧
      shape Trk.cutoff (v.map strip) = trackingShape c' ∧ WellFormed (fun _ => True) (v.map strip)))) scenes.zipIdx (by
      rintro ⟨xs, i⟩ he
      have hm := List.mem_of_getElem? (List.mem_zipIdx_iff_getElem?.mp he)
      obtain ⟨v, v1, v2⟩ := scene_any M (h xs hm).1 (h xs hm).2 hk0 (H i)
      exact ⟨v, v1, v1, v2⟩)
  obtain ⟨v, v1, v2, v3⟩ := merge_all (trackingShape c') (fs.map fun f => f.map strip) (by
    intro f hf hn
    obtain ⟨f', hf', rfl⟩ := List.mem_map.mp hf
    obtain ⟨e, -, -, he⟩ := exists_of_forall₂_right f2 f' hf'
    rcases he with ⟨-, rfl⟩ | ⟨-, h2, h3⟩
    · exact absurd rfl hn
    · exact ⟨h3, h2⟩)
  refine ⟨fs, v, f2.imp fun _ _ q => q.1, ?_, ?_, ?_⟩
  · unfold computeMetrics metricsOf
    rw [hk]
    simp only [Option.bind_eq_bind, Option.bind_some]
    rw [f1]
    simp only [Option.bind_some, v1, Option.map_some]
  · by_cases hS : trackingShape c' = []
    · rw [v2]; split_ifs
      · exact hS.symm
      · rfl
    · rw [v2, if_neg]
      intro hall
      obtain ⟨xs, hxs, hxn⟩ := hne
      obtain ⟨i, hi⟩ := List.getElem?_of_mem hxs
      have hz : (xs, i) ∈ scenes.zipIdx := List.mem_zipIdx_iff_getElem?.mpr hi
      obtain ⟨n, hn⟩ := List.getElem?_of_mem hz
      obtain ⟨hn1, hn2⟩ := List.getElem?_eq_some_iff.mp hn
      have hn3 : n < fs.length := by rw [← f2.length_eq]; exact hn1
      have := f2.get hn1 hn3
      rw [List.get_eq_getElem, List.get_eq_getElem, hn2] at this
      rcases this.2 with ⟨h1, -⟩ | ⟨-, h2, -⟩
      · exact hxn h1
      · have h0 := hall (fs[n].map strip) (List.mem_map.mpr ⟨_, List.getElem_mem hn3, rfl⟩)
        rw [h0] at h2
        exact hS h2.symm
  · intro i j
    rw [v3, List.map_map]
    rfl

/-! ### C121: speeds -/

/-- C121 as documented: a prediction without a speed is given that of the nearest ground truth of its frame, and a
prediction with a speed keeps it. -/
def SpeedRule (M : Motion O) (xs ys : List (Frame O ι)) : Prop :=
  List.Forall₂ (fun x y => List.Forall₂ (fun p q =>
    if M.speed p.core = none then Sped M x.gts p q else q = p) x.preds y.preds) xs ys

omit [DecidableEq ι] in
/-- C121, the part that holds: the rule is followed if the velocity breakdown is configured and either no prediction has
a speed and the first frame has a prediction, or all predictions have speeds. -/
theorem speed_rule_partial (M : Motion O) (c : Config O) (xs ys : List (Frame O ι)) (hv : ∃ g ∈ c.generators, g.1 = 7)
    (hp : prepared M c xs = some ys)
    (h : ((∃ x, xs.head? = some x ∧ x.preds ≠ []) ∧ ∀ x ∈ xs, ∀ p ∈ x.preds, M.speed p.core = none) ∨
      ∀ x ∈ xs, ∀ p ∈ x.preds, M.speed p.core ≠ none) : SpeedRule M xs ys := by
  obtain ⟨ys', y1, y2⟩ := prepared_spec M c xs
  rw [hp] at y1
  cases y1
  have same : ∀ {α : Type} {R : α → α → Prop} (l : List α), (∀ a ∈ l, R a a) → List.Forall₂ R l l :=
    fun l hl => List.forall₂_same.mpr hl
  have mono : ∀ {α β : Type} {R S : α → β → Prop} {l : List α} {r : List β}, List.Forall₂ R l r →
      (∀ a ∈ l, ∀ b, R a b → S a b) → List.Forall₂ S l r := by
    intro α β R S l r hR
    induction hR with
    | nil => intro _; exact List.Forall₂.nil
    | cons h1 _ ih =>
      intro hS
      exact List.Forall₂.cons (hS _ (by simp) _ h1) (ih fun a ha => hS a (by simp [ha]))
  rcases h with ⟨⟨x, hx, hxp⟩, hn⟩ | hn
  · have he : Estimates M c xs := by
      refine ⟨hv, x, ?_⟩
      cases hp' : x.preds with
      | nil => exact absurd hp' hxp
      | cons p ps =>
        exact ⟨p, hx, rfl, hn x (List.mem_of_mem_head? hx) p (by rw [hp']; simp)⟩
    rcases y2 with ⟨-, y2⟩ | ⟨hne, -⟩
    · refine mono y2 ?_
      rintro x hx y ⟨h1, -⟩
      refine mono h1 ?_
      intro p hp q hq
      rw [if_pos (hn x hx p hp)]
      exact hq
    · exact absurd he hne
  · have he : ¬ Estimates M c xs := by
      rintro ⟨-, x, p, hx, hp, h0⟩
      exact hn x (List.mem_of_mem_head? hx) p (List.mem_of_mem_head? hp) h0
    rcases y2 with ⟨he', -⟩ | ⟨-, rfl⟩
    · exact absurd he' he
    · refine same _ fun x hx => same _ fun p hp => ?_
      rw [if_neg (hn x hx p hp)]

/-! ### Examples -/

/-- The identity order. -/
def idOrder : Mot.HashOrder := ⟨fun l => l, fun l => List.Perm.refl l⟩

/-- An object with a position on a line and perhaps a speed. -/
abbrev Thing := ℚ × Option (ℚ × ℚ)

def thingMotion : Motion Thing := ⟨fun o => (o.1, 0, 0), Prod.snd, fun v o => (o.1, some v)⟩

/-- Shard 0 are the stationary objects, shard 1 the moving ones. -/
def byMotion : Gen Thing :=
  ⟨2, fun o => some (if (o.2.getD (0, 0)).1 = 0 then 0 else 1), fun _ => some [0, 1], true⟩

def demoConfig : Config Thing := { generators := [(7, byMotion)], levels := [[2]], cutoffs := [0] }

/-- Matches the first prediction with the first ground truth. -/
def firstMatch (ps gs : List Nat) : List (Option Nat) × List (Option Nat) :=
  ((List.range ps.length).map fun i => if i = 0 ∧ 0 < gs.length then some 0 else none,
   (List.range gs.length).map fun j => if j = 0 ∧ 0 < ps.length then some 0 else none)

/-- A frame of objects on a line; all pairs overlap completely. -/
def demoFrame (ps gs : List (Item Thing Nat)) : Frame Thing Nat :=
  ⟨ps, gs, fun _ _ => some true, fun _ _ => some 1, fun ps gs => some (firstMatch ps gs)⟩

/-- A frame with a prediction without a speed on a moving ground truth. -/
def moving : Frame Thing Nat := demoFrame [⟨(1, none), 7, 1, false, 0⟩] [⟨(1, some (5, 0)), 8, 0, false, 1⟩]

theorem getElem?_rangeMap {α : Type} (n i : Nat) (f : Nat → α) :
    ((List.range n).map f)[i]? = if i < n then some (f i) else none := by
  rw [List.getElem?_map]
  split_ifs with h
  · rw [List.getElem?_range h]; rfl
  · rw [List.getElem?_eq_none (by simpa using h)]; rfl

theorem demoFrame_usable (ps gs : List (Item Thing Nat)) (h : (gs.map Item.id).Nodup) :
    FrameUsable demoConfig (demoFrame ps gs) := by
  have hp : ∀ g ∈ demoConfig.generators, ∀ o : Thing, Placed g.2 o := by
    intro g hg o
    obtain rfl := List.mem_singleton.mp hg
    refine ⟨_, rfl, ?_⟩
    show (if (o.2.getD (0, 0)).1 = 0 then (0 : ℤ) else 1) < ((2 : Nat) : ℤ)
    split_ifs <;> decide
  refine ⟨fun g hg p _ => hp g hg _, fun g hg p _ => hp g hg _, h, fun _ _ _ _ => rfl,
    fun _ _ _ _ => ⟨1, rfl, by norm_num, le_refl _⟩, ?_⟩
  intro ps' gs' _ _
  refine ⟨_, _, rfl, by simp, by simp, ?_, ?_⟩
  · intro i j
    simp only [getElem?_rangeMap]
    grind
  · intro i j hij
    simp only [getElem?_rangeMap] at hij
    split_ifs at hij with h1 h2
    · obtain ⟨rfl, h2⟩ := h2
      obtain rfl := Option.some.inj (Option.some.inj hij)
      exact ⟨_, _, List.getElem?_eq_getElem h1, List.getElem?_eq_getElem h2, rfl⟩
    · cases Option.some.inj hij

/-- The hypotheses of `scene_spec` are met by two frames with estimated speeds. -/
example : SceneUsable demoConfig [moving, moving] ∧ SpeedSafe thingMotion demoConfig [moving, moving] ∧
    Estimates thingMotion demoConfig [moving, moving] := by
  refine ⟨⟨rfl, ?_⟩, ?_, ⟨_, List.mem_singleton.mpr rfl, rfl⟩, moving, _, rfl, rfl, rfl⟩
  · intro x hx
    have : x = moving := by simpa using hx
    subst this
    exact demoFrame_usable _ _ (by decide)
  · intro x hx p hp g hg v
    obtain rfl := List.mem_singleton.mp hg
    refine ⟨_, rfl, ?_⟩
    show (if ((thingMotion.setSpeed v p.core).2.getD (0, 0)).1 = 0 then (0 : ℤ) else 1) < ((2 : Nat) : ℤ)
    split_ifs <;> decide

/-- The matches, misses, false positives and ground truths of each shard of a scene. -/
def summary (xs : List (Frame Thing Nat)) : Option (List (Nat × List (List ℤ))) :=
  (computeMeasurements thingMotion demoConfig (fun _ _ _ _ => idOrder) xs).map fun v =>
    v.map fun g => (g.breakdown.shard, g.items.map fun m => [m.1.matches_, m.1.misses, m.1.fps, m.1.objects])

/-- Two frames of a moving object: both predictions are matched in the shard of moving objects. -/
example : summary [moving, moving] = some [(0, [[0, 0, 0, 0]]), (1, [[2, 0, 0, 2]])] := by decide +kernel

/-- C121 is false of the code: if the first frame has no prediction no speed is estimated, so the same prediction counts
as stationary, a false positive there, and its ground truth is missed among the moving objects
(tracking_metrics.cc:205-207). -/
theorem speed_rule_first_frame_violated :
    summary [demoFrame [] [], moving] = some [(0, [[0, 0, 1, 0]]), (1, [[0, 1, 0, 1]])] ∧
    summary [moving] = some [(0, [[0, 0, 0, 0]]), (1, [[1, 0, 0, 1]])] := by decide +kernel

/-- C121 is false of the code: if the first prediction has no speed, the speeds that other predictions have are
replaced. -/
theorem speed_rule_overwrites_violated :
    ∃ ys y q, prepared thingMotion demoConfig [moving, demoFrame [⟨(1, some (3, 0)), 7, 1, false, 0⟩] []] = some ys ∧
      ys[1]? = some y ∧ y.preds[0]? = some q ∧ q.core.2 = some (0, 0) := by
  exact ⟨_, _, _, rfl, rfl, rfl, rfl⟩

end Verif.Tracking
