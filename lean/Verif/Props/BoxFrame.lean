import Verif.Props.PolygonFrame
import Verif.Props.MotionOverlap

/-! C163 and C69: the IoU of boxes and the overlap metric with the polygon routine do not depend on the frame. -/

namespace Verif.Polygon

open Real

theorem convexPosition_box {φ l w : ℝ} (hl : 0 < l) (hw : 0 < w) (p : Pt ℝ) : ConvexPosition (boxCorners p (cos φ, sin φ) l w) := by
  have hsc := sin_sq_add_cos_sq φ
  have hlw : 0 < l * w := mul_pos hl hw
  rw [boxCorners_eq hl]
  refine ⟨by simp, fun i hi j hj h1 h2 => ?_⟩
  simp only [List.length_cons, List.length_nil, Nat.reduceAdd] at hi hj h2
  have key : ∀ x : ℝ, x = l * w * (sin φ ^ 2 + cos φ ^ 2) → 0 < x := by
    intro x hx; rw [hx, hsc]; linarith
  interval_cases i <;> interval_cases j <;> first
    | exact absurd rfl h1
    | exact absurd rfl h2
    | (unfold LeftOf
       simp only [List.length_cons, List.length_nil, Nat.reduceAdd, Nat.reduceMod, List.getD_cons_zero, List.getD_cons_succ]
       apply key
       ring)

theorem boxCorners_move {φ φ' l w θ : ℝ} {c o p p' : Pt ℝ} (hl : 0 < l) (hp : p' = move θ c o p) (h1 : cos φ' = cos (φ + θ))
    (h2 : sin φ' = sin (φ + θ)) : boxCorners p' (cos φ', sin φ') l w = (boxCorners p (cos φ, sin φ) l w).map (move θ c o) := by
  rw [boxCorners_eq hl, boxCorners_eq hl, h1, h2, hp, cos_add, sin_add]
  unfold move
  simp only [List.map_cons, List.map_nil, List.cons.injEq, and_true, Prod.mk.injEq]
  refine ⟨⟨?_, ?_⟩, ⟨?_, ?_⟩, ⟨?_, ?_⟩, ?_, ?_⟩ <;> ring

end Verif.Polygon

namespace Verif.Iou

open Real Verif.Polygon

/-- Specification: a box after the ground plane was turned by `θ` around `c` and shifted by `o`, and everything was raised by `z`. -/
noncomputable def Box.moved (b : Box) (θ : ℝ) (c o : ℝ × ℝ) (z : ℝ) : Box :=
  { b with cx := (move θ c o (b.cx, b.cy)).1, cy := (move θ c o (b.cx, b.cy)).2, cz := b.cz + z, heading := b.heading + θ }

/-- The computed area of the intersection of two boxes that are moved together, with directions written in any way. -/
theorem polygonArea_move {b1 b2 m1 m2 : Box} {θ : ℝ} {c o : ℝ × ℝ} (l1 : 0 < b1.length) (w1 : 0 < b1.width) (l2 : 0 < b2.length)
    (w2 : 0 < b2.width) (p1 : (m1.cx, m1.cy) = move θ c o (b1.cx, b1.cy)) (p2 : (m2.cx, m2.cy) = move θ c o (b2.cx, b2.cy))
    (d1 : cos m1.heading = cos (b1.heading + θ) ∧ sin m1.heading = sin (b1.heading + θ))
    (d2 : cos m2.heading = cos (b2.heading + θ) ∧ sin m2.heading = sin (b2.heading + θ))
    (s1 : m1.length = b1.length ∧ m1.width = b1.width) (s2 : m2.length = b2.length ∧ m2.width = b2.width) :
    polygonArea m1 m2 = polygonArea b1 b2 := by
  obtain ⟨P, hP, _⟩ := ofBox_ring (θ := b1.heading) l1 w1 (b1.cx, b1.cy)
  obtain ⟨Q, hQ, _⟩ := ofBox_ring (θ := b2.heading) l2 w2 (b2.cx, b2.cy)
  have cP := convexPosition_box (φ := b1.heading) l1 w1 (b1.cx, b1.cy)
  have cQ := convexPosition_box (φ := b2.heading) l2 w2 (b2.cx, b2.cy)
  obtain ⟨P', hP'⟩ := transform_isSome cP hP θ c o
  obtain ⟨Q', hQ'⟩ := transform_isSome cQ hQ θ c o
  have eP : m1.polygon = some P' := by
    unfold Box.polygon ofBox
    rw [s1.1, s1.2, boxCorners_move l1 p1 d1.1 d1.2, ← transform_build hP cP.1, hP']
  have eQ : m2.polygon = some Q' := by
    unfold Box.polygon ofBox
    rw [s2.1, s2.2, boxCorners_move l2 p2 d2.1 d2.2, ← transform_build hQ cQ.1, hQ']
  unfold polygonArea
  rw [eP, eQ, show b1.polygon = some P from hP, show b2.polygon = some Q from hQ]
  exact transform_intersection cP cQ hP hQ hP' hQ'

/-- C163: the IoU of two boxes, seen from above or in space, is the same in every frame: for all boxes, whatever their sizes and positions. -/
theorem computeIoU_move (b1 b2 : Box) (θ : ℝ) (c o : ℝ × ℝ) (z : ℝ) {t : BoxType} (ht : t ≠ .aa2d) :
    computeIoU polygonArea (b1.moved θ c o z) (b2.moved θ c o z) t = computeIoU polygonArea b1 b2 t := by
  have hk : (0 : ℝ) < kMinBoxDim := by norm_num [kMinBoxDim]
  have area : ¬ b1.length ≤ kMinBoxDim → ¬ b1.width ≤ kMinBoxDim → ¬ b2.length ≤ kMinBoxDim → ¬ b2.width ≤ kMinBoxDim →
      polygonArea (b1.moved θ c o z) (b2.moved θ c o z) = polygonArea b1 b2 := by
    intro h1 h2 h3 h4
    push Not at h1 h2 h3 h4
    exact polygonArea_move (by linarith) (by linarith) (by linarith) (by linarith) rfl rfl ⟨rfl, rfl⟩ ⟨rfl, rfl⟩ ⟨rfl, rfl⟩ ⟨rfl, rfl⟩
  have e1 : (b1.moved θ c o z).length = b1.length ∧ (b1.moved θ c o z).width = b1.width ∧ (b1.moved θ c o z).height = b1.height ∧
    (b1.moved θ c o z).cz = b1.cz + z := ⟨rfl, rfl, rfl, rfl⟩
  have e2 : (b2.moved θ c o z).length = b2.length ∧ (b2.moved θ c o z).width = b2.width ∧ (b2.moved θ c o z).height = b2.height ∧
    (b2.moved θ c o z).cz = b2.cz + z := ⟨rfl, rfl, rfl, rfl⟩
  obtain ⟨a1, a2, a3, a4⟩ := e1
  obtain ⟨c1, c2, c3, c4⟩ := e2
  unfold computeIoU
  rw [a1, a2, a3, c1, c2, c3]
  split_ifs
  · rfl
  · cases t with
    | unknown => rfl
    | aa2d => exact absurd rfl ht
    | b2d =>
      unfold iou2d
      rw [a1, a2, c1, c2]
      split_ifs with h
      · rfl
      · push Not at h
        rw [area (not_le.2 h.1) (not_le.2 h.2.1) (not_le.2 h.2.2.1) (not_le.2 h.2.2.2)]
    | b3d =>
      unfold iou3d
      rw [a1, a2, a3, c1, c2, c3, a4, c4]
      split_ifs with h
      · rfl
      · push Not at h
        rw [area (not_le.2 h.1) (not_le.2 h.2.1) (not_le.2 h.2.2.2.1) (not_le.2 h.2.2.2.2.1)]
        have hr : rangesOverlap (b1.cz + z - b1.height * (1 / 2)) (b1.cz + z + b1.height * (1 / 2)) (b2.cz + z - b2.height * (1 / 2))
            (b2.cz + z + b2.height * (1 / 2)) = (rangesOverlap (b1.cz - b1.height * (1 / 2)) (b1.cz + b1.height * (1 / 2))
              (b2.cz - b2.height * (1 / 2)) (b2.cz + b2.height * (1 / 2))).map (Option.map fun r => (r.1 + z, r.2 + z)) := by
          rw [show b1.cz + z - b1.height * (1 / 2) = b1.cz - b1.height * (1 / 2) + z by ring,
            show b1.cz + z + b1.height * (1 / 2) = b1.cz + b1.height * (1 / 2) + z by ring,
            show b2.cz + z - b2.height * (1 / 2) = b2.cz - b2.height * (1 / 2) + z by ring,
            show b2.cz + z + b2.height * (1 / 2) = b2.cz + b2.height * (1 / 2) + z by ring]
          unfold rangesOverlap
          simp only [add_le_add_iff_right, max_add_add_right, min_add_add_right]
          split_ifs <;> rfl
        rw [hr]
        rcases rangesOverlap (b1.cz - b1.height * (1 / 2)) (b1.cz + b1.height * (1 / 2))
              (b2.cz - b2.height * (1 / 2)) (b2.cz + b2.height * (1 / 2)) with _ | (_ | ⟨lo, hi⟩)
        · rfl
        · rfl
        · simp only [Option.map_some]
          rw [show hi + z - (lo + z) = hi - lo by ring]

/-- The IoU of boxes without heading depends on the frame by design: a turn changes it. -/
theorem computeIoU_move_aa : ∃ (b1 b2 : Box) (θ : ℝ),
    computeIoU polygonArea (b1.moved θ 0 0 0) (b2.moved θ 0 0 0) .aa2d ≠ computeIoU polygonArea b1 b2 .aa2d := by
  refine ⟨⟨0, 0, 0, 2, 1, 1, 0⟩, ⟨1, 0, 0, 2, 1, 1, 0⟩, π / 2, ?_⟩
  have e1 : (⟨0, 0, 0, 2, 1, 1, 0⟩ : Box).moved (π / 2) 0 0 0 = ⟨0, 0, 0, 2, 1, 1, π / 2⟩ := by
    simp [Box.moved, move]
  have e2 : (⟨1, 0, 0, 2, 1, 1, 0⟩ : Box).moved (π / 2) 0 0 0 = ⟨0, 1, 0, 2, 1, 1, π / 2⟩ := by
    simp [Box.moved, move]
  rw [e1, e2]
  norm_num [computeIoU, iouAA2d, kMaxBoxDim, kMinBoxDim, Box.toAABox, AABox.Box.intersectionArea, ratio, kEpsilon, AABox.Box.overlap, AABox.overlapAxis]

end Verif.Iou

namespace Verif.Motion

open Real Verif.Polygon

/-- A box with a positive size. -/
def Sizable (b : Box) : Prop := 0 < b.length ∧ 0 < b.width

/-- The test of the overlap metric with the polygon routine does not depend on the frame, for boxes of positive size in any position. -/
theorem boxesOverlap_frame (g : Motion) {b b' q q' : Box} (hb : Sizable b) (hb' : Sizable b') (h : SameBox q (g.box b)) (h' : SameBox q' (g.box b')) :
    boxesOverlap q q' = boxesOverlap b b' := by
  rw [Bool.eq_iff_iff, boxesOverlap_area, boxesOverlap_area]
  obtain ⟨h1, h2, h3, h4, h5⟩ := h
  obtain ⟨g1, g2, g3, g4, g5⟩ := h'
  have hm : ∀ x y : ℝ, (g.px x y, g.py x y) = move g.angle 0 (g.tx, g.ty) (x, y) := by
    intro x y
    unfold Motion.px Motion.py move
    simp only [Prod.fst_zero, Prod.snd_zero]
    ext <;> simp only <;> ring
  rw [Iou.polygonArea_move (b1 := b.upright) (b2 := b'.upright) (m1 := q.upright) (m2 := q'.upright) (θ := g.angle) (c := 0) (o := (g.tx, g.ty))
    hb.1 hb.2 hb'.1 hb'.2 (by rw [← hm]; exact Prod.ext h1 h2) (by rw [← hm]; exact Prod.ext g1 g2) h3 g3 ⟨h4, h5⟩ ⟨g4, g5⟩]

open Classical in
/-- The test, with boxes without size counted as not overlapping. -/
noncomputable def guarded (b b' : Box) : Bool := decide (Sizable b) && decide (Sizable b') && boxesOverlap b b'

theorem guarded_frameFree : FrameFree guarded := by
  classical
  intro g b b' q q' h h'
  have e : Sizable q ↔ Sizable b := by unfold Sizable; rw [h.2.2.2.1, h.2.2.2.2]; rfl
  have e' : Sizable q' ↔ Sizable b' := by unfold Sizable; rw [h'.2.2.2.1, h'.2.2.2.2]; rfl
  unfold guarded
  by_cases hb : Sizable b
  · by_cases hb' : Sizable b'
    · rw [boxesOverlap_frame g hb hb' h h', decide_eq_decide.2 e, decide_eq_decide.2 e']
    · rw [decide_eq_decide.2 e', decide_eq_false hb']; simp
  · rw [decide_eq_decide.2 e, decide_eq_false hb]; simp

/-- The predicted objects have a size at every step, and the other ones where they are valid. -/
structure HasSize (m : Tracks) (sc : Scenario) : Prop where
  predicted : ∀ e ∈ m, ∀ s ∈ e.2.states, 0 < s.length ∧ 0 < s.width
  tested : ∀ tk ∈ sc.tracks, ∀ s ∈ tk.states, s.valid = true → 0 < s.length ∧ 0 < s.width

theorem HasSize.moved {m : Tracks} {sc : Scenario} (h : HasSize m sc) (g : Motion) : HasSize (g.tracks m) (g.scenario sc) := by
  constructor
  · intro e he s hs
    obtain ⟨e0, he0, rfl⟩ := List.mem_map.1 he
    obtain ⟨s0, hs0, rfl⟩ := List.mem_map.1 hs
    exact h.predicted e0 he0 s0 hs0
  · intro tk ht s hs hv
    obtain ⟨t0, ht0, rfl⟩ := List.mem_map.1 ht
    obtain ⟨s0, hs0, rfl⟩ := List.mem_map.1 hs
    exact h.tested t0 ht0 s0 hs0 hv

theorem at'_mem {α : Type} {l : List α} {i : ℤ} {a : α} (h : at' l i = .ok a) : a ∈ l := by
  unfold at' at h
  split at h
  · simp at h
  · cases hk : l[i.toNat]? with
    | none => rw [hk] at h; simp at h
    | some q =>
      rw [hk] at h
      simp only [Except.ok.injEq] at h
      exact h ▸ List.mem_of_getElem? hk

theorem predictionBox_real {c : Cfg} {t : Traj} {k : ℤ} {tk : Track} (h : ∀ s ∈ tk.states, 0 < s.length ∧ 0 < s.width) {pb : Box}
    (hp : predictionBox c t k tk = .ok (some pb)) : Sizable pb := by
  unfold predictionBox at hp
  cases h1 : at' t.xs k with
  | error e => rw [h1] at hp; cases hp
  | ok x =>
    cases h2 : at' t.ys k with
    | error e => rw [h1, h2] at hp; cases hp
    | ok y =>
      rw [h1, h2] at hp
      simp only [bind, Except.bind] at hp
      split at hp
      · cases hp
      · cases h3 : predictedHeading t k with
        | error e => rw [h3] at hp; cases hp
        | ok hd =>
          rw [h3] at hp
          simp only at hp
          cases h4 : at' tk.states (toTrackStep c k) with
          | error e => rw [h4] at hp; cases hp
          | ok s =>
            rw [h4] at hp
            simp only [pure, Except.pure, Except.ok.injEq, Option.some.injEq] at hp
            subst hp
            exact h s (at'_mem h4)

theorem testedTracks_mem {c : Cfg} {sc : Scenario} {l : List Track} (h : testedTracks c sc = .ok l) : ∀ tk ∈ l, tk ∈ sc.tracks := by
  unfold testedTracks at h
  have key : ∀ (ts : List Track) (r : List (Track × Bool)),
      (ts.mapM fun tk => do let s ← at' tk.states c.history; pure (tk, s.valid) : Res (List (Track × Bool))) = .ok r → ∀ p ∈ r, p.1 ∈ ts := by
    intro ts
    induction ts with
    | nil => intro r hr p hp; simp only [List.mapM_nil, pure, Except.pure, Except.ok.injEq] at hr; subst hr; simp at hp
    | cons a ts ih =>
      intro r hr p hp
      rw [List.mapM_cons] at hr
      cases h1 : at' a.states c.history with
      | error e => rw [h1] at hr; cases hr
      | ok s =>
        rw [h1] at hr
        simp only [bind, Except.bind, pure, Except.pure] at hr
        split at hr
        · cases hr
        · rename_i r' hr'
          simp only [Except.ok.injEq] at hr
          subst hr
          rcases List.mem_cons.1 hp with rfl | hp
          · simp
          · exact List.mem_cons_of_mem _ (ih r' hr' p hp)
  cases hm : (sc.tracks.mapM fun tk => do let s ← at' tk.states c.history; pure (tk, s.valid) : Res (List (Track × Bool))) with
  | error e => rw [hm] at h; cases h
  | ok r =>
    rw [hm] at h
    simp only [bind, Except.bind, pure, Except.pure, Except.ok.injEq] at h
    subst h
    intro tk htk
    obtain ⟨p, hp, rfl⟩ := List.mem_map.1 htk
    exact key _ _ hm p (List.mem_filter.1 hp).1

theorem hasOverlap_guarded {m : Tracks} {sc : Scenario} (h : HasSize m sc) (c : Cfg) (step : ℤ) (mm : Multi) :
    hasOverlap guarded c step mm m sc = hasOverlap boxesOverlap c step mm m sc := by
  unfold hasOverlap
  cases ht : testedTracks c sc with
  | error e => rfl
  | ok tested =>
    simp only [bind, Except.bind]
    cases likelyIndex c mm with
    | error e => rfl
    | ok i =>
      simp only
      cases at' mm (i : ℤ) with
      | error e => rfl
      | ok j =>
        simp only
        refine anyM_congr _ fun t _ => anyM_congr _ fun k _ => ?_
        unfold overlapsStep
        cases hg : getTrack m t.id with
        | error e => rfl
        | ok tk =>
          simp only [bind, Except.bind]
          have htk : ∀ s ∈ tk.states, 0 < s.length ∧ 0 < s.width := by
            unfold getTrack at hg
            cases hf : m.find? (fun e => e.1 == t.id) with
            | none => rw [hf] at hg; cases hg
            | some e =>
              rw [hf] at hg
              simp only [Except.ok.injEq] at hg
              subst hg
              exact h.predicted e (List.mem_of_find?_eq_some hf)
          cases hp : predictionBox c t k tk with
          | error e => rfl
          | ok pb =>
            simp only
            refine anyM_congr _ fun o ho => ?_
            unfold overlapsTrack
            split
            · rfl
            · cases hs : at' o.states (toTrackStep c k) with
              | error e => rfl
              | ok s =>
                simp only [bind, Except.bind]
                split
                · rename_i hv
                  cases pb with
                  | none => rfl
                  | some pb =>
                    have r1 := predictionBox_real htk hp
                    have r2 : Sizable (stateBox s) := h.tested o (testedTracks_mem ht o ho) s (at'_mem hs) hv
                    unfold polygonsOverlap guarded
                    simp [r1, r2]
                · rfl

/-- C69 with the polygon routine of the code: whether the prediction overlaps does not depend on the world frame, if every predicted object
keeps moving and the objects have sizes. -/
theorem hasOverlap_polygon_partial (g : Motion) (c : Cfg) {m : Tracks} {sc : Scenario} (hs : HasSize m sc) {mm : Multi}
    (h : ∀ j ∈ mm, ∀ t ∈ j.trajs, Moving t) (step : ℤ) :
    hasOverlap boxesOverlap c step (g.multi mm) (g.tracks m) (g.scenario sc) = hasOverlap boxesOverlap c step mm m sc := by
  rw [← hasOverlap_guarded hs, ← hasOverlap_guarded (hs.moved g), hasOverlap_moved_partial guarded_frameFree g c m sc h]

/-- C69 with the polygon routine of the code: every statistic. -/
theorem stepStats_polygon_partial (g : Motion) (c : Cfg) {m : Tracks} {s : Scenario} (hs : HasSize m s) {mm : Multi}
    (h : ∀ j ∈ mm, ∀ t ∈ j.trajs, Moving t) (sc : StepCfg) :
    stepStats boxesOverlap c (g.tracks m) (g.scenario s) (g.multi mm) sc = stepStats boxesOverlap c m s mm sc := by
  have hp : Paired mm := fun j hj t ht => (h j hj t ht).paired
  unfold stepStats overlapRate
  rw [minDisplacement_moved g c m hp, minDisplacement_moved g c m hp, missRate_moved g c m sc hp,
    hasOverlap_polygon_partial g c hs h, mapStats_moved g c m sc hp, mapStats_moved g c m sc hp]

end Verif.Motion
