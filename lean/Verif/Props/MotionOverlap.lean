import Verif.Props.PolygonAligned
import Verif.Props.MotionFrame

/-!
C97: the test of the overlap metric, metrics/motion_metrics.cc:594-600, with the polygon routine in place of the parameter
of the model of metrics/motion_metrics.cc.
-/

namespace Verif.Motion

open Real MeasureTheory Verif.Polygon

/-- The polygon of a box, motion_metrics_utils.cc:278 and 281-285. -/
noncomputable def Box.polygon (b : Box) : Option (Poly ℝ) := ofBox (b.x, b.y) (cos b.heading, sin b.heading) b.length b.width

open Classical in
/-- `MaybeHasIntersectionWith && ComputeIntersectionArea > 0`, motion_metrics.cc:597-598. -/
noncomputable def boxesOverlap (b b' : Box) : Bool :=
  match b.polygon, b'.polygon with
  | some P, some Q => maybeIntersect P Q && decide (0 < intersectionArea P Q)
  | _, _ => false

/-- The same box as an upright box. -/
def Box.upright (b : Box) : Iou.Box := ⟨b.x, b.y, 0, b.length, b.width, 1, b.heading⟩

theorem boxesOverlap_area (b b' : Box) : boxesOverlap b b' = true ↔ 0 < Iou.polygonArea b.upright b'.upright := by
  have e : ∀ b : Box, b.upright.polygon = b.polygon := fun _ => rfl
  unfold boxesOverlap Iou.polygonArea
  rw [e, e]
  rcases b.polygon with _ | P
  · simp
  · rcases b'.polygon with _ | Q
    · simp
    · simp only [Bool.and_eq_true, decide_eq_true_eq, and_iff_right_iff_imp]
      intro h
      by_contra hm
      have hv : vertices P Q = [] := by
        unfold vertices
        rw [if_pos (by simpa using hm)]
      unfold intersectionArea at h
      rw [hv] at h
      simp at h

theorem cutOff_pos (v : ℝ) : 0 < cutOff v ↔ 1 / 10 ^ 10 < 2 * v := by
  unfold cutOff
  split_ifs with h
  · simp only [lt_self_iff_false, false_iff, not_lt]; exact h
  · push Not at h
    refine ⟨fun _ => h, fun h => ?_⟩
    have : (0 : ℝ) < 1 / 10 ^ 10 := by norm_num
    linarith

/-- **The overlap test** (C97): of boxes of positive size in general position or with the same heading it tells whether
their common area is more than 5e-11. -/
theorem boxesOverlap_partial {b b' : Box} (l1 : 0 < b.length) (w1 : 0 < b.width) (l2 : 0 < b'.length) (w2 : 0 < b'.width)
    (hg : Iou.General b.upright b'.upright ∨ (cos b'.heading = cos b.heading ∧ sin b'.heading = sin b.heading)) :
    boxesOverlap b b' = true ↔ 1 / 10 ^ 10 < 2 * volume.real (Iou.rect b.upright ∩ Iou.rect b'.upright) := by
  rw [boxesOverlap_area]
  have : Iou.polygonArea b.upright b'.upright = cutOff (volume.real (Iou.rect b.upright ∩ Iou.rect b'.upright)) := by
    rcases hg with hg | ⟨hc, hs⟩
    · exact Iou.polygonArea_eq (b1 := b.upright) (b2 := b'.upright) l1 w1 l2 w2 hg
    · exact Iou.polygonArea_aligned (b1 := b.upright) (b2 := b'.upright) l1 w1 l2 w2 hc hs
  rw [this, cutOff_pos]

/-- C97: an overlap that is found is real, and boxes that have no common inner point do not overlap. -/
theorem boxesOverlap_meet {b b' : Box} (l1 : 0 < b.length) (w1 : 0 < b.width) (l2 : 0 < b'.length) (w2 : 0 < b'.width)
    (hg : Iou.General b.upright b'.upright ∨ (cos b'.heading = cos b.heading ∧ sin b'.heading = sin b.heading))
    (h : boxesOverlap b b' = true) : (interior (Iou.rect b.upright) ∩ interior (Iou.rect b'.upright)).Nonempty := by
  rw [boxesOverlap_partial l1 w1 l2 w2 hg] at h
  by_contra hne
  have hA := Iou.rect_solid b.upright l1 w1
  have hB := Iou.rect_solid b'.upright l2 w2
  have h0 := (Iou.iouSpec_eq_zero hA hB).mpr (Set.not_nonempty_iff_eq_empty.mp hne)
  unfold Iou.iouSpec at h0
  rcases div_eq_zero_iff.mp h0 with h1 | h1
  · rw [h1] at h
    norm_num at h
  · exact absurd h1 (hA.union_pos hB).ne'

/-- C97: two objects of 4 m by 2 m that form a cross overlap. -/
theorem boxesOverlap_example : boxesOverlap ⟨0, 0, 0, 4, 2⟩ ⟨0, 0, π / 2, 4, 2⟩ = true := by
  rw [boxesOverlap_area]
  have e1 : (⟨0, 0, 0, 4, 2⟩ : Box).upright = Iou.crossBox 0 := rfl
  have e2 : (⟨0, 0, π / 2, 4, 2⟩ : Box).upright = Iou.crossBox (π / 2) := rfl
  rw [e1, e2, Iou.polygonArea_eq (by norm_num [Iou.crossBox]) (by norm_num [Iou.crossBox]) (by norm_num [Iou.crossBox])
    (by norm_num [Iou.crossBox]) Iou.general_example, Iou.cross_volume, cutOff_pos]
  norm_num

/-- **C97 fails when sides are collinear**: an object in the middle of another one that heads the other way does not
overlap with it. -/
theorem boxesOverlap_violated : boxesOverlap ⟨0, 0, 0, 1, 1⟩ ⟨0, 0, π, 2, 1⟩ = false ∧
    Iou.rect (Box.upright ⟨0, 0, 0, 1, 1⟩) ⊆ Iou.rect (Box.upright ⟨0, 0, π, 2, 1⟩) := by
  refine ⟨?_, Iou.iou_opposite_violated.2.1⟩
  rw [Bool.eq_false_iff, ne_eq, boxesOverlap_area]
  have e1 : (⟨0, 0, 0, 1, 1⟩ : Box).upright = Iou.exBox 0 0 1 := rfl
  have e2 : (⟨0, 0, π, 2, 1⟩ : Box).upright = Iou.exBox 0 π 2 := rfl
  rw [e1, e2, Iou.polygonArea_opposite]
  exact lt_irrefl _

end Verif.Motion
