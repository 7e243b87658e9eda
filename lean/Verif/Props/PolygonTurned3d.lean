import Verif.Props.PolygonTurned

/-! C222 for upright boxes: in every position whose headings differ by right angles the IoU is exact or, in the one kind of position
that is missed, found to be zero. -/

namespace Verif.Iou

open Real MeasureTheory Set Verif.Polygon

theorem iou_3d_of_zero {b1 b2 : Box} (h1 : Sized b1) (h2 : Sized b2) (t1 : kMinBoxDim < b1.height) (t2 : kMinBoxDim < b2.height)
    (h : polygonArea b1 b2 = 0) : computeIoU polygonArea b1 b2 .b3d = some 0 := by
  have hm : (0 : ℝ) < kMinBoxDim := by norm_num [kMinBoxDim]
  rw [computeIoU_congr (area' := fun _ _ => 0) h]
  unfold computeIoU
  rw [if_neg (not_huge h1 h2)]
  simp only
  unfold iou3d
  rw [if_neg (by
    have := h1.1; have := h1.2.2.1; have := h2.1; have := h2.2.2.1
    simp only [not_or, not_le]
    exact ⟨by assumption, by assumption, t1, by assumption, by assumption, t2⟩)]
  unfold rangesOverlap
  rw [if_pos ⟨by linarith, by linarith⟩]
  split_ifs with hr
  · simp only [zero_mul]
    exact ratio_zero
  · rfl

open Classical in
/-- **The IoU of upright boxes whose headings differ by right angles** (C222): exact, but for that kind of position, in which it is
found to be zero. -/
theorem iou_3d_turned {q : ℕ} (hq : q < 4) {b1 b2 : Box} (h1 : Sized b1) (h2 : Sized b2) (t1 : kMinBoxDim < b1.height)
    (t2 : kMinBoxDim < b2.height) (h : Quarter q b1 b2) : computeIoU polygonArea b1 b2 .b3d =
      some (if Missed q b1 b2 ∨ 2 * volume.real (rect b1 ∩ rect b2) ≤ 1 / 10 ^ 10 then 0 else iouSpec (body b1) (body b2)) := by
  by_cases hm : Missed q b1 b2
  · have ha := polygonArea_turned hq h1.pos.1 h1.pos.2 h2.pos.1 h2.pos.2 h
    rw [if_pos hm] at ha
    rw [if_pos (Or.inl hm), iou_3d_of_zero h1 h2 t1 t2 ha]
  · rw [iou_3d_turned_partial hq h1 h2 t1 t2 h hm]
    simp only [hm, false_or]

end Verif.Iou
