import Verif.Props.SegmentGeom

/-!
C103, exactly which segments with a common point are found to meet.
-/

namespace Verif.Segment

open Real Verif.Polygon

/-- **Of two segments with a common point the intersection is found exactly if the cross product of their directions is at least 1e-10**, and
then it is this point. -/
theorem intersect_common_iff (s o : Seg) {x : Pt ℝ} (h1 : x ∈ s.points) (h2 : x ∈ o.points) :
    s.intersect o = some x ↔ 1 / 10 ^ 10 ≤ |s.cross o| := by
  have he : (1 / 10 ^ 10 : ℝ) = eps := by unfold eps; norm_num
  rw [he]
  obtain ⟨a, -, c⟩ := intersect_partial s o
  refine ⟨fun h => ?_, fun h => a h x h1 h2⟩
  by_contra hn
  rw [c (not_le.1 hn)] at h
  cases h

/-- **They are found to meet or coincide exactly if this is so or an end of one is closer to the other than 1e-10.** -/
theorem intersectOrCoincide_common_iff (s o : Seg) (h : (s.points ∩ o.points).Nonempty) :
    s.intersectOrCoincide o = true ↔ 1 / 10 ^ 10 ≤ |s.cross o| ∨
      (∃ q, (q = o.start ∨ q = o.stop) ∧ ∃ y ∈ s.points, sqd y q < (1 / 10 ^ 10) ^ 2) ∨
      (∃ q, (q = s.start ∨ q = s.stop) ∧ ∃ y ∈ o.points, sqd y q < (1 / 10 ^ 10) ^ 2) := by
  have he : (1 / 10 ^ 10 : ℝ) = eps := by unfold eps; norm_num
  rw [he]
  have near : ∀ (s : Seg) (q : Pt ℝ), s.distSqrToPoint q < eps ^ 2 ↔ ∃ y ∈ s.points, sqd y q < eps ^ 2 := by
    intro s q
    obtain ⟨⟨y, hy, e⟩, hm⟩ := distSqrToPoint_spec s q
    exact ⟨fun h => ⟨y, hy, by rw [← e]; exact h⟩, fun ⟨z, hz, h⟩ => (hm z hz).trans_lt h⟩
  by_cases hc : eps ≤ |s.cross o|
  · simp only [hc, true_or, iff_true]
    exact (intersectOrCoincide_partial s o).1 (.inr hc) h
  · have hd : cp (s.stop - s.start) (o.stop - o.start) = s.cross o := rfl
    unfold Seg.intersectOrCoincide
    rw [hd, if_pos (not_le.1 hc), decide_eq_true_iff]
    simp only [hc, false_or, near, or_and_right, exists_or, exists_eq_left]
    exact or_assoc.symm

/-- Two crossing segments of length two, as an instance. -/
theorem common_case : (0, 0) ∈ (Seg.ofEnds (-1, 0) (1, 0)).points ∧ (0, 0) ∈ (Seg.ofEnds (0, -1) (0, 1)).points := by
  constructor
  · exact (mem_points _ _).mpr ⟨1 / 2, by norm_num, by norm_num, by simp [Seg.ofEnds, scale]; norm_num⟩
  · exact (mem_points _ _).mpr ⟨1 / 2, by norm_num, by norm_num, by simp [Seg.ofEnds, scale]; norm_num⟩

end Verif.Segment
