import Verif.Props.PolygonSegment

/-!
C99 for a first segment that is a point: what the routine reports, and when this is right.
-/

namespace Verif.Polygon

open Set

/-- A first segment that is a point is reported exactly if it lies in the bounding box of the second. -/
theorem segmentIntersection_point (p q0 q1 x : Pt ℝ) :
    segmentIntersection p p q0 q1 = some x ↔
      x = p ∧ min q0.1 q1.1 ≤ p.1 ∧ p.1 ≤ max q0.1 q1.1 ∧ min q0.2 q1.2 ≤ p.2 ∧ p.2 ≤ max q0.2 q1.2 := by
  have h0 : ∀ a b : Pt ℝ, cross4 p p a b = 0 := by intro a b; simp [cross4, cp]
  unfold segmentIntersection exactIntersection
  rw [h0, if_pos rfl, h0, if_neg (by simp)]
  by_cases h : min q0.1 q1.1 ≤ p.1 ∧ p.1 ≤ max q0.1 q1.1 ∧ min q0.2 q1.2 ≤ p.2 ∧ p.2 ≤ max q0.2 q1.2
  · have : colinearPoint q0 q1 p = some p := if_pos h
    simp [this, h, eq_comm]
  · have h1 : colinearPoint q0 q1 p = none := if_neg h
    have h2 : ∀ q : Pt ℝ, (q = q0 ∨ q = q1) → colinearPoint p p q = none := by
      intro q hq
      by_contra hn
      obtain ⟨y, hy⟩ := Option.ne_none_iff_exists'.1 hn
      obtain ⟨-, rfl⟩ := (colinearPoint_self p q y).1 hy
      apply h
      rcases hq with rfl | rfl <;> simp
    rw [h1, h2 q0 (.inl rfl), h2 q1 (.inr rfl)]
    exact ⟨fun e => (by cases e), fun e => absurd e.2 h⟩

/-- This is right exactly if the point is on the second segment or outside of its bounding box. -/
theorem segmentIntersection_point_iff (p q0 q1 : Pt ℝ) :
    ((∀ x, segmentIntersection p p q0 q1 = some x → x ∈ segment ℝ p p ∧ x ∈ segment ℝ q0 q1) ∧
      (segmentIntersection p p q0 q1 = none → Disjoint (segment ℝ p p) (segment ℝ q0 q1))) ↔
    (p ∈ segment ℝ q0 q1 ∨
      ¬ (min q0.1 q1.1 ≤ p.1 ∧ p.1 ≤ max q0.1 q1.1 ∧ min q0.2 q1.2 ≤ p.2 ∧ p.2 ≤ max q0.2 q1.2)) := by
  have box : p ∈ segment ℝ q0 q1 →
      min q0.1 q1.1 ≤ p.1 ∧ p.1 ≤ max q0.1 q1.1 ∧ min q0.2 q1.2 ≤ p.2 ∧ p.2 ≤ max q0.2 q1.2 := by
    rw [mem_segment_iff]
    rintro ⟨t, h0, h1, e⟩
    have aux : ∀ a b : ℝ, min a b ≤ a + t * (b - a) ∧ a + t * (b - a) ≤ max a b := by
      intro a b
      rcases le_total a b with h | h
      · rw [min_eq_left h, max_eq_right h]
        constructor <;> nlinarith
      · rw [min_eq_right h, max_eq_left h]
        constructor <;> nlinarith
    rw [e]
    exact ⟨(aux _ _).1, (aux _ _).2, (aux _ _).1, (aux _ _).2⟩
  constructor
  · rintro ⟨h, -⟩
    by_contra hn
    push Not at hn
    exact hn.1 (h p ((segmentIntersection_point p q0 q1 p).2 ⟨rfl, hn.2⟩)).2
  · intro h
    refine ⟨fun x hx => ?_, fun hx => ?_⟩
    · obtain ⟨rfl, hb⟩ := (segmentIntersection_point p q0 q1 x).1 hx
      rcases h with h | h
      · exact ⟨left_mem_segment ℝ _ _, h⟩
      · exact absurd hb h
    · rw [segment_same, disjoint_singleton_left]
      intro hp
      have := (segmentIntersection_point p q0 q1 p).2 ⟨rfl, box hp⟩
      rw [hx] at this
      cases this

/-- A point on the second segment. -/
theorem segmentIntersection_point_case : ((1, 1) : Pt ℝ) ∈ segment ℝ ((0, 0) : Pt ℝ) (2, 2) := by
  rw [mem_segment_iff]
  exact ⟨1 / 2, by norm_num, by norm_num, by simp [scale]⟩

end Verif.Polygon
