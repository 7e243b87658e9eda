import Verif.Model.Polygon
import Mathlib.Analysis.Convex.Segment
import Mathlib.Data.Real.Basic
import Mathlib.Tactic.Linarith
import Mathlib.Tactic.FieldSimp
import Mathlib.Tactic.NormNum
import Mathlib.Tactic.Push

/-!
The intersection of two segments (math/polygon2d.cc:277-355).

The specification is the set of points between two end points (`segment`).  `ExactSegmentIntersection` finds a point
exactly if the closed segments have a common point, and the point that it finds lies on both.
-/

namespace Verif.Polygon

open Set

/-- `a` and `b` span the line of `x`: a point of a segment in coordinates. -/
theorem mem_segment_iff (a b x : Pt ℝ) :
    x ∈ segment ℝ a b ↔ ∃ t : ℝ, 0 ≤ t ∧ t ≤ 1 ∧ x = a + scale t (b - a) := by
  rw [segment_eq_image']
  constructor
  · rintro ⟨t, ⟨h0, h1⟩, rfl⟩
    exact ⟨t, h0, h1, rfl⟩
  · rintro ⟨t, h0, h1, rfl⟩
    exact ⟨t, ⟨h0, h1⟩, rfl⟩

theorem sgn_mul_self (d : ℝ) : d * sgn d = |d| := by
  unfold sgn
  split_ifs with h
  · rw [abs_of_neg h]; ring
  · rw [abs_of_nonneg (not_lt.mp h)]; ring

theorem sgn_sq (d : ℝ) : sgn d * sgn d = 1 := by
  unfold sgn
  split_ifs <;> ring

theorem inRange_iff {d t rt : ℝ} (h : rt = d - t) :
    inRange d t rt = true ↔ 0 ≤ t * sgn d ∧ t * sgn d ≤ |d| := by
  have hk : (0 : ℝ) < max |d| 1 * kCross := by
    apply mul_pos (lt_of_lt_of_le one_pos (le_max_right _ _))
    unfold kCross; positivity
  have hr : rt * sgn d = |d| - t * sgn d := by rw [h, sub_mul, sgn_mul_self]
  unfold inRange
  split_ifs with h1 h2 h3
  · simp only [Bool.false_eq_true, false_iff, not_and, not_le]
    intro h0
    rcases h1 with h1 | h1
    · exact absurd h1 (not_lt.mpr h0)
    · linarith
  · simp only [Bool.false_eq_true, false_iff, not_and, not_le]
    intro _
    rw [hr] at h3
    linarith
  · push Not at h1
    simp only [true_iff]
    refine ⟨h1.1, ?_⟩
    rw [hr] at h3
    linarith
  · push Not at h1
    simp only [true_iff]
    exact ⟨h1.1, by linarith⟩

/-- Dividing a number between zero and `|d|` by `d`. -/
theorem ratio_range {d t : ℝ} (hd : d ≠ 0) :
    (0 ≤ t * sgn d ∧ t * sgn d ≤ |d|) ↔ (0 ≤ t / d ∧ t / d ≤ 1) := by
  rcases lt_or_gt_of_ne hd with h | h
  · have hs : sgn d = -1 := by unfold sgn; rw [if_pos h]
    rw [hs, abs_of_neg h, div_nonneg_iff, div_le_one_of_neg h]
    constructor
    · rintro ⟨h1, h2⟩
      exact ⟨Or.inr ⟨by linarith, h.le⟩, by linarith⟩
    · rintro ⟨h1 | h1, h2⟩
      · exact absurd h1.2 (not_le.mpr h)
      · exact ⟨by linarith [h1.1], by linarith⟩
  · have hs : sgn d = 1 := by unfold sgn; rw [if_neg (not_lt.mpr h.le)]
    rw [hs, abs_of_pos h, mul_one, div_nonneg_iff, div_le_one h]
    constructor
    · rintro ⟨h1, h2⟩
      exact ⟨Or.inl ⟨h1, h.le⟩, h2⟩
    · rintro ⟨h1 | h1, h2⟩
      · exact ⟨h1.1, h2⟩
      · exact absurd h1.2 (not_le.mpr h)

/-- The first parameter counted from the other end. -/
theorem rt1_eq (p0 p1 q0 q1 : Pt ℝ) :
    cross4 p1 q1 q0 q1 = cross4 p0 p1 q1 q0 - cross4 p0 q0 q1 q0 := by
  simp only [cross4, cp, Prod.fst_sub, Prod.snd_sub]; ring

/-- The second parameter counted from the other end. -/
theorem rt2_eq (p0 p1 q0 q1 : Pt ℝ) :
    cross4 p1 p0 p1 q1 = cross4 p0 p1 q1 q0 - cross4 p0 p1 p0 q0 := by
  simp only [cross4, cp, Prod.fst_sub, Prod.snd_sub]; ring

/-- The intersection of segments that are not parallel: the parameters of the common point of their lines. -/
theorem segmentIntersection_transversal {p0 p1 q0 q1 : Pt ℝ} (h : cross4 p0 p1 q1 q0 ≠ 0) :
    segmentIntersection p0 p1 q0 q1 =
      if (0 ≤ cross4 p0 q0 q1 q0 / cross4 p0 p1 q1 q0 ∧ cross4 p0 q0 q1 q0 / cross4 p0 p1 q1 q0 ≤ 1) ∧
         (0 ≤ cross4 p0 p1 p0 q0 / cross4 p0 p1 q1 q0 ∧ cross4 p0 p1 p0 q0 / cross4 p0 p1 q1 q0 ≤ 1) then
        some (p0 + scale (cross4 p0 q0 q1 q0 / cross4 p0 p1 q1 q0) (p1 - p0))
      else none := by
  have e1 := (inRange_iff (rt1_eq p0 p1 q0 q1)).trans (ratio_range h)
  have e2 := (inRange_iff (rt2_eq p0 p1 q0 q1)).trans (ratio_range h)
  unfold segmentIntersection exactIntersection
  rw [if_neg h]
  by_cases c1 : inRange (cross4 p0 p1 q1 q0) (cross4 p0 q0 q1 q0) (cross4 p1 q1 q0 q1) = true
  · have d1 := e1.mp c1
    rw [if_neg (by rw [c1]; simp)]
    by_cases c2 : inRange (cross4 p0 p1 q1 q0) (cross4 p0 p1 p0 q0) (cross4 p1 p0 p1 q1) = true
    · have d2 := e2.mp c2
      rw [if_neg (by rw [c2]; simp), if_pos ⟨d1, d2⟩, min_eq_right d1.2, max_eq_right d1.1]
    · rw [if_pos (by simpa using c2), if_neg (fun x => c2 (e2.mpr x.2))]
  · rw [if_pos (by simpa using c1), if_neg (fun x => c1 (e1.mpr x.1))]

/-- The common point of two lines that are not parallel, in both parameters. -/
theorem lines_meet {p0 p1 q0 q1 : Pt ℝ} (h : cross4 p0 p1 q1 q0 ≠ 0) (t s : ℝ) :
    p0 + scale t (p1 - p0) = q0 + scale s (q1 - q0) ↔
      t = cross4 p0 q0 q1 q0 / cross4 p0 p1 q1 q0 ∧ s = cross4 p0 p1 p0 q0 / cross4 p0 p1 q1 q0 := by
  rw [eq_div_iff h, eq_div_iff h]
  simp only [cross4, cp, Prod.fst_sub, Prod.snd_sub, scale, Prod.ext_iff, Prod.fst_add, Prod.snd_add] at h ⊢
  constructor
  · rintro ⟨e1, e2⟩
    constructor
    · linear_combination (q0.2 - q1.2) * e1 - (q0.1 - q1.1) * e2
    · linear_combination -(p1.2 - p0.2) * e1 + (p1.1 - p0.1) * e2
  · rintro ⟨e1, e2⟩
    constructor
    · apply mul_left_cancel₀ h
      linear_combination (p1.1 - p0.1) * e1 - (q1.1 - q0.1) * e2
    · apply mul_left_cancel₀ h
      linear_combination (p1.2 - p0.2) * e1 - (q1.2 - q0.2) * e2

/-- The points of the bounding box of a segment that lie on its line are the points of the segment. -/
theorem colinearPoint_iff {p0 p1 q : Pt ℝ} (hp : p0 ≠ p1) (hc : cross4 p0 p1 p0 q = 0) (x : Pt ℝ) :
    colinearPoint p0 p1 q = some x ↔ x = q ∧ q ∈ segment ℝ p0 p1 := by
  have key : ((elemMin p0 p1).1 ≤ q.1 ∧ q.1 ≤ (elemMax p0 p1).1 ∧ (elemMin p0 p1).2 ≤ q.2 ∧ q.2 ≤ (elemMax p0 p1).2) ↔
      q ∈ segment ℝ p0 p1 := by
    rw [mem_segment_iff]
    simp only [elemMin, elemMax, cross4, cp, Prod.fst_sub, Prod.snd_sub, scale, Prod.ext_iff, Prod.fst_add,
      Prod.snd_add] at *
    constructor
    · rintro ⟨h1, h2, h3, h4⟩
      by_cases hx : p1.1 = p0.1
      · have hy : p1.2 - p0.2 ≠ 0 := fun e => hp (Prod.ext hx.symm (by linarith))
        have hq : q.1 = p0.1 := by
          have : (p1.2 - p0.2) * (q.1 - p0.1) = 0 := by rw [hx] at hc; linarith
          rcases mul_eq_zero.mp this with h | h
          · exact absurd h hy
          · linarith
        refine ⟨(q.2 - p0.2) / (p1.2 - p0.2), ?_, ?_, ?_, ?_⟩
        · rcases lt_or_gt_of_ne hy with h | h
          · rw [max_eq_left (by linarith)] at h4
            exact div_nonneg_of_nonpos (by linarith) h.le
          · rw [min_eq_left (by linarith)] at h3
            exact div_nonneg (by linarith) h.le
        · rcases lt_or_gt_of_ne hy with h | h
          · rw [min_eq_right (by linarith)] at h3
            rw [div_le_one_of_neg h]; linarith
          · rw [max_eq_right (by linarith)] at h4
            rw [div_le_one h]; linarith
        · rw [hq, hx]; ring
        · field_simp; ring
      · have hy : p1.1 - p0.1 ≠ 0 := fun e => hx (by linarith)
        refine ⟨(q.1 - p0.1) / (p1.1 - p0.1), ?_, ?_, ?_, ?_⟩
        · rcases lt_or_gt_of_ne hy with h | h
          · rw [max_eq_left (by linarith)] at h2
            exact div_nonneg_of_nonpos (by linarith) h.le
          · rw [min_eq_left (by linarith)] at h1
            exact div_nonneg (by linarith) h.le
        · rcases lt_or_gt_of_ne hy with h | h
          · rw [min_eq_right (by linarith)] at h1
            rw [div_le_one_of_neg h]; linarith
          · rw [max_eq_right (by linarith)] at h2
            rw [div_le_one h]; linarith
        · field_simp; ring
        · field_simp; linarith
    · rintro ⟨t, h0, h1, e1, e2⟩
      rw [e1, e2]
      have aux : ∀ a b : ℝ, min a b ≤ a + t * (b - a) ∧ a + t * (b - a) ≤ max a b := by
        intro a b
        rcases le_total a b with h | h
        · rw [min_eq_left h, max_eq_right h]
          constructor <;> nlinarith
        · rw [min_eq_right h, max_eq_left h]
          constructor <;> nlinarith
      exact ⟨(aux _ _).1, (aux _ _).2, (aux _ _).1, (aux _ _).2⟩
  unfold colinearPoint
  split_ifs with h
  · rw [Option.some_inj]
    exact ⟨fun e => ⟨e.symm, key.mp h⟩, fun e => e.1.symm⟩
  · simp only [reduceCtorEq, false_iff, not_and]
    exact fun _ hq => h (key.mpr hq)

theorem colinearPoint_self (p q : Pt ℝ) (x : Pt ℝ) : colinearPoint p p q = some x ↔ x = q ∧ q = p := by
  unfold colinearPoint elemMin elemMax
  simp only [min_self, max_self]
  split_ifs with h
  · rw [Option.some_inj]
    exact ⟨fun e => ⟨e.symm, Prod.ext (le_antisymm h.2.1 h.1) (le_antisymm h.2.2.2 h.2.2.1)⟩, fun e => e.1.symm⟩
  · simp only [reduceCtorEq, false_iff, not_and]
    rintro _ rfl
    exact h ⟨le_refl _, le_refl _, le_refl _, le_refl _⟩

/-- **Exact intersection of segments.**  Of a segment that is not a point and any other segment, the routine returns a
point of both, or none, and then the segments have no common point. -/
theorem segmentIntersection_spec_partial {p0 p1 : Pt ℝ} (q0 q1 : Pt ℝ) (hp : p0 ≠ p1) :
    (∀ x, segmentIntersection p0 p1 q0 q1 = some x → x ∈ segment ℝ p0 p1 ∧ x ∈ segment ℝ q0 q1) ∧
    (segmentIntersection p0 p1 q0 q1 = none → Disjoint (segment ℝ p0 p1) (segment ℝ q0 q1)) := by
  by_cases h : cross4 p0 p1 q1 q0 = 0
  · unfold segmentIntersection exactIntersection
    rw [if_pos h]
    by_cases hc : cross4 p0 p1 p0 q0 ≠ 0
    · rw [if_pos hc]
      refine ⟨fun x e => (by cases e), fun _ => ?_⟩
      rw [Set.disjoint_left]
      intro x hx hq
      rw [mem_segment_iff] at hx hq
      obtain ⟨t, -, -, rfl⟩ := hx
      obtain ⟨s, -, -, e⟩ := hq
      apply hc
      simp only [cross4, cp, Prod.fst_sub, Prod.snd_sub, scale, Prod.ext_iff, Prod.fst_add, Prod.snd_add] at *
      linear_combination (p1.2 - p0.2) * e.1 - (p1.1 - p0.1) * e.2 + s * h
    · rw [if_neg hc]
      push Not at hc
      have c1 : cross4 p0 p1 p0 q1 = 0 := by
        simp only [cross4, cp, Prod.fst_sub, Prod.snd_sub] at *
        linarith
      have hd : ∀ v : Pt ℝ, cross4 p0 p1 p0 v = 0 → ∃ t : ℝ, v = p0 + scale t (p1 - p0) := by
        intro v hv
        simp only [cross4, cp, Prod.fst_sub, Prod.snd_sub, scale, Prod.ext_iff, Prod.fst_add, Prod.snd_add] at *
        by_cases hx : p1.1 - p0.1 = 0
        · have hy : p1.2 - p0.2 ≠ 0 := fun e => hp (Prod.ext (by linarith) (by linarith))
          refine ⟨(v.2 - p0.2) / (p1.2 - p0.2), ?_, ?_⟩
          · field_simp; linarith
          · field_simp; ring
        · refine ⟨(v.1 - p0.1) / (p1.1 - p0.1), ?_, ?_⟩
          · field_simp; ring
          · field_simp; linarith
      obtain ⟨s, rfl⟩ := hd q0 hc
      obtain ⟨r, rfl⟩ := hd q1 c1
      set d := p1 - p0 with hdd
      have hd0 : d ≠ 0 := fun e => hp (sub_eq_zero.mp e).symm
      have inj : ∀ u v : ℝ, p0 + scale u d = p0 + scale v d → u = v := by
        intro u v e
        by_contra hne
        apply hd0
        have e' := add_left_cancel e
        simp only [scale, Prod.ext_iff] at e'
        have f : u - v ≠ 0 := sub_ne_zero.mpr hne
        ext
        · have : (u - v) * d.1 = 0 := by linarith [e'.1]
          simpa [f] using this
        · have : (u - v) * d.2 = 0 := by linarith [e'.2]
          simpa [f] using this
      -- membership in both segments by parameters
      have memP : ∀ u : ℝ, p0 + scale u d ∈ segment ℝ p0 p1 ↔ 0 ≤ u ∧ u ≤ 1 := by
        intro u
        rw [mem_segment_iff]
        constructor
        · rintro ⟨t, h0, h1, e⟩
          rw [inj _ _ e]; exact ⟨h0, h1⟩
        · rintro ⟨h0, h1⟩
          exact ⟨u, h0, h1, rfl⟩
      have memQ : ∀ u : ℝ, p0 + scale u d ∈ segment ℝ (p0 + scale s d) (p0 + scale r d) ↔ min s r ≤ u ∧ u ≤ max s r := by
        intro u
        rw [mem_segment_iff]
        have eq : ∀ t : ℝ, p0 + scale s d + scale t (p0 + scale r d - (p0 + scale s d)) =
            p0 + scale (s + t * (r - s)) d := by
          intro t
          simp only [scale, Prod.ext_iff, Prod.fst_add, Prod.snd_add, Prod.fst_sub, Prod.snd_sub]
          constructor <;> ring
        constructor
        · rintro ⟨t, h0, h1, e⟩
          rw [eq] at e
          rw [inj _ _ e]
          rcases le_total s r with h | h
          · rw [min_eq_left h, max_eq_right h]; constructor <;> nlinarith
          · rw [min_eq_right h, max_eq_left h]; constructor <;> nlinarith
        · rintro ⟨h0, h1⟩
          rcases eq_or_ne s r with h | h
          · subst h
            rw [min_self] at h0; rw [max_self] at h1
            refine ⟨0, le_refl _, zero_le_one, ?_⟩
            rw [eq, le_antisymm h1 h0]; simp
          · have f : r - s ≠ 0 := sub_ne_zero.mpr h.symm
            refine ⟨(u - s) / (r - s), ?_, ?_, ?_⟩
            · rcases lt_or_gt_of_ne f with g | g
              · rw [max_eq_left (by linarith)] at h1
                exact div_nonneg_of_nonpos (by linarith) g.le
              · rw [min_eq_left (by linarith)] at h0
                exact div_nonneg (by linarith) g.le
            · rcases lt_or_gt_of_ne f with g | g
              · rw [min_eq_right (by linarith)] at h0
                rw [div_le_one_of_neg g]; linarith
              · rw [max_eq_right (by linarith)] at h1
                rw [div_le_one g]; linarith
            · rw [eq, div_mul_cancel₀ _ f]
              ring_nf
      have p0e : p0 = p0 + scale 0 d := by simp [scale]
      have p1e : p1 = p0 + scale 1 d := by
        rw [hdd]; ext <;> simp [scale]
      have colP : ∀ u : ℝ, ∀ x, colinearPoint p0 p1 (p0 + scale u d) = some x ↔
          x = p0 + scale u d ∧ 0 ≤ u ∧ u ≤ 1 := by
        intro u x
        rw [colinearPoint_iff hp _ x, memP]
        simp only [cross4, cp, hdd, scale, Prod.fst_add, Prod.snd_add, Prod.fst_sub, Prod.snd_sub]; ring
      have colQ : ∀ u : ℝ, ∀ x, colinearPoint (p0 + scale s d) (p0 + scale r d) (p0 + scale u d) = some x ↔
          x = p0 + scale u d ∧ min s r ≤ u ∧ u ≤ max s r := by
        intro u x
        by_cases hsr : s = r
        · subst hsr
          rw [colinearPoint_self, min_self, max_self]
          constructor
          · rintro ⟨e, f⟩
            have := inj _ _ f
            exact ⟨e, this.ge, this.le⟩
          · rintro ⟨e, f, g⟩
            exact ⟨e, by rw [le_antisymm g f]⟩
        · rw [colinearPoint_iff (fun e => hsr (inj _ _ e)) _ x, memQ]
          simp only [cross4, cp, scale, Prod.fst_add, Prod.snd_add, Prod.fst_sub, Prod.snd_sub]; ring
      have c1 := colQ 0
      rw [← p0e] at c1
      have c2 := colQ 1
      rw [← p1e] at c2
      have c3 := colP s
      have c4 := colP r
      have m0 := memP 0
      rw [← p0e] at m0
      have m1 := memP 1
      rw [← p1e] at m1
      have k0 := memQ 0
      rw [← p0e] at k0
      have k1 := memQ 1
      rw [← p1e] at k1
      constructor
      · intro x hx
        simp only [Option.orElse_eq_orElse, Option.orElse_eq_or, Option.or_eq_some_iff] at hx
        rcases hx with hx | ⟨-, hx | ⟨-, hx | ⟨-, hx⟩⟩⟩
        · obtain ⟨rfl, hq⟩ := (c1 x).mp hx
          exact ⟨m0.mpr ⟨le_refl _, zero_le_one⟩, k0.mpr hq⟩
        · obtain ⟨rfl, hq⟩ := (c2 x).mp hx
          exact ⟨m1.mpr ⟨zero_le_one, le_refl _⟩, k1.mpr hq⟩
        · obtain ⟨rfl, hq⟩ := (c3 x).mp hx
          exact ⟨(memP s).mpr hq, left_mem_segment _ _ _⟩
        · obtain ⟨rfl, hq⟩ := (c4 x).mp hx
          exact ⟨(memP r).mpr hq, right_mem_segment _ _ _⟩
      · intro hx
        simp only [Option.orElse_eq_orElse, Option.orElse_eq_or, Option.or_eq_none_iff] at hx
        obtain ⟨n1, n2, n3, n4⟩ := hx
        have f1 : ¬ (min s r ≤ 0 ∧ 0 ≤ max s r) := fun hh => by
          have := (c1 p0).mpr ⟨rfl, hh⟩; rw [n1] at this; cases this
        have f2 : ¬ (min s r ≤ 1 ∧ 1 ≤ max s r) := fun hh => by
          have := (c2 p1).mpr ⟨rfl, hh⟩; rw [n2] at this; cases this
        have f3 : ¬ (0 ≤ s ∧ s ≤ 1) := fun hh => by
          have := (c3 _).mpr ⟨rfl, hh⟩; rw [n3] at this; cases this
        have f4 : ¬ (0 ≤ r ∧ r ≤ 1) := fun hh => by
          have := (c4 _).mpr ⟨rfl, hh⟩; rw [n4] at this; cases this
        rw [Set.disjoint_left]
        intro x hx hq
        rw [mem_segment_iff] at hx
        obtain ⟨t, h0, h1, rfl⟩ := hx
        have hq' := (memQ t).mp hq
        rcases le_total s r with hsr | hsr
        · rw [min_eq_left hsr, max_eq_right hsr] at *
          push Not at f1 f2 f3 f4
          by_cases a : s ≤ 0
          · linarith [f1 a]
          · push Not at a
            linarith [f3 a.le]
        · rw [min_eq_right hsr, max_eq_left hsr] at *
          push Not at f1 f2 f3 f4
          by_cases a : r ≤ 0
          · linarith [f1 a]
          · push Not at a
            linarith [f4 a.le]
  · rw [segmentIntersection_transversal h]
    split_ifs with hh
    · refine ⟨fun x e => ?_, fun e => by cases e⟩
      rw [Option.some_inj] at e
      subst e
      refine ⟨(mem_segment_iff _ _ _).mpr ⟨_, hh.1.1, hh.1.2, rfl⟩, (mem_segment_iff _ _ _).mpr
        ⟨_, hh.2.1, hh.2.2, (lines_meet h _ _).mpr ⟨rfl, rfl⟩⟩⟩
    · refine ⟨fun x e => (by cases e), fun _ => ?_⟩
      rw [Set.disjoint_left]
      intro x hx hq
      rw [mem_segment_iff] at hx hq
      obtain ⟨t, h0, h1, rfl⟩ := hx
      obtain ⟨s, k0, k1, e⟩ := hq
      obtain ⟨rfl, rfl⟩ := (lines_meet h _ _).mp e
      exact hh ⟨⟨h0, h1⟩, k0, k1⟩

/-- A point is found exactly if the segments meet. -/
theorem segmentIntersection_isSome {p0 p1 : Pt ℝ} (q0 q1 : Pt ℝ) (hp : p0 ≠ p1) :
    (segmentIntersection p0 p1 q0 q1).isSome ↔ (segment ℝ p0 p1 ∩ segment ℝ q0 q1).Nonempty := by
  obtain ⟨h1, h2⟩ := segmentIntersection_spec_partial q0 q1 hp
  constructor
  · intro h
    obtain ⟨x, hx⟩ := Option.isSome_iff_exists.mp h
    exact ⟨x, h1 x hx⟩
  · rintro ⟨x, hx, hq⟩
    by_contra hn
    rw [Bool.not_eq_true, Option.isSome_eq_false_iff, Option.isNone_iff_eq_none] at hn
    exact Set.disjoint_left.mp (h2 hn) hx hq

/-- Two crossing segments: a concrete case. -/
theorem segmentIntersection_example :
    segmentIntersection ((0, 0) : Pt ℝ) (2, 2) (0, 2) (2, 0) = some (1, 1) := by
  rw [segmentIntersection_transversal (by norm_num [cross4, cp])]
  norm_num [cross4, cp, scale]

/-- Without the hypothesis the statement is false: a first segment that is a point off the second segment is reported
as an intersection if it lies in the bounding box of the second. -/
theorem segmentIntersection_point_violated :
    segmentIntersection ((0, 2) : Pt ℝ) (0, 2) (0, 0) (2, 2) = some (0, 2) ∧ ((0, 2) : Pt ℝ) ∉ segment ℝ ((0, 0) : Pt ℝ) (2, 2) := by
  constructor
  · norm_num [segmentIntersection, exactIntersection, cross4, cp, colinearPoint, elemMin, elemMax]
  · rw [mem_segment_iff]
    rintro ⟨t, -, -, e⟩
    simp only [scale, Prod.ext_iff, Prod.fst_add, Prod.snd_add, Prod.fst_sub, Prod.snd_sub] at e
    linarith [e.1, e.2]

end Verif.Polygon
