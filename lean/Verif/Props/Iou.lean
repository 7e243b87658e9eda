import Verif.Model.Iou
import Verif.Props.AABox
import Mathlib.Analysis.Convex.Measure
import Mathlib.MeasureTheory.Measure.Lebesgue.EqHaar
import Mathlib.MeasureTheory.Measure.Real

/-!
C23: intersection over union of boxes.  C68: longitudinal affinity and alignment.
-/

namespace Verif.Iou

open MeasureTheory Set

/-! ## Specification: boxes are sets of points, measured by Lebesgue measure -/

/-- The points of a box seen from above: those within half a length along its heading and half a width across. -/
def rect (b : Box) : Set (ℝ × ℝ) :=
  {p | |Real.cos b.heading * (p.1 - b.cx) + Real.sin b.heading * (p.2 - b.cy)| ≤ b.length / 2 ∧
    |-Real.sin b.heading * (p.1 - b.cx) + Real.cos b.heading * (p.2 - b.cy)| ≤ b.width / 2}

/-- The points of an upright box. -/
def body (b : Box) : Set ((ℝ × ℝ) × ℝ) := rect b ×ˢ Icc (b.cz - b.height / 2) (b.cz + b.height / 2)

/-- The points of an axis aligned box; its heading is ignored. -/
def aaRect (b : Box) : Set (ℝ × ℝ) :=
  Icc (b.cx - b.length / 2) (b.cx + b.length / 2) ×ˢ Icc (b.cy - b.width / 2) (b.cy + b.width / 2)

/-- Intersection over union of two sets. -/
noncomputable def iouSpec {X : Type} [MeasureSpace X] (A B : Set X) : ℝ := volume.real (A ∩ B) / volume.real (A ∪ B)

/-- The polygon routine computes areas of intersections of rectangles. -/
def AreaCorrect (area : Box → Box → ℝ) : Prop :=
  ∀ b1 b2 : Box, 0 < b1.length → 0 < b1.width → 0 < b2.length → 0 < b2.width →
    area b1 b2 = volume.real (rect b1 ∩ rect b2)

/-- Extents within the accepted limits. -/
def Sized (b : Box) : Prop :=
  kMinBoxDim < b.length ∧ b.length < kMaxBoxDim ∧ kMinBoxDim < b.width ∧ b.width < kMaxBoxDim ∧ b.height < kMaxBoxDim

/-! ## Solid bodies -/

/-- Closed, convex and bounded sets with interior points. -/
structure Solid {X : Type} [NormedAddCommGroup X] [NormedSpace ℝ X] [MeasureSpace X] (A : Set X) : Prop where
  closed : IsClosed A
  convex : Convex ℝ A
  inner : (interior A).Nonempty
  finite : volume A ≠ ⊤

section Solid

variable {X : Type} [NormedAddCommGroup X] [NormedSpace ℝ X] [MeasureSpace X] [BorelSpace X] [FiniteDimensional ℝ X]
  [(volume : Measure X).IsAddHaarMeasure] {A B : Set X}

omit [FiniteDimensional ℝ X] [BorelSpace X] in
theorem Solid.pos (hA : Solid A) : 0 < volume.real A := by
  rw [Measure.real, ENNReal.toReal_pos_iff]
  exact ⟨lt_of_lt_of_le (isOpen_interior.measure_pos volume hA.inner) (measure_mono interior_subset),
    lt_top_iff_ne_top.mpr hA.finite⟩

omit [FiniteDimensional ℝ X] [BorelSpace X] [(volume : Measure X).IsAddHaarMeasure] in
theorem Solid.union_ne_top (hA : Solid A) (hB : Solid B) : volume (A ∪ B) ≠ ⊤ :=
  (measure_union_lt_top (lt_top_iff_ne_top.mpr hA.finite) (lt_top_iff_ne_top.mpr hB.finite)).ne

omit [FiniteDimensional ℝ X] [BorelSpace X] [(volume : Measure X).IsAddHaarMeasure] in
theorem Solid.inter_ne_top (hA : Solid A) (B : Set X) : volume (A ∩ B) ≠ ⊤ :=
  ne_top_of_le_ne_top hA.finite (measure_mono inter_subset_left)

omit [FiniteDimensional ℝ X] [(volume : Measure X).IsAddHaarMeasure] in
theorem Solid.union_eq (hA : Solid A) (hB : Solid B) :
    volume.real (A ∪ B) = volume.real A + volume.real B - volume.real (A ∩ B) := by
  have := measureReal_union_add_inter (μ := volume) (s := A) (t := B) hB.closed.measurableSet hA.finite hB.finite
  linarith

omit [FiniteDimensional ℝ X] [BorelSpace X] in
theorem Solid.union_pos (hA : Solid A) (hB : Solid B) : 0 < volume.real (A ∪ B) :=
  lt_of_lt_of_le hA.pos (measureReal_mono subset_union_left (hA.union_ne_top hB))

omit [FiniteDimensional ℝ X] [(volume : Measure X).IsAddHaarMeasure] [BorelSpace X] [NormedAddCommGroup X] [NormedSpace ℝ X] in
/-- C23: the IoU is symmetric. -/
theorem iouSpec_symm (A B : Set X) : iouSpec A B = iouSpec B A := by
  rw [iouSpec, iouSpec, inter_comm, union_comm]

omit [FiniteDimensional ℝ X] [BorelSpace X] in
/-- C23: the IoU lies in [0, 1]. -/
theorem iouSpec_bounds (hA : Solid A) (hB : Solid B) : 0 ≤ iouSpec A B ∧ iouSpec A B ≤ 1 := by
  have := hA.union_pos hB
  refine ⟨div_nonneg measureReal_nonneg measureReal_nonneg, ?_⟩
  rw [iouSpec, div_le_one this]
  exact measureReal_mono (inter_subset_left.trans subset_union_left) (hA.union_ne_top hB)

/-- C23: the IoU is 0 iff the interiors are disjoint. -/
theorem iouSpec_eq_zero (hA : Solid A) (hB : Solid B) : iouSpec A B = 0 ↔ interior A ∩ interior B = ∅ := by
  have hu := hA.union_pos hB
  rw [iouSpec, div_eq_zero_iff, or_iff_left hu.ne', measureReal_eq_zero_iff (hA.inter_ne_top B)]
  constructor
  · intro h
    have ho : IsOpen (interior A ∩ interior B) := isOpen_interior.inter isOpen_interior
    by_contra hne
    have := ho.measure_pos volume (nonempty_iff_ne_empty.mpr hne)
    have h2 : volume (interior A ∩ interior B) ≤ volume (A ∩ B) :=
      measure_mono (inter_subset_inter interior_subset interior_subset)
    rw [h] at h2
    exact absurd this (not_lt.mpr h2)
  · intro h
    have hs : A ∩ B ⊆ frontier A ∪ frontier B := by
      intro x ⟨ha, hb⟩
      by_cases h1 : x ∈ interior A
      · have h2 : x ∉ interior B := fun h2 => by
          have : x ∈ interior A ∩ interior B := ⟨h1, h2⟩
          rw [h] at this; exact this
        exact .inr ⟨subset_closure hb, h2⟩
      · exact .inl ⟨subset_closure ha, h1⟩
    refine measure_mono_null hs ?_
    rw [measure_union_null_iff]
    exact ⟨hA.convex.addHaar_frontier volume, hB.convex.addHaar_frontier volume⟩

omit [FiniteDimensional ℝ X] in
theorem Solid.subset_of_null (hA : Solid A) (hB : Solid B) (h : volume (A \ B) = 0) : A ⊆ B := by
  have ho : IsOpen (interior A \ B) := isOpen_interior.sdiff hB.closed
  have he : interior A \ B = ∅ := by
    by_contra hne
    have h1 := ho.measure_pos volume (nonempty_iff_ne_empty.mpr hne)
    have h2 : volume (interior A \ B) ≤ volume (A \ B) := measure_mono (diff_subset_diff_left interior_subset)
    rw [h] at h2
    exact absurd h1 (not_lt.mpr h2)
  have hi : interior A ⊆ B := diff_eq_empty.mp he
  have hc : closure (interior A) = A := by
    rw [hA.convex.closure_interior_eq_closure_of_nonempty_interior hA.inner, hA.closed.closure_eq]
  rw [← hc]
  exact closure_minimal hi hB.closed

omit [FiniteDimensional ℝ X] in
/-- C23: the IoU is 1 iff the boxes are equal. -/
theorem iouSpec_eq_one (hA : Solid A) (hB : Solid B) : iouSpec A B = 1 ↔ A = B := by
  have hu := hA.union_pos hB
  rw [iouSpec, div_eq_one_iff_eq hu.ne']
  constructor
  · intro h
    have hm := measureReal_diff_add_inter (μ := volume) (s := A ∪ B) (t := A ∩ B)
      (hA.closed.inter hB.closed).measurableSet (hA.union_ne_top hB)
    rw [inter_eq_self_of_subset_right (inter_subset_left.trans subset_union_left), ← h] at hm
    have h0 : volume.real ((A ∪ B) \ (A ∩ B)) = 0 := by linarith
    rw [measureReal_eq_zero_iff (ne_top_of_le_ne_top (hA.union_ne_top hB) (measure_mono diff_subset))] at h0
    apply Subset.antisymm
    · refine hA.subset_of_null hB (measure_mono_null ?_ h0)
      rintro x ⟨ha, hb⟩
      exact ⟨.inl ha, fun h => hb h.2⟩
    · refine hB.subset_of_null hA (measure_mono_null ?_ h0)
      rintro x ⟨hb, ha⟩
      exact ⟨.inr hb, fun h => ha h.1⟩
  · rintro rfl
    rw [inter_self, union_self]

end Solid

/-! ## Boxes are solid -/

instance : (volume : Measure (ℝ × ℝ)).IsAddHaarMeasure :=
  inferInstanceAs ((volume : Measure ℝ).prod (volume : Measure ℝ)).IsAddHaarMeasure

instance : (volume : Measure ((ℝ × ℝ) × ℝ)).IsAddHaarMeasure :=
  inferInstanceAs ((volume : Measure (ℝ × ℝ)).prod (volume : Measure ℝ)).IsAddHaarMeasure


/-- Coordinates along and across a heading. -/
noncomputable def rotation (θ : ℝ) : (ℝ × ℝ) →ₗ[ℝ] (ℝ × ℝ) :=
  Matrix.toLin (Module.Basis.finTwoProd ℝ) (Module.Basis.finTwoProd ℝ)
    !![Real.cos θ, Real.sin θ; -Real.sin θ, Real.cos θ]

theorem rotation_apply (θ : ℝ) (p : ℝ × ℝ) :
    rotation θ p = (Real.cos θ * p.1 + Real.sin θ * p.2, -Real.sin θ * p.1 + Real.cos θ * p.2) :=
  Matrix.toLin_finTwoProd_apply _ _ _ _ p

theorem rotation_det (θ : ℝ) : LinearMap.det (rotation θ) = 1 := by
  rw [rotation, LinearMap.det_toLin, Matrix.det_fin_two_of]
  have := Real.cos_sq_add_sin_sq θ
  linarith [sq (Real.cos θ), sq (Real.sin θ)]

theorem rect_eq (b : Box) : rect b = (fun p => p + (-(b.cx, b.cy))) ⁻¹' (rotation b.heading ⁻¹'
    (Icc (-(b.length / 2)) (b.length / 2) ×ˢ Icc (-(b.width / 2)) (b.width / 2))) := by
  ext p
  simp only [rect, mem_setOf_eq, mem_preimage, rotation_apply, mem_prod, mem_Icc, abs_le, Prod.fst_add, Prod.snd_add,
    Prod.fst_neg, Prod.snd_neg, sub_eq_add_neg]

theorem rect_volume (b : Box) (hl : 0 ≤ b.length) (hw : 0 ≤ b.width) : volume (rect b) =
    ENNReal.ofReal (b.length * b.width) := by
  rw [rect_eq, measure_preimage_add_right, Measure.addHaar_preimage_linearMap _ (by rw [rotation_det]; exact one_ne_zero),
    rotation_det, Measure.volume_eq_prod, Measure.prod_prod, Real.volume_Icc, Real.volume_Icc,
    ENNReal.ofReal_mul hl]
  simp

theorem rect_real (b : Box) (hl : 0 ≤ b.length) (hw : 0 ≤ b.width) : volume.real (rect b) = b.length * b.width := by
  rw [Measure.real, rect_volume b hl hw, ENNReal.toReal_ofReal (mul_nonneg hl hw)]

theorem rect_solid (b : Box) (hl : 0 < b.length) (hw : 0 < b.width) : Solid (rect b) := by
  have hc1 : Continuous (fun p : ℝ × ℝ => Real.cos b.heading * (p.1 - b.cx) + Real.sin b.heading * (p.2 - b.cy)) := by
    fun_prop
  have hc2 : Continuous (fun p : ℝ × ℝ => -Real.sin b.heading * (p.1 - b.cx) + Real.cos b.heading * (p.2 - b.cy)) := by
    fun_prop
  refine ⟨?_, ?_, ?_, ?_⟩
  · exact (isClosed_le (continuous_abs.comp hc1) continuous_const).inter
      (isClosed_le (continuous_abs.comp hc2) continuous_const)
  · intro p hp q hq s t hs ht hst
    obtain ⟨p1, p2⟩ := hp
    obtain ⟨q1, q2⟩ := hq
    have ht' : t = 1 - s := by linarith
    have key : ∀ (u v x y z w d : ℝ), |u * (x - z) + v * (y - w)| ≤ d → ∀ x' y' : ℝ,
        |u * (x' - z) + v * (y' - w)| ≤ d → |u * (s * x + t * x' - z) + v * (s * y + t * y' - w)| ≤ d := by
      intro u v x y z w d h1 x' y' h2
      have e : u * (s * x + t * x' - z) + v * (s * y + t * y' - w) =
          s * (u * (x - z) + v * (y - w)) + t * (u * (x' - z) + v * (y' - w)) := by subst ht'; ring
      rw [e]
      calc |s * (u * (x - z) + v * (y - w)) + t * (u * (x' - z) + v * (y' - w))|
          ≤ |s * (u * (x - z) + v * (y - w))| + |t * (u * (x' - z) + v * (y' - w))| := abs_add_le _ _
        _ = s * |u * (x - z) + v * (y - w)| + t * |u * (x' - z) + v * (y' - w)| := by
            rw [abs_mul, abs_mul, abs_of_nonneg hs, abs_of_nonneg ht]
        _ ≤ s * d + t * d := add_le_add (mul_le_mul_of_nonneg_left h1 hs) (mul_le_mul_of_nonneg_left h2 ht)
        _ = d := by subst ht'; ring
    exact ⟨key _ _ _ _ _ _ _ p1 _ _ q1, key _ _ _ _ _ _ _ p2 _ _ q2⟩
  · have ho : IsOpen {p : ℝ × ℝ |
        |Real.cos b.heading * (p.1 - b.cx) + Real.sin b.heading * (p.2 - b.cy)| < b.length / 2 ∧
        |-Real.sin b.heading * (p.1 - b.cx) + Real.cos b.heading * (p.2 - b.cy)| < b.width / 2} :=
      (isOpen_lt (continuous_abs.comp hc1) continuous_const).inter
        (isOpen_lt (continuous_abs.comp hc2) continuous_const)
    refine ⟨(b.cx, b.cy), mem_interior.mpr ⟨_, fun p hp => ⟨hp.1.le, hp.2.le⟩, ho, ?_⟩⟩
    simp only [mem_setOf_eq, sub_self, mul_zero, add_zero, abs_zero]
    exact ⟨by linarith, by linarith⟩
  · rw [rect_volume b hl.le hw.le]; exact ENNReal.ofReal_ne_top

theorem aaRect_solid (b : Box) (hl : 0 < b.length) (hw : 0 < b.width) : Solid (aaRect b) := by
  refine ⟨isClosed_Icc.prod isClosed_Icc, (convex_Icc _ _).prod (convex_Icc _ _), ?_, ?_⟩
  · rw [aaRect, interior_prod_eq, interior_Icc, interior_Icc]
    exact ⟨(b.cx, b.cy), ⟨⟨by simp only; linarith, by simp only; linarith⟩, ⟨by simp only; linarith, by simp only; linarith⟩⟩⟩
  · rw [aaRect, Measure.volume_eq_prod, Measure.prod_prod, Real.volume_Icc, Real.volume_Icc]
    exact ENNReal.mul_ne_top ENNReal.ofReal_ne_top ENNReal.ofReal_ne_top

theorem aaRect_real (b : Box) (hl : 0 ≤ b.length) (hw : 0 ≤ b.width) : volume.real (aaRect b) = b.length * b.width := by
  rw [Measure.real, aaRect, Measure.volume_eq_prod, Measure.prod_prod, Real.volume_Icc, Real.volume_Icc,
    ENNReal.toReal_mul, ENNReal.toReal_ofReal (by linarith), ENNReal.toReal_ofReal (by linarith)]
  ring

theorem body_solid (b : Box) (hl : 0 < b.length) (hw : 0 < b.width) (hh : 0 < b.height) : Solid (body b) := by
  have hr := rect_solid b hl hw
  refine ⟨hr.closed.prod isClosed_Icc, hr.convex.prod (convex_Icc _ _), ?_, ?_⟩
  · rw [body, interior_prod_eq, interior_Icc]
    obtain ⟨p, hp⟩ := hr.inner
    exact ⟨(p, b.cz), ⟨hp, ⟨by simp only; linarith, by simp only; linarith⟩⟩⟩
  · rw [body, Measure.volume_eq_prod, Measure.prod_prod, Real.volume_Icc]
    exact ENNReal.mul_ne_top hr.finite ENNReal.ofReal_ne_top

theorem body_real (b : Box) (hl : 0 ≤ b.length) (hw : 0 ≤ b.width) (hh : 0 ≤ b.height) :
    volume.real (body b) = b.length * b.width * b.height := by
  rw [Measure.real, body, Measure.volume_eq_prod, Measure.prod_prod, Real.volume_Icc, ENNReal.toReal_mul,
    ENNReal.toReal_ofReal (by linarith), ← Measure.real, rect_real b hl hw]
  ring

/-! ## C23 -/

theorem ratio_spec {X : Type} [NormedAddCommGroup X] [NormedSpace ℝ X] [MeasureSpace X] [BorelSpace X]
    [(volume : Measure X).IsAddHaarMeasure] {A B : Set X} (hA : Solid A) (hB : Solid B)
    (hu : kEpsilon < volume.real (A ∪ B)) :
    ratio (volume.real (A ∩ B)) (volume.real A + volume.real B - volume.real (A ∩ B)) = some (iouSpec A B) := by
  rw [← hA.union_eq hB]
  have hb := iouSpec_bounds hA hB
  have he : (0 : ℝ) < kEpsilon := by norm_num [kEpsilon]
  rw [ratio, if_neg (not_le.mpr hu)]
  simp only
  rw [← iouSpec, if_neg (by rintro (h | h) <;> linarith [hb.1, hb.2]), min_eq_left hb.2, max_eq_left hb.1]

theorem Sized.pos {b : Box} (h : Sized b) : 0 < b.length ∧ 0 < b.width := by
  obtain ⟨h1, _, h3, _⟩ := h
  have : (0 : ℝ) < kMinBoxDim := by norm_num [kMinBoxDim]
  exact ⟨by linarith, by linarith⟩

theorem Sized.area {b : Box} (h : Sized b) : kEpsilon < b.length * b.width := by
  obtain ⟨h1, _, h3, _⟩ := h
  have : kMinBoxDim * kMinBoxDim < b.length * b.width :=
    mul_lt_mul'' h1 h3 (by norm_num [kMinBoxDim]) (by norm_num [kMinBoxDim])
  have h2 : kEpsilon < kMinBoxDim * kMinBoxDim := by norm_num [kMinBoxDim, kEpsilon]
  linarith

theorem not_huge {b1 b2 : Box} (h1 : Sized b1) (h2 : Sized b2) :
    ¬ (b1.length ≥ kMaxBoxDim ∨ b1.width ≥ kMaxBoxDim ∨ b1.height ≥ kMaxBoxDim ∨ b2.length ≥ kMaxBoxDim ∨
      b2.width ≥ kMaxBoxDim ∨ b2.height ≥ kMaxBoxDim) := by
  obtain ⟨_, a1, _, a2, a3⟩ := h1
  obtain ⟨_, b1, _, b2, b3⟩ := h2
  simp only [ge_iff_le, not_or, not_le]
  exact ⟨a1, a2, a3, b1, b2, b3⟩

theorem not_tiny {b1 b2 : Box} (h1 : Sized b1) (h2 : Sized b2) :
    ¬ (b1.length ≤ kMinBoxDim ∨ b1.width ≤ kMinBoxDim ∨ b2.length ≤ kMinBoxDim ∨ b2.width ≤ kMinBoxDim) := by
  simp only [not_or, not_le]
  exact ⟨h1.1, h1.2.2.1, h2.1, h2.2.2.1⟩

/-- C23: the IoU of axis aligned boxes is that of their sets of points. -/
theorem iou_aa2d_spec (area : Box → Box → ℝ) (b1 b2 : Box) (h1 : Sized b1) (h2 : Sized b2) :
    computeIoU area b1 b2 .aa2d = some (iouSpec (aaRect b1) (aaRect b2)) := by
  obtain ⟨l1, w1⟩ := h1.pos
  obtain ⟨l2, w2⟩ := h2.pos
  have hi : b1.toAABox.intersectionArea b2.toAABox = volume.real (aaRect b1 ∩ aaRect b2) := by
    rw [AABox.intersectionArea_spec _ _ ⟨by simp only [Box.toAABox]; linarith, by simp only [Box.toAABox]; linarith⟩
      ⟨by simp only [Box.toAABox]; linarith, by simp only [Box.toAABox]; linarith⟩, Measure.real]
    congr 2
    ext p
    simp only [AABox.Mem, Box.toAABox, aaRect, mem_setOf_eq, mem_inter_iff, mem_prod, mem_Icc, mul_one_div]
    tauto
  have hA := aaRect_solid b1 l1 w1
  have hB := aaRect_solid b2 l2 w2
  have hu : kEpsilon < volume.real (aaRect b1 ∪ aaRect b2) := by
    have := measureReal_mono (subset_union_left (s := aaRect b1) (t := aaRect b2)) (hA.union_ne_top hB)
    rw [aaRect_real b1 l1.le w1.le] at this
    linarith [h1.area]
  have := ratio_spec hA hB hu
  rw [aaRect_real b1 l1.le w1.le, aaRect_real b2 l2.le w2.le] at this
  rw [computeIoU, if_neg (not_huge h1 h2), iouAA2d, if_neg (not_tiny h1 h2)]
  simp only [hi, this]

/-- C23: the IoU of rotated boxes seen from above, given correct polygon areas. -/
theorem iou_2d_spec (area : Box → Box → ℝ) (ha : AreaCorrect area) (b1 b2 : Box) (h1 : Sized b1) (h2 : Sized b2) :
    computeIoU area b1 b2 .b2d = some (iouSpec (rect b1) (rect b2)) := by
  obtain ⟨l1, w1⟩ := h1.pos
  obtain ⟨l2, w2⟩ := h2.pos
  have hA := rect_solid b1 l1 w1
  have hB := rect_solid b2 l2 w2
  have hu : kEpsilon < volume.real (rect b1 ∪ rect b2) := by
    have := measureReal_mono (subset_union_left (s := rect b1) (t := rect b2)) (hA.union_ne_top hB)
    rw [rect_real b1 l1.le w1.le] at this
    linarith [h1.area]
  have := ratio_spec hA hB hu
  rw [rect_real b1 l1.le w1.le, rect_real b2 l2.le w2.le] at this
  rw [computeIoU, if_neg (not_huge h1 h2), iou2d, if_neg (not_tiny h1 h2)]
  simp only [ha b1 b2 l1 w1 l2 w2, this]

/-- C23: the IoU of upright boxes, given correct polygon areas. -/
theorem iou_3d_spec (area : Box → Box → ℝ) (ha : AreaCorrect area) (b1 b2 : Box) (h1 : Sized b1) (h2 : Sized b2)
    (t1 : kMinBoxDim < b1.height) (t2 : kMinBoxDim < b2.height) :
    computeIoU area b1 b2 .b3d = some (iouSpec (body b1) (body b2)) := by
  obtain ⟨l1, w1⟩ := h1.pos
  obtain ⟨l2, w2⟩ := h2.pos
  have hm : (0 : ℝ) < kMinBoxDim := by norm_num [kMinBoxDim]
  have hA := body_solid b1 l1 w1 (by linarith)
  have hB := body_solid b2 l2 w2 (by linarith)
  have hv1 := body_real b1 l1.le w1.le (by linarith)
  have hv2 := body_real b2 l2.le w2.le (by linarith)
  have hu : kEpsilon < volume.real (body b1 ∪ body b2) := by
    have h := measureReal_mono (subset_union_left (s := body b1) (t := body b2)) (hA.union_ne_top hB)
    rw [hv1] at h
    have h3 : kMinBoxDim * kMinBoxDim < b1.length * b1.width := mul_lt_mul'' h1.1 h1.2.2.1 hm.le hm.le
    have h4 : kMinBoxDim * kMinBoxDim * kMinBoxDim < b1.length * b1.width * b1.height :=
      mul_lt_mul'' h3 t1 (mul_nonneg hm.le hm.le) hm.le
    have h5 : kEpsilon = kMinBoxDim * kMinBoxDim * kMinBoxDim := by norm_num [kMinBoxDim, kEpsilon]
    linarith
  have key := ratio_spec hA hB hu
  rw [hv1, hv2] at key
  have hb : body b1 ∩ body b2 = (rect b1 ∩ rect b2) ×ˢ
      Icc (max (b1.cz - b1.height / 2) (b2.cz - b2.height / 2)) (min (b1.cz + b1.height / 2) (b2.cz + b2.height / 2)) := by
    rw [body, body, prod_inter_prod, Icc_inter_Icc]
  have hvol : volume.real (body b1 ∩ body b2) = volume.real (rect b1 ∩ rect b2) *
      (ENNReal.ofReal (min (b1.cz + b1.height / 2) (b2.cz + b2.height / 2) -
        max (b1.cz - b1.height / 2) (b2.cz - b2.height / 2))).toReal := by
    rw [Measure.real, hb, Measure.volume_eq_prod, Measure.prod_prod, ENNReal.toReal_mul, Real.volume_Icc]
    rfl
  rw [computeIoU, if_neg (not_huge h1 h2), iou3d, if_neg (by
    simp only [not_or, not_le]
    exact ⟨h1.1, h1.2.2.1, t1, h2.1, h2.2.2.1, t2⟩)]
  simp only [mul_one_div]
  rw [rangesOverlap, if_pos ⟨by linarith, by linarith⟩]
  split_ifs with hz
  · simp only [ha b1 b2 l1 w1 l2 w2]
    rw [ENNReal.toReal_ofReal (by linarith)] at hvol
    rw [← hvol, key]
  · simp only [Option.some.injEq]
    rw [ENNReal.ofReal_of_nonpos (by linarith)] at hvol
    rw [iouSpec, hvol]; simp

/-- C23: equal sets of points are equal boxes, for axis aligned boxes. -/
theorem aaRect_injective (b1 b2 : Box) (l1 : 0 < b1.length) (w1 : 0 < b1.width) (l2 : 0 < b2.length) (w2 : 0 < b2.width) :
    aaRect b1 = aaRect b2 ↔ b1.cx = b2.cx ∧ b1.cy = b2.cy ∧ b1.length = b2.length ∧ b1.width = b2.width := by
  constructor
  · intro h
    have hne : (aaRect b1).Nonempty := (aaRect_solid b1 l1 w1).inner.mono interior_subset
    rw [aaRect] at hne
    rw [aaRect, aaRect, prod_eq_prod_iff_of_nonempty hne] at h
    obtain ⟨hx, hy⟩ := h
    have endpoints : ∀ a b c d : ℝ, a ≤ b → c ≤ d → Icc a b = Icc c d → a = c ∧ b = d := by
      intro a b c d h1 h2 h
      have e1 : a ∈ Icc c d := by rw [← h]; exact left_mem_Icc.mpr h1
      have e2 : b ∈ Icc c d := by rw [← h]; exact right_mem_Icc.mpr h1
      have e3 : c ∈ Icc a b := by rw [h]; exact left_mem_Icc.mpr h2
      have e4 : d ∈ Icc a b := by rw [h]; exact right_mem_Icc.mpr h2
      exact ⟨le_antisymm e3.1 e1.1, le_antisymm e2.2 e4.2⟩
    replace hx := endpoints _ _ _ _ (by linarith) (by linarith) hx
    replace hy := endpoints _ _ _ _ (by linarith) (by linarith) hy
    exact ⟨by linarith [hx.1, hx.2], by linarith [hy.1, hy.2], by linarith [hx.1, hx.2], by linarith [hy.1, hy.2]⟩
  · rintro ⟨h1, h2, h3, h4⟩
    simp only [aaRect, h1, h2, h3, h4]

/-- C23 for axis aligned boxes: symmetric, between 0 and 1, 1 exactly on equal boxes, 0 exactly on boxes with disjoint
interiors. -/
theorem iou_aa2d (area : Box → Box → ℝ) (b1 b2 : Box) (h1 : Sized b1) (h2 : Sized b2) :
    ∃ v, computeIoU area b1 b2 .aa2d = some v ∧ computeIoU area b2 b1 .aa2d = some v ∧ 0 ≤ v ∧ v ≤ 1 ∧
      (v = 1 ↔ b1.cx = b2.cx ∧ b1.cy = b2.cy ∧ b1.length = b2.length ∧ b1.width = b2.width) ∧
      (v = 0 ↔ interior (aaRect b1) ∩ interior (aaRect b2) = ∅) := by
  obtain ⟨l1, w1⟩ := h1.pos
  obtain ⟨l2, w2⟩ := h2.pos
  have hA := aaRect_solid b1 l1 w1
  have hB := aaRect_solid b2 l2 w2
  refine ⟨_, iou_aa2d_spec area b1 b2 h1 h2, ?_, (iouSpec_bounds hA hB).1, (iouSpec_bounds hA hB).2, ?_, iouSpec_eq_zero hA hB⟩
  · rw [iou_aa2d_spec area b2 b1 h2 h1, iouSpec_symm]
  · rw [iouSpec_eq_one hA hB, aaRect_injective b1 b2 l1 w1 l2 w2]

/-- C23 for rotated boxes seen from above.  What is missing: that the polygon routine satisfies `AreaCorrect`. -/
theorem iou_2d_partial (area : Box → Box → ℝ) (ha : AreaCorrect area) (b1 b2 : Box) (h1 : Sized b1) (h2 : Sized b2) :
    ∃ v, computeIoU area b1 b2 .b2d = some v ∧ computeIoU area b2 b1 .b2d = some v ∧ 0 ≤ v ∧ v ≤ 1 ∧
      (v = 1 ↔ rect b1 = rect b2) ∧ (v = 0 ↔ interior (rect b1) ∩ interior (rect b2) = ∅) := by
  have hA := rect_solid b1 h1.pos.1 h1.pos.2
  have hB := rect_solid b2 h2.pos.1 h2.pos.2
  refine ⟨_, iou_2d_spec area ha b1 b2 h1 h2, ?_, (iouSpec_bounds hA hB).1, (iouSpec_bounds hA hB).2,
    iouSpec_eq_one hA hB, iouSpec_eq_zero hA hB⟩
  rw [iou_2d_spec area ha b2 b1 h2 h1, iouSpec_symm]

/-- C23 for upright boxes.  What is missing: that the polygon routine satisfies `AreaCorrect`. -/
theorem iou_3d_partial (area : Box → Box → ℝ) (ha : AreaCorrect area) (b1 b2 : Box) (h1 : Sized b1) (h2 : Sized b2)
    (t1 : kMinBoxDim < b1.height) (t2 : kMinBoxDim < b2.height) :
    ∃ v, computeIoU area b1 b2 .b3d = some v ∧ computeIoU area b2 b1 .b3d = some v ∧ 0 ≤ v ∧ v ≤ 1 ∧
      (v = 1 ↔ body b1 = body b2) ∧ (v = 0 ↔ interior (body b1) ∩ interior (body b2) = ∅) := by
  have hm : (0 : ℝ) < kMinBoxDim := by norm_num [kMinBoxDim]
  have hA := body_solid b1 h1.pos.1 h1.pos.2 (by linarith)
  have hB := body_solid b2 h2.pos.1 h2.pos.2 (by linarith)
  refine ⟨_, iou_3d_spec area ha b1 b2 h1 h2 t1 t2, ?_, (iouSpec_bounds hA hB).1, (iouSpec_bounds hA hB).2,
    iouSpec_eq_one hA hB, iouSpec_eq_zero hA hB⟩
  rw [iou_3d_spec area ha b2 b1 h2 h1 t2 t1, iouSpec_symm]

/-- C23 fails for small and large boxes: a box of side 1 cm has IoU 0 with itself. -/
theorem iou_tiny_violated (area : Box → Box → ℝ) :
    let b : Box := ⟨0, 0, 0, 1 / 100, 1 / 100, 1, 0⟩
    computeIoU area b b .aa2d = some 0 ∧ 0 < b.length ∧ 0 < b.width := by
  refine ⟨?_, by norm_num, by norm_num⟩
  rw [computeIoU, if_neg (by norm_num [kMaxBoxDim])]
  simp only [iouAA2d]
  rw [if_pos (by norm_num [kMinBoxDim])]

/-- The batch version is the single version on every box. -/
theorem batch_spec (area : Box → Box → ℝ) (b1 : Box) (b2s : List Box) (t : BoxType) (vs : List ℝ)
    (h : batchComputeIoU area b1 b2s t = some vs) :
    vs.length = b2s.length ∧ ∀ i (hi : i < b2s.length), computeIoU area b1 b2s[i] t = vs[i]? := by
  rw [batchComputeIoU] at h
  induction b2s generalizing vs with
  | nil => simp only [List.mapM_nil] at h; cases h; simp
  | cons b bs ih =>
    rw [List.mapM_cons] at h
    obtain ⟨v, hv, h1⟩ := Option.bind_eq_some_iff.mp h
    obtain ⟨ws, hw, h2⟩ := Option.bind_eq_some_iff.mp h1
    cases h2
    obtain ⟨l, g⟩ := ih ws hw
    refine ⟨by simp [l], fun i hi => ?_⟩
    cases i with
    | zero => simpa using hv
    | succ i => simpa using g i (by simpa using hi)

/-! ## C68: longitudinal error tolerance -/

/-- C68: the affinity is one minus the longitudinal error, the distance along the line of sight of the ground truth
between its centre and the prediction's, relative to the tolerance, and at least 0.  Ground truths within a micrometre
of the sensor are excluded. -/
theorem affinity_spec (p g : Box) (c : LetConfig)
    (hg : kEpsilon ≤ range (g.translate (-c.x) (-c.y) (-c.z)))
    (ht : 0 < max (c.tolerancePercentage * range (g.translate (-c.x) (-c.y) (-c.z))) c.minToleranceMeter) :
    longitudinalAffinity p g c =
      let P := p.translate (-c.x) (-c.y) (-c.z)
      let G := g.translate (-c.x) (-c.y) (-c.z)
      let error := |dot P G / range G - range G|
      let tolerance := max (c.tolerancePercentage * range G) c.minToleranceMeter
      max 0 (1 - error / tolerance) := by
  have he : (0 : ℝ) < kEpsilon := by norm_num [kEpsilon]
  simp only [longitudinalAffinity, max_eq_left hg]
  rw [if_neg ht.ne']
  set P := p.translate (-c.x) (-c.y) (-c.z)
  set G := g.translate (-c.x) (-c.y) (-c.z)
  have hp : 0 < max (range P) kEpsilon := lt_max_of_lt_right he
  have e : max (range P) kEpsilon * (dot P G / range G / max (range P) kEpsilon) = dot P G / range G := by
    field_simp
  rw [e, clamp, abs_div, abs_of_pos ht, min_eq_left]
  have := div_nonneg (abs_nonneg (dot P G / range G - range G)) ht.le
  linarith

/-- C68: the affinity lies in [0, 1]. -/
theorem affinity_bounds (p g : Box) (c : LetConfig) : 0 ≤ longitudinalAffinity p g c ∧ longitudinalAffinity p g c ≤ 1 := by
  simp only [longitudinalAffinity]
  split_ifs
  · exact ⟨le_rfl, zero_le_one⟩
  · rw [clamp]
    exact ⟨le_max_left _ _, max_le zero_le_one (min_le_right _ _)⟩

theorem range_sq (b : Box) : range b * range b = dot b b := by
  rw [range, Real.mul_self_sqrt]
  simp only [dot]
  nlinarith [mul_self_nonneg b.cx, mul_self_nonneg b.cy, mul_self_nonneg b.cz]

/-- C68: lateral displacement, orthogonal to the line of sight of the ground truth, does not matter; in particular a
prediction with only a lateral error has affinity 1. -/
theorem affinity_lateral (p g : Box) (c : LetConfig)
    (hg : kEpsilon ≤ range (g.translate (-c.x) (-c.y) (-c.z)))
    (ht : 0 < max (c.tolerancePercentage * range (g.translate (-c.x) (-c.y) (-c.z))) c.minToleranceMeter)
    (hl : dot (p.translate (-c.x) (-c.y) (-c.z)) (g.translate (-c.x) (-c.y) (-c.z)) =
      dot (g.translate (-c.x) (-c.y) (-c.z)) (g.translate (-c.x) (-c.y) (-c.z))) :
    longitudinalAffinity p g c = 1 := by
  have he : (0 : ℝ) < kEpsilon := by norm_num [kEpsilon]
  rw [affinity_spec p g c hg ht]
  simp only [hl]
  rw [← range_sq]
  have : range (g.translate (-c.x) (-c.y) (-c.z)) ≠ 0 := (lt_of_lt_of_le he hg).ne'
  rw [mul_div_assoc, div_self this, mul_one, sub_self, abs_zero, zero_div, sub_zero, max_eq_right zero_le_one]

/-- Squared distance of centres. -/
def distSq (a b : Box) : ℝ := (a.cx - b.cx) ^ 2 + (a.cy - b.cy) ^ 2 + (a.cz - b.cz) ^ 2

/-- A box moved along the line of sight. -/
noncomputable def scaled (p : Box) (k : ℝ) : Box := { p with cx := p.cx * k, cy := p.cy * k, cz := p.cz * k }

theorem distSq_scaled (p g : Box) (hp : dot p p ≠ 0) (k : ℝ) :
    distSq (scaled p k) g = dot p p * (k - dot p g / dot p p) ^ 2 + (dot g g - dot p g ^ 2 / dot p p) := by
  have : distSq (scaled p k) g = dot p p * k ^ 2 - 2 * k * dot p g + dot g g := by
    simp only [distSq, scaled, dot]; ring
  rw [this]
  field_simp
  ring

theorem dot_self_nonneg (p : Box) : 0 ≤ dot p p := by
  simp only [dot]
  nlinarith [mul_self_nonneg p.cx, mul_self_nonneg p.cy, mul_self_nonneg p.cz]

/-- C68: range alignment moves the prediction along its line of sight to the point nearest to the ground truth, and
leaves the rest of the box as it is.  Predictions within a millimetre of the sensor are excluded. -/
theorem rangeAligned_spec (p g : Box) (hp : kEpsilon ≤ dot p p) :
    ∃ k, alignedPredictionBox p g .rangeAligned = some (scaled p k) ∧
      ∀ t, distSq (scaled p k) g ≤ distSq (scaled p t) g := by
  have he : (0 : ℝ) < kEpsilon := by norm_num [kEpsilon]
  have hpos : 0 < dot p p := lt_of_lt_of_le he hp
  refine ⟨dot p g / dot p p, ?_, fun t => ?_⟩
  · simp [alignedPredictionBox, alignRange, clampMultiplier, max_eq_left hp, scaled]
  · rw [distSq_scaled p g hpos.ne', distSq_scaled p g hpos.ne', sub_self]
    have := mul_nonneg hpos.le (sq_nonneg (t - dot p g / dot p p))
    nlinarith

/-- C68: the restricted kinds of range alignment move the prediction as range alignment does, or not at all; the first
only predictions beyond the nearest point to the ground truth, the second only predictions before it or on the other
side of the sensor, the third only predictions between the sensor and it. -/
theorem restrictedAligned_spec (p g : Box) (hp : kEpsilon ≤ dot p p) :
    (alignedPredictionBox p g .furtherOnly =
      if 0 ≤ dot p g ∧ dot p g < dot p p then alignedPredictionBox p g .rangeAligned else some p) ∧
    (alignedPredictionBox p g .anyCloserOnly =
      if dot p g < 0 ∨ dot p p < dot p g then alignedPredictionBox p g .rangeAligned else some p) ∧
    (alignedPredictionBox p g .betweenOnly =
      if dot p p < dot p g then alignedPredictionBox p g .rangeAligned else some p) := by
  have he : (0 : ℝ) < kEpsilon := by norm_num [kEpsilon]
  have hpos : 0 < dot p p := lt_of_lt_of_le he hp
  have h1 : dot p g / dot p p < 1 ↔ dot p g < dot p p := div_lt_one hpos
  have h2 : dot p g / dot p p ≥ 0 ↔ 0 ≤ dot p g := by
    rw [ge_iff_le, le_div_iff₀ hpos, zero_mul]
  refine ⟨?_, ?_, ?_⟩
  · simp only [alignedPredictionBox, alignRange, clampMultiplier, max_eq_left hp, h1, h2, if_true, reduceCtorEq, if_false]
    by_cases h : 0 ≤ dot p g ∧ dot p g < dot p p
    · rw [if_pos h, if_pos h.symm]
    · rw [if_neg h, if_neg (fun h' => h h'.symm)]; simp
  · simp only [alignedPredictionBox, alignRange, clampMultiplier, max_eq_left hp, h1, h2, if_true, reduceCtorEq, if_false]
    by_cases h : dot p g < 0 ∨ dot p p < dot p g
    · rw [if_pos h, if_neg (by rintro ⟨a, b⟩; rcases h with h | h <;> linarith)]
    · rw [if_neg h]
      rw [not_or, not_lt, not_lt] at h
      rcases lt_or_eq_of_le h.2 with h3 | h3
      · rw [if_pos ⟨h3, h.1⟩]; simp
      · rw [if_neg (by rintro ⟨a, _⟩; linarith), h3, div_self hpos.ne']; simp
  · simp only [alignedPredictionBox, alignRange, clampMultiplier, max_eq_left hp, if_true, reduceCtorEq, if_false]
    by_cases h : dot p p < dot p g
    · rw [if_pos h, max_eq_left ((one_le_div hpos).mpr h.le)]
    · rw [if_neg h, max_eq_right ((div_le_one hpos).mpr (not_lt.mp h))]; simp

/-- C68: no kind of range alignment moves the prediction away from the ground truth. -/
theorem aligned_closer (p g b : Box) (t : AlignType) (hp : kEpsilon ≤ dot p p) (h : alignedPredictionBox p g t = some b) :
    distSq b g ≤ distSq p g := by
  obtain ⟨k, hk, hmin⟩ := rangeAligned_spec p g hp
  have h1 := hmin 1
  have hs : scaled p 1 = p := by simp [scaled]
  rw [hs] at h1
  obtain ⟨r1, r2, r3⟩ := restrictedAligned_spec p g hp
  cases t with
  | unknown => cases h
  | notAligned => cases h; exact le_rfl
  | rangeAligned => rw [hk] at h; cases h; exact h1
  | centerAligned =>
    cases h
    simp only [distSq, sub_self]
    nlinarith [sq_nonneg (p.cx - g.cx), sq_nonneg (p.cy - g.cy)]
  | furtherOnly =>
    rw [r1, hk] at h; split_ifs at h <;> cases h
    · exact h1
    · exact le_rfl
  | anyCloserOnly =>
    rw [r2, hk] at h; split_ifs at h <;> cases h
    · exact h1
    · exact le_rfl
  | betweenOnly =>
    rw [r3, hk] at h; split_ifs at h <;> cases h
    · exact h1
    · exact le_rfl

/-- C68: alignment changes only the centre. -/
theorem aligned_shape (p g b : Box) (t : AlignType) (h : alignedPredictionBox p g t = some b) :
    b.length = p.length ∧ b.width = p.width ∧ b.height = p.height ∧ b.heading = p.heading := by
  cases t <;> simp only [alignedPredictionBox, Option.some.injEq, reduceCtorEq] at h <;> subst h <;>
    simp [alignRange]

/-- C68: centre alignment is documented to leave no localization error (metrics.proto:159-161) but keeps the height of
the prediction: equal boxes at different heights have LET-IoU 0. -/
theorem centerAligned_violated (area : Box → Box → ℝ) :
    let g : Box := ⟨5, 0, 0, 1, 1, 1, 0⟩
    let p : Box := ⟨5, 0, 2, 1, 1, 1, 0⟩
    computeLetIoU area 0 0 0 p g .centerAligned .b3d = some 0 := by
  simp only [computeLetIoU, true_or, if_true, alignedPredictionBox, Option.bind_some, Box.translate]
  rw [computeIoU, if_neg (by norm_num [kMaxBoxDim])]
  simp only [iou3d]
  rw [if_neg (by norm_num [kMinBoxDim])]
  norm_num [rangesOverlap]

/-- C68: the LET-IoU is the IoU of the aligned prediction with the ground truth in the sensor's frame, and lies in
[0, 1]. -/
theorem letIoU_spec (area : Box → Box → ℝ) (ha : AreaCorrect area) (x y z : ℝ) (p g : Box) (t : AlignType)
    (ht : t ≠ .unknown) (hp : Sized p) (hg : Sized g) (h1 : kMinBoxDim < p.height) (h2 : kMinBoxDim < g.height) :
    ∃ b, alignedPredictionBox (p.translate (-x) (-y) (-z)) (g.translate (-x) (-y) (-z)) t = some b ∧
      computeLetIoU area x y z p g t .b3d = some (iouSpec (body b) (body (g.translate (-x) (-y) (-z)))) ∧
      computeLetIoU area x y z p g t .b2d = some (iouSpec (rect b) (rect (g.translate (-x) (-y) (-z)))) := by
  have hb : ∃ b, alignedPredictionBox (p.translate (-x) (-y) (-z)) (g.translate (-x) (-y) (-z)) t = some b := by
    cases t <;> first | exact absurd rfl ht | exact ⟨_, rfl⟩
  obtain ⟨b, hb⟩ := hb
  obtain ⟨s1, s2, s3, _⟩ := aligned_shape _ _ _ _ hb
  have hbs : Sized b := by
    simp only [Sized, s1, s2, s3]; exact hp
  have hgs : Sized (g.translate (-x) (-y) (-z)) := hg
  refine ⟨b, hb, ?_, ?_⟩
  · simp only [computeLetIoU, true_or, if_true, hb, Option.bind_some]
    exact iou_3d_spec area ha _ _ hbs hgs (by rw [s3]; exact h1) h2
  · simp only [computeLetIoU, or_true, if_true, hb, Option.bind_some]
    exact iou_2d_spec area ha _ _ hbs hgs

/-- C68: LET-IoU of axis aligned boxes is refused. -/
theorem letIoU_rejects (area : Box → Box → ℝ) (x y z : ℝ) (p g : Box) (t : AlignType) :
    computeLetIoU area x y z p g t .aa2d = none ∧ computeLetIoU area x y z p g t .unknown = none :=
  ⟨rfl, rfl⟩

/-! ### Examples -/

example : Sized ⟨0, 0, 0, 4, 2, 1, 0⟩ := by norm_num [Sized, kMinBoxDim, kMaxBoxDim]

/-- A correct polygon routine exists. -/
example : AreaCorrect (fun b1 b2 => volume.real (rect b1 ∩ rect b2)) := fun _ _ _ _ _ _ => rfl

example : kEpsilon ≤ range (⟨3, 4, 0, 4, 2, 1, 0⟩ : Box) := by
  have : range (⟨3, 4, 0, 4, 2, 1, 0⟩ : Box) = 5 := by
    rw [range, show dot (⟨3, 4, 0, 4, 2, 1, 0⟩ : Box) ⟨3, 4, 0, 4, 2, 1, 0⟩ = 5 ^ 2 by norm_num [dot], Real.sqrt_sq (by norm_num)]
  rw [this]; norm_num [kEpsilon]

end Verif.Iou
