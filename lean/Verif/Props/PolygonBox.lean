import Verif.Props.PolygonArea
import Verif.Props.Iou

/-!
C95: the intersection area and the IoU of rotated boxes, math/polygon2d.h:45-49 and metrics/iou.cc:111-206 with the
polygon routine in place of the parameter of the model of metrics/iou.cc.
-/

namespace Verif.Polygon

open Real MeasureTheory

/-- The directions of the edges of a box: rear, right, front and left. -/
noncomputable def boxDir (θ : ℝ) (i : ℕ) : ℝ := θ - π / 2 + i * (π / 2)

/-- The corners of a box in the order of the code. -/
theorem boxCorners_eq {θ l w : ℝ} (hl : 0 < l) (c : Pt ℝ) :
    boxCorners c (cos θ, sin θ) l w =
      [(c.1 - l / 2 * cos θ - w / 2 * sin θ, c.2 - l / 2 * sin θ + w / 2 * cos θ),
       (c.1 - l / 2 * cos θ + w / 2 * sin θ, c.2 - l / 2 * sin θ - w / 2 * cos θ),
       (c.1 + l / 2 * cos θ + w / 2 * sin θ, c.2 + l / 2 * sin θ - w / 2 * cos θ),
       (c.1 + l / 2 * cos θ - w / 2 * sin θ, c.2 + l / 2 * sin θ + w / 2 * cos θ)] := by
  have h0 : l ≠ 0 := hl.ne'
  unfold boxCorners
  simp only [if_neg h0, List.cons.injEq, and_true, Prod.ext_iff, scale, Prod.fst_add, Prod.snd_add, Prod.fst_sub,
    Prod.snd_sub]
  refine ⟨⟨?_, ?_⟩, ⟨?_, ?_⟩, ⟨?_, ?_⟩, ⟨?_, ?_⟩⟩ <;> field_simp <;> ring

/-- **The polygon of a box** is a convex polygon with the directions of the box. -/
theorem ofBox_ring {θ l w : ℝ} (hl : 0 < l) (hw : 0 < w) (c : Pt ℝ) :
    ∃ P, ofBox c (cos θ, sin θ) l w = some P ∧ IsRing P (boxDir θ) ∧ Boxed P ∧ P.n = 4 ∧
      P.pts = boxCorners c (cos θ, sin θ) l w := by
  have hpad : pad (boxCorners c (cos θ, sin θ) l w) = boxCorners c (cos θ, sin θ) l w := by
    rw [boxCorners_eq hl]; rfl
  obtain ⟨P, hP⟩ : ∃ P, ofBox c (cos θ, sin θ) l w = some P := by
    unfold ofBox build
    rw [hpad, boxCorners_eq hl]
    exact ⟨_, rfl⟩
  obtain ⟨b1, b2, b3⟩ := build_boxed hP
  rw [hpad] at b3
  have hn : P.n = 4 := by rw [b2, b3, boxCorners_eq hl]; rfl
  refine ⟨P, hP, ⟨b2, ?_⟩, b1, hn, b3⟩
  have hv : ∀ k, P.v k = (boxCorners c (cos θ, sin θ) l w).getD (k % 4) (0, 0) := fun k => by
    unfold Poly.v Poly.pt; rw [hn, b3]
  have hpi := pi_pos
  rw [hn]
  refine ⟨by norm_num, fun i => ?_, fun i => ?_, fun i => ?_, fun i => ?_⟩
  · rw [hv, hv, Nat.add_mod_right]
  · unfold boxDir; push_cast; ring
  · unfold boxDir
    push_cast
    exact ⟨by linarith, by linarith⟩
  · have he : e (boxDir θ i) = e (boxDir θ (i % 4 : ℕ)) := by
      have : boxDir θ i = boxDir θ (i % 4 : ℕ) + (i / 4 : ℕ) * (2 * π) := by
        unfold boxDir
        have : (i : ℝ) = ((i % 4 : ℕ) : ℝ) + 4 * ((i / 4 : ℕ) : ℝ) := by
          exact_mod_cast (Nat.mod_add_div i 4).symm
        rw [this]; push_cast; ring
      rw [this]
      simp only [e, cos_add_nat_mul_two_pi, sin_add_nat_mul_two_pi]
    have h4 : i % 4 < 4 := Nat.mod_lt _ (by norm_num)
    have h1 : (i + 1) % 4 = (i % 4 + 1) % 4 := by rw [Nat.add_mod]
    rw [hv, hv, he, h1, boxCorners_eq hl]
    generalize i % 4 = j at h4
    have d0 : e (boxDir θ 0) = (sin θ, -cos θ) := by
      simp only [e, boxDir, Nat.cast_zero, zero_mul, add_zero, cos_sub_pi_div_two, sin_sub_pi_div_two]
    have d1 : e (boxDir θ 1) = (cos θ, sin θ) := by
      simp only [e, boxDir, Nat.cast_one, one_mul, sub_add_cancel]
    have d2 : e (boxDir θ 2) = (-sin θ, cos θ) := by
      have : boxDir θ 2 = θ + π / 2 := by unfold boxDir; push_cast; ring
      simp only [e, this, cos_add_pi_div_two, sin_add_pi_div_two]
    have d3 : e (boxDir θ 3) = (-cos θ, -sin θ) := by
      have : boxDir θ 3 = θ + π := by unfold boxDir; push_cast; ring
      simp only [e, this, cos_add_pi, sin_add_pi]
    interval_cases j
    · refine ⟨w, hw, ?_⟩
      rw [d0]; simp only [scale]; ext <;> simp <;> ring
    · refine ⟨l, hl, ?_⟩
      rw [d1]; simp only [scale]; ext <;> simp <;> ring
    · refine ⟨w, hw, ?_⟩
      rw [d2]; simp only [scale]; ext <;> simp <;> ring
    · refine ⟨l, hl, ?_⟩
      rw [d3]; simp only [scale]; ext <;> simp <;> ring

end Verif.Polygon

namespace Verif.Iou

open Real MeasureTheory Verif.Polygon

/-- The polygon of a box, iou.cc:67-70 and 98. -/
noncomputable def Box.polygon (b : Box) : Option (Poly ℝ) := ofBox (b.cx, b.cy) (cos b.heading, sin b.heading) b.length b.width

/-- `ComputeIntersectionArea` of the polygons of two boxes, iou.cc:120-123 and 186-189. -/
noncomputable def polygonArea (b1 b2 : Box) : ℝ :=
  match b1.polygon, b2.polygon with
  | some P, some Q => intersectionArea P Q
  | _, _ => 0

/-- The corners of a box: the points that are at half of the length and at half of the width from its axes. -/
def corners (b : Box) : Set (ℝ × ℝ) :=
  {p | |cos b.heading * (p.1 - b.cx) + sin b.heading * (p.2 - b.cy)| = b.length / 2 ∧
    |-sin b.heading * (p.1 - b.cx) + cos b.heading * (p.2 - b.cy)| = b.width / 2}

/-- No corner of one box lies on the boundary of the other. -/
def General (b1 b2 : Box) : Prop :=
  (∀ p ∈ corners b1, p ∉ frontier (rect b2)) ∧ ∀ p ∈ corners b2, p ∉ frontier (rect b1)

theorem General.symm {b1 b2 : Box} (h : General b1 b2) : General b2 b1 := ⟨h.2, h.1⟩

theorem polygon_spec (b : Box) (hl : 0 < b.length) (hw : 0 < b.width) :
    ∃ P, b.polygon = some P ∧ IsRing P (boxDir b.heading) ∧ Boxed P ∧ P.hull = rect b ∧ ∀ p ∈ P.pts, p ∈ corners b := by
  obtain ⟨P, h1, h2, h3, h4, h5⟩ := ofBox_ring (θ := b.heading) hl hw (b.cx, b.cy)
  have hsc := sin_sq_add_cos_sq b.heading
  refine ⟨P, h1, h2, h3, ?_, ?_⟩
  · have hv : ∀ k, P.v k = (boxCorners (b.cx, b.cy) (cos b.heading, sin b.heading) b.length b.width).getD (k % 4) (0, 0) :=
      fun k => by unfold Poly.v Poly.pt; rw [h4, h5]
    have d0 : e (boxDir b.heading 0) = (sin b.heading, -cos b.heading) := by
      simp only [e, boxDir, Nat.cast_zero, zero_mul, add_zero, cos_sub_pi_div_two, sin_sub_pi_div_two]
    have d1 : e (boxDir b.heading 1) = (cos b.heading, sin b.heading) := by
      simp only [e, boxDir, Nat.cast_one, one_mul, sub_add_cancel]
    have d2 : e (boxDir b.heading 2) = (-sin b.heading, cos b.heading) := by
      have : boxDir b.heading 2 = b.heading + π / 2 := by unfold boxDir; push_cast; ring
      simp only [e, this, cos_add_pi_div_two, sin_add_pi_div_two]
    have d3 : e (boxDir b.heading 3) = (-cos b.heading, -sin b.heading) := by
      have : boxDir b.heading 3 = b.heading + π := by unfold boxDir; push_cast; ring
      simp only [e, this, cos_add_pi, sin_add_pi]
    have he := region_eq_hull h2 h3
    unfold Poly.hull
    rw [← he]
    ext z
    rw [h2.ring.mem_region_iff, h4]
    have H : (∀ i < 4, 0 ≤ ht P.v (boxDir b.heading) i z) ↔ (0 ≤ ht P.v (boxDir b.heading) 0 z ∧
        0 ≤ ht P.v (boxDir b.heading) 1 z ∧ 0 ≤ ht P.v (boxDir b.heading) 2 z ∧ 0 ≤ ht P.v (boxDir b.heading) 3 z) := by
      constructor
      · intro h; exact ⟨h 0 (by norm_num), h 1 (by norm_num), h 2 (by norm_num), h 3 (by norm_num)⟩
      · rintro ⟨a, b, c, d⟩ i hi
        interval_cases i <;> assumption
    rw [H]
    have e0 : ht P.v (boxDir b.heading) 0 z = b.length / 2 + (cos b.heading * (z.1 - b.cx) + sin b.heading * (z.2 - b.cy)) := by
      unfold ht
      rw [d0, hv, boxCorners_eq hl]
      simp only [cp, Nat.zero_mod, List.getD_cons_zero, Prod.fst_sub, Prod.snd_sub]
      linear_combination (b.length / 2) * hsc
    have e1 : ht P.v (boxDir b.heading) 1 z = b.width / 2 + (-sin b.heading * (z.1 - b.cx) + cos b.heading * (z.2 - b.cy)) := by
      unfold ht
      rw [d1, hv, boxCorners_eq hl]
      simp only [cp, Nat.one_mod, Nat.reduceMod, List.getD_cons_succ, List.getD_cons_zero, Prod.fst_sub, Prod.snd_sub]
      linear_combination (b.width / 2) * hsc
    have e2 : ht P.v (boxDir b.heading) 2 z = b.length / 2 - (cos b.heading * (z.1 - b.cx) + sin b.heading * (z.2 - b.cy)) := by
      unfold ht
      rw [d2, hv, boxCorners_eq hl]
      simp only [cp, Nat.reduceMod, List.getD_cons_succ, List.getD_cons_zero, Prod.fst_sub, Prod.snd_sub]
      linear_combination (b.length / 2) * hsc
    have e3 : ht P.v (boxDir b.heading) 3 z = b.width / 2 - (-sin b.heading * (z.1 - b.cx) + cos b.heading * (z.2 - b.cy)) := by
      unfold ht
      rw [d3, hv, boxCorners_eq hl]
      simp only [cp, Nat.reduceMod, List.getD_cons_succ, List.getD_cons_zero, Prod.fst_sub, Prod.snd_sub]
      linear_combination (b.width / 2) * hsc
    rw [e0, e1, e2, e3]
    simp only [rect, Set.mem_setOf_eq, abs_le]
    constructor
    · rintro ⟨a1, a2, a3, a4⟩
      exact ⟨⟨by linarith, by linarith⟩, by linarith, by linarith⟩
    · rintro ⟨⟨a1, a2⟩, a3, a4⟩
      exact ⟨by linarith, by linarith, by linarith, by linarith⟩
  · intro p hp
    rw [h5, boxCorners_eq hl] at hp
    simp only [List.mem_cons, List.not_mem_nil, or_false] at hp
    have pl : ∀ x a : ℝ, 0 < a → x = a → |x| = a := fun x a ha h => by rw [h, abs_of_pos ha]
    have mi : ∀ x a : ℝ, 0 < a → x = -a → |x| = a := fun x a ha h => by rw [h, abs_neg, abs_of_pos ha]
    have l0 : 0 < b.length / 2 := by linarith
    have w0 : 0 < b.width / 2 := by linarith
    rw [corners, Set.mem_setOf_eq]
    rcases hp with rfl | rfl | rfl | rfl
    · constructor
      · apply mi _ _ l0; linear_combination (-(b.length / 2)) * hsc
      · apply pl _ _ w0; linear_combination (b.width / 2) * hsc
    · constructor
      · apply mi _ _ l0; linear_combination (-(b.length / 2)) * hsc
      · apply mi _ _ w0; linear_combination (-(b.width / 2)) * hsc
    · constructor
      · apply pl _ _ l0; linear_combination (b.length / 2) * hsc
      · apply mi _ _ w0; linear_combination (-(b.width / 2)) * hsc
    · constructor
      · apply pl _ _ l0; linear_combination (b.length / 2) * hsc
      · apply pl _ _ w0; linear_combination (b.width / 2) * hsc

/-- **The intersection area of rotated boxes** (C95). -/
theorem polygonArea_eq {b1 b2 : Box} (l1 : 0 < b1.length) (w1 : 0 < b1.width) (l2 : 0 < b2.length) (w2 : 0 < b2.width)
    (hg : General b1 b2) : polygonArea b1 b2 = cutOff (volume.real (rect b1 ∩ rect b2)) := by
  obtain ⟨P, p1, p2, p3, p4, p5⟩ := polygon_spec b1 l1 w1
  obtain ⟨Q, q1, q2, q3, q4, q5⟩ := polygon_spec b2 l2 w2
  unfold polygonArea
  rw [p1, q1]
  simp only
  rw [intersectionArea_eq p2 q2 p3 q3 (fun p hp => q4 ▸ hg.1 p (p5 p hp)) (fun p hp => p4 ▸ hg.2 p (q5 p hp)), p4, q4]
  rfl

/-- The IoU uses only the intersection area of its own boxes. -/
theorem computeIoU_congr {area area' : Box → Box → ℝ} {b1 b2 : Box} (h : area b1 b2 = area' b1 b2) (t : BoxType) :
    computeIoU area b1 b2 t = computeIoU area' b1 b2 t := by
  unfold computeIoU iou3d iou2d
  rw [h]

theorem ratio_zero {u : ℝ} : ratio 0 u = some 0 := by
  unfold ratio
  by_cases h1 : u ≤ Iou.kEpsilon
  · rw [if_pos h1]
  · rw [if_neg h1]
    simp only [zero_div]
    rw [if_neg (by norm_num [Iou.kEpsilon])]
    simp

theorem iou_2d_of_area {b1 b2 : Box} (h1 : Sized b1) (h2 : Sized b2)
    (ha : polygonArea b1 b2 = cutOff (volume.real (rect b1 ∩ rect b2))) :
    computeIoU polygonArea b1 b2 .b2d =
      some (if 2 * volume.real (rect b1 ∩ rect b2) ≤ 1 / 10 ^ 10 then 0 else iouSpec (rect b1) (rect b2)) := by
  unfold cutOff at ha
  split_ifs at ha ⊢ with hc
  · rw [computeIoU_congr (area' := fun _ _ => 0) ha]
    unfold computeIoU
    rw [if_neg (not_huge h1 h2)]
    simp only
    unfold iou2d
    rw [if_neg (not_tiny h1 h2)]
    exact ratio_zero
  · rw [computeIoU_congr (area' := fun b1 b2 => volume.real (rect b1 ∩ rect b2)) ha]
    exact iou_2d_spec _ (fun b1 b2 _ _ _ _ => rfl) b1 b2 h1 h2

theorem iou_3d_of_area {b1 b2 : Box} (h1 : Sized b1) (h2 : Sized b2) (t1 : kMinBoxDim < b1.height)
    (t2 : kMinBoxDim < b2.height) (ha : polygonArea b1 b2 = cutOff (volume.real (rect b1 ∩ rect b2))) :
    computeIoU polygonArea b1 b2 .b3d =
      some (if 2 * volume.real (rect b1 ∩ rect b2) ≤ 1 / 10 ^ 10 then 0 else iouSpec (body b1) (body b2)) := by
  have hm : (0 : ℝ) < kMinBoxDim := by norm_num [kMinBoxDim]
  unfold cutOff at ha
  split_ifs at ha ⊢ with hc
  · rw [computeIoU_congr (area' := fun _ _ => 0) ha]
    unfold computeIoU
    rw [if_neg (not_huge h1 h2)]
    simp only
    unfold iou3d
    rw [if_neg (by
      have := h1.1; have := h1.2.2.1; have := h2.1; have := h2.2.2.1
      simp only [not_or, not_le]
      exact ⟨by assumption, by assumption, t1, by assumption, by assumption, t2⟩)]
    unfold rangesOverlap
    rw [if_pos ⟨by linarith, by linarith⟩]
    split_ifs with hr
    · simp only [zero_mul]
      exact ratio_zero
    · rfl
  · rw [computeIoU_congr (area' := fun b1 b2 => volume.real (rect b1 ∩ rect b2)) ha]
    exact iou_3d_spec _ (fun b1 b2 _ _ _ _ => rfl) b1 b2 h1 h2 t1 t2

/-- **The IoU of rotated boxes** (C95): for boxes between 1 cm and 1000 km no corner of which lies on the boundary of the
other, the computed IoU is the ratio of the areas of the intersection and the union, or 0 if the common area is at most
5e-11. -/
theorem iou_2d_exact_partial {b1 b2 : Box} (h1 : Sized b1) (h2 : Sized b2) (hg : General b1 b2) :
    computeIoU polygonArea b1 b2 .b2d =
      some (if 2 * volume.real (rect b1 ∩ rect b2) ≤ 1 / 10 ^ 10 then 0 else iouSpec (rect b1) (rect b2)) :=
  iou_2d_of_area h1 h2 (polygonArea_eq h1.pos.1 h1.pos.2 h2.pos.1 h2.pos.2 hg)

/-- **The IoU of upright boxes** (C95). -/
theorem iou_3d_exact_partial {b1 b2 : Box} (h1 : Sized b1) (h2 : Sized b2) (t1 : kMinBoxDim < b1.height)
    (t2 : kMinBoxDim < b2.height) (hg : General b1 b2) :
    computeIoU polygonArea b1 b2 .b3d =
      some (if 2 * volume.real (rect b1 ∩ rect b2) ≤ 1 / 10 ^ 10 then 0 else iouSpec (body b1) (body b2)) :=
  iou_3d_of_area h1 h2 t1 t2 (polygonArea_eq h1.pos.1 h1.pos.2 h2.pos.1 h2.pos.2 hg)

/-- The boundary of a box is where one of the two bounds is reached. -/
theorem not_frontier {b : Box} {p : ℝ × ℝ}
    (h : (|cos b.heading * (p.1 - b.cx) + sin b.heading * (p.2 - b.cy)| < b.length / 2 ∧
        |-sin b.heading * (p.1 - b.cx) + cos b.heading * (p.2 - b.cy)| < b.width / 2) ∨ p ∉ rect b)
    (hl : 0 < b.length) (hw : 0 < b.width) : p ∉ frontier (rect b) := by
  intro hf
  rcases h with h | h
  · have ho : IsOpen {p : ℝ × ℝ | |cos b.heading * (p.1 - b.cx) + sin b.heading * (p.2 - b.cy)| < b.length / 2 ∧
        |-sin b.heading * (p.1 - b.cx) + cos b.heading * (p.2 - b.cy)| < b.width / 2} := by
      have c1 : Continuous (fun p : ℝ × ℝ => |cos b.heading * (p.1 - b.cx) + sin b.heading * (p.2 - b.cy)|) := by fun_prop
      have c2 : Continuous (fun p : ℝ × ℝ => |-sin b.heading * (p.1 - b.cx) + cos b.heading * (p.2 - b.cy)|) := by fun_prop
      exact (isOpen_lt c1 continuous_const).inter (isOpen_lt c2 continuous_const)
    have hi : p ∈ interior (rect b) := by
      rw [mem_interior]
      exact ⟨_, fun q hq => ⟨hq.1.le, hq.2.le⟩, ho, h⟩
    exact hf.2 hi
  · exact h ((rect_solid b hl hw).closed.frontier_subset hf)

/-- A box of 4 m by 2 m around the origin. -/
noncomputable def crossBox (heading : ℝ) : Box := ⟨0, 0, 0, 4, 2, 1, heading⟩

/-- C95: two boxes that form a cross are in general position. -/
theorem general_example : General (crossBox 0) (crossBox (π / 2)) := by
  constructor
  · intro p hp
    apply not_frontier (Or.inr _) (by norm_num [crossBox]) (by norm_num [crossBox])
    rintro ⟨-, h2⟩
    have h1 := hp.1
    simp only [crossBox, cos_zero, sin_zero, cos_pi_div_two, sin_pi_div_two] at h1 h2
    norm_num at h1 h2
    rw [h1] at h2
    norm_num at h2
  · intro p hp
    apply not_frontier (Or.inr _) (by norm_num [crossBox]) (by norm_num [crossBox])
    rintro ⟨-, h2⟩
    have h1 := hp.1
    simp only [crossBox, cos_zero, sin_zero, cos_pi_div_two, sin_pi_div_two] at h1 h2
    norm_num at h1 h2
    rw [h1] at h2
    norm_num at h2

theorem cross_volume : volume.real (rect (crossBox 0) ∩ rect (crossBox (π / 2))) = 4 := by
  have he : rect (crossBox 0) ∩ rect (crossBox (π / 2)) = Set.Icc (-1) 1 ×ˢ Set.Icc (-1) 1 := by
    ext p
    simp only [rect, crossBox, Set.mem_inter_iff, Set.mem_setOf_eq, cos_zero, sin_zero, cos_pi_div_two, sin_pi_div_two,
      Set.mem_prod, Set.mem_Icc, abs_le]
    constructor
    · rintro ⟨⟨-, a, b⟩, -, c, d⟩
      exact ⟨⟨by linarith, by linarith⟩, by linarith, by linarith⟩
    · rintro ⟨⟨a, b⟩, c, d⟩
      exact ⟨⟨⟨by linarith, by linarith⟩, by linarith, by linarith⟩, ⟨by linarith, by linarith⟩, by linarith, by linarith⟩
  rw [he, Measure.real, Measure.volume_eq_prod, Measure.prod_prod, Real.volume_Icc, ENNReal.toReal_mul,
    ENNReal.toReal_ofReal (by norm_num)]
  norm_num

/-- C95: the IoU of the cross is 1/3. -/
theorem iou_2d_exact_example : computeIoU polygonArea (crossBox 0) (crossBox (π / 2)) .b2d = some (1 / 3) := by
  have sz : ∀ h, Sized (crossBox h) := fun h => by unfold Sized crossBox; norm_num [kMinBoxDim, kMaxBoxDim]
  have r : ∀ h, Solid (rect (crossBox h)) := fun h => rect_solid _ (by norm_num [crossBox]) (by norm_num [crossBox])
  rw [iou_2d_exact_partial (sz _) (sz _) general_example, cross_volume, if_neg (by norm_num), iouSpec, (r _).union_eq (r _), cross_volume,
    rect_real _ (by norm_num [crossBox]) (by norm_num [crossBox]), rect_real _ (by norm_num [crossBox]) (by norm_num [crossBox])]
  norm_num [crossBox]

end Verif.Iou
