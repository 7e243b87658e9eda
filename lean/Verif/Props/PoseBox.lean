import Verif.Model.Pose
import Verif.Props.Boxes

/-!
Properties C35 (box membership and box displacement) and C71 (sizes of converted boxes).
-/

namespace Verif.Pose

open Verif.Boxes Matrix

/-! ### Specification -/

/-- Membership of a closed box, also of one without volume. -/
def Inside (p : V3) (b : Box) : Prop :=
  ∃ a l u, At b p a l u ∧ |a| ≤ b.dim 0 / 2 ∧ |l| ≤ b.dim 1 / 2 ∧ |u| ≤ b.dim 2 / 2

/-- The box turned the other way. -/
def flip (b : Box) : Box := ⟨b.center, b.dim, -b.heading⟩

theorem within_inside {p : V3} {b : Box} : Within p b ↔ (∀ j, b.dim j ≠ 0) ∧ Inside p b := Iff.rfl

theorem inside_iff (p : V3) (b : Box) : Inside p b ↔
    |(p 0 - b.center 0) * Real.cos b.heading + (p 1 - b.center 1) * Real.sin b.heading| ≤ b.dim 0 / 2 ∧
    |(p 1 - b.center 1) * Real.cos b.heading - (p 0 - b.center 0) * Real.sin b.heading| ≤ b.dim 1 / 2 ∧
    |p 2 - b.center 2| ≤ b.dim 2 / 2 := by
  refine ⟨?_, fun h => ⟨_, _, _, local_at b p, h⟩⟩
  rintro ⟨a, l, u, h, h1, h2, h3⟩
  obtain ⟨e1, e2, e3⟩ := at_local b p h
  exact ⟨e1 ▸ h1, e2 ▸ h2, e3 ▸ h3⟩

/-! ### The transform -/

theorem toBox_transform (b : Box) :
    toBoxTransform b = transform (yawRotation b.heading) (-(yawRotation b.heading *ᵥ b.center)) := by
  ext i j
  fin_cases i <;> fin_cases j <;>
    simp [toBoxTransform, transform, yawRotation, Matrix.mulVec, dotProduct, Fin.sum_univ_three] <;> ring

theorem yaw_transpose (h : ℝ) : (yawRotation h)ᵀ = yawRotation (-h) := by
  ext i j
  fin_cases i <;> fin_cases j <;> simp [yawRotation]

/-- The coordinates of a point in the frame `box_displacement` uses. -/
noncomputable def frame (b : Box) (p : V3) : V3 := yawRotation b.heading *ᵥ (p - b.center)

theorem apply_toBox (b : Box) (p : V3) : apply (toBoxTransform b) p = frame b p := by
  rw [toBox_transform, apply_transform, ← sub_eq_add_neg, ← Matrix.mulVec_sub]
  rfl

theorem inv_toBox (b : Box) : inv (toBoxTransform b) = some (transform (yawRotation (-b.heading)) b.center) := by
  rw [toBox_transform, inv_transform (yaw_orthogonal b.heading), Matrix.mulVec_neg, neg_neg, Matrix.mulVec_mulVec]
  have h : (yawRotation b.heading)ᵀ * yawRotation b.heading = 1 := by
    rw [yaw_transpose, yaw_add]
    have : -b.heading + b.heading = 0 := by ring
    rw [this]
    ext i j
    fin_cases i <;> fin_cases j <;> simp [yawRotation]
  rw [h, Matrix.one_mulVec, yaw_transpose]

/-- The coordinates cut off at the faces of the box. -/
noncomputable def cut (b : Box) (q : V3) : V3 := fun i => clip (q i) (-(b.dim i / 2)) (b.dim i / 2)

theorem boxDisplacement_eq (p : V3) (b : Box) :
    boxDisplacement p b = some (yawRotation (-b.heading) *ᵥ cut b (frame b p) + b.center - p) := by
  unfold boxDisplacement
  simp only [inv_toBox, apply_toBox, Option.bind_eq_bind, Option.bind_some, Option.pure_def, Option.some.injEq]
  rw [apply_transform]
  rfl

theorem frame_at (b : Box) (p : V3) : At (flip b) p (frame b p 0) (frame b p 1) (frame b p 2) := by
  have h := local_at (flip b) p
  have e : frame b p = ![(p 0 - b.center 0) * Real.cos b.heading - (p 1 - b.center 1) * Real.sin b.heading,
      (p 0 - b.center 0) * Real.sin b.heading + (p 1 - b.center 1) * Real.cos b.heading, p 2 - b.center 2] := by
    unfold frame
    rw [yaw_mulVec]
    rfl
  have e0 : frame b p 0 = (p 0 - (flip b).center 0) * Real.cos (flip b).heading +
      (p 1 - (flip b).center 1) * Real.sin (flip b).heading := by
    rw [e]
    simp only [flip, Real.cos_neg, Real.sin_neg, Matrix.cons_val_zero]
    ring
  have e1 : frame b p 1 = (p 1 - (flip b).center 1) * Real.cos (flip b).heading -
      (p 0 - (flip b).center 0) * Real.sin (flip b).heading := by
    rw [e]
    simp only [flip, Real.cos_neg, Real.sin_neg, Matrix.cons_val_one, Matrix.cons_val_zero]
    ring
  have e2 : frame b p 2 = p 2 - (flip b).center 2 := by
    rw [e]
    rfl
  rw [e0, e1, e2]
  exact h

theorem inside_flip (p : V3) (b : Box) : Inside p (flip b) ↔ ∀ i, |frame b p i| ≤ b.dim i / 2 := by
  constructor
  · rintro ⟨a, l, u, h, h1, h2, h3⟩
    obtain ⟨e1, e2, e3⟩ := at_local _ _ h
    obtain ⟨f1, f2, f3⟩ := at_local _ _ (frame_at b p)
    intro i
    fin_cases i
    · rw [show frame b p ⟨0, by decide⟩ = a from f1.trans e1.symm]; exact h1
    · rw [show frame b p ⟨1, by decide⟩ = l from f2.trans e2.symm]; exact h2
    · rw [show frame b p ⟨2, by decide⟩ = u from f3.trans e3.symm]; exact h3
  · intro h
    exact ⟨_, _, _, frame_at b p, h 0, h 1, h 2⟩

/-! ### Clipping -/

theorem clip_fix {x h : ℝ} : |x| ≤ h → clip x (-h) h = x := by
  intro hx
  obtain ⟨h1, h2⟩ := abs_le.mp hx
  unfold clip
  rw [min_eq_left h2, max_eq_left h1]

theorem clip_abs {h : ℝ} (h0 : 0 ≤ h) (x : ℝ) : |clip x (-h) h| ≤ h := by
  unfold clip
  rw [abs_le]
  exact ⟨le_max_right _ _, max_le (min_le_right _ _) (by linarith)⟩

theorem clip_near {h : ℝ} (x y : ℝ) (hy : |y| ≤ h) : (clip x (-h) h - x) ^ 2 ≤ (y - x) ^ 2 := by
  obtain ⟨h1, h2⟩ := abs_le.mp hy
  unfold clip
  rcases le_total x h with hx | hx
  · rw [min_eq_left hx]
    rcases le_total (-h) x with hx' | hx'
    · rw [max_eq_left hx', sub_self]
      nlinarith [sq_nonneg (y - x)]
    · rw [max_eq_right hx']
      exact pow_le_pow_left₀ (by linarith) (by linarith) 2
  · rw [min_eq_right hx, max_eq_left (by linarith)]
    nlinarith

theorem clip_eq_iff {h : ℝ} (h0 : 0 ≤ h) (x : ℝ) : clip x (-h) h = x ↔ |x| ≤ h :=
  ⟨fun e => e ▸ clip_abs h0 x, clip_fix⟩

/-! ### Lengths -/

theorem normSq_yaw (h : ℝ) (v : V3) : (yawRotation h *ᵥ v) 0 ^ 2 + (yawRotation h *ᵥ v) 1 ^ 2 + (yawRotation h *ᵥ v) 2 ^ 2 =
    v 0 ^ 2 + v 1 ^ 2 + v 2 ^ 2 := by
  rw [yaw_mulVec]
  have := Real.sin_sq_add_cos_sq h
  simp only [Matrix.cons_val_zero, Matrix.cons_val_one, Matrix.cons_val]
  linear_combination (v 0 ^ 2 + v 1 ^ 2) * this

theorem norm_yaw (h : ℝ) (v : V3) : norm (yawRotation h *ᵥ v) = norm v := by
  unfold norm
  rw [normSq_yaw]

theorem norm_nonneg' (v : V3) : 0 ≤ norm v := Real.sqrt_nonneg _

theorem norm_neg' (v : V3) : norm (-v) = norm v := by
  unfold norm
  simp

theorem norm_eq_zero' {v : V3} : norm v = 0 ↔ v = 0 := by
  unfold norm
  rw [Real.sqrt_eq_zero (by positivity)]
  constructor
  · intro h
    have h0 := sq_nonneg (v 0)
    have h1 := sq_nonneg (v 1)
    have h2 := sq_nonneg (v 2)
    funext i
    fin_cases i
    · exact pow_eq_zero_iff (two_ne_zero) |>.mp (by linarith : v 0 ^ 2 = 0)
    · exact pow_eq_zero_iff (two_ne_zero) |>.mp (by linarith : v 1 ^ 2 = 0)
    · exact pow_eq_zero_iff (two_ne_zero) |>.mp (by linarith : v 2 ^ 2 = 0)
  · rintro rfl
    simp

theorem frame_back (b : Box) (p : V3) : yawRotation (-b.heading) *ᵥ frame b p + b.center = p := by
  unfold frame
  rw [Matrix.mulVec_mulVec, yaw_add]
  have h1 : -b.heading + b.heading = 0 := by ring
  have h2 : yawRotation 0 = 1 := by
    ext i j
    fin_cases i <;> fin_cases j <;> simp [yawRotation]
  rw [h1, h2, Matrix.one_mulVec, sub_add_cancel]

theorem frame_sub (b : Box) (p q : V3) : frame b p - frame b q = yawRotation b.heading *ᵥ (p - q) := by
  unfold frame
  rw [← Matrix.mulVec_sub]
  congr 1
  abel

/-- C35: what `box_displacement` returns: the shift to the closest point of the box with the opposite heading. -/
theorem boxDisplacement_spec {b : Box} (hb : ∀ j, 0 ≤ b.dim j) (p : V3) : ∃ d, boxDisplacement p b = some d ∧
    Inside (p + d) (flip b) ∧ ∀ q, Inside q (flip b) → norm d ≤ norm (q - p) := by
  refine ⟨_, boxDisplacement_eq p b, ?_, ?_⟩
  · rw [inside_flip]
    intro i
    have e : frame b (p + (yawRotation (-b.heading) *ᵥ cut b (frame b p) + b.center - p)) = cut b (frame b p) := by
      have h1 : p + (yawRotation (-b.heading) *ᵥ cut b (frame b p) + b.center - p) =
          yawRotation (-b.heading) *ᵥ cut b (frame b p) + b.center := by abel
      rw [h1]
      unfold frame
      rw [add_sub_cancel_right, Matrix.mulVec_mulVec, yaw_add]
      have h2 : b.heading + -b.heading = 0 := by ring
      have h3 : yawRotation 0 = 1 := by
        ext i j
        fin_cases i <;> fin_cases j <;> simp [yawRotation]
      rw [h2, h3, Matrix.one_mulVec]
    rw [e]
    exact clip_abs (by have := hb i; linarith) _
  · intro q hq
    rw [inside_flip] at hq
    have h1 : yawRotation (-b.heading) *ᵥ cut b (frame b p) + b.center - p =
        yawRotation (-b.heading) *ᵥ (cut b (frame b p) - frame b p) := by
      have hb' : yawRotation (-b.heading) *ᵥ frame b p = p - b.center := by
        rw [eq_sub_iff_add_eq]
        exact frame_back b p
      rw [Matrix.mulVec_sub, hb']
      abel
    rw [h1, norm_yaw]
    have h2 : norm (q - p) = norm (frame b q - frame b p) := by rw [frame_sub, norm_yaw]
    rw [h2]
    unfold norm
    refine Real.sqrt_le_sqrt ?_
    simp only [Pi.sub_apply]
    have k : ∀ i, (cut b (frame b p) i - frame b p i) ^ 2 ≤ (frame b q i - frame b p i) ^ 2 :=
      fun i => clip_near _ _ (hq i)
    have := k 0
    have := k 1
    have := k 2
    linarith

/-- C35: the displacement is zero exactly for the points of the box with the opposite heading. -/
theorem boxDisplacement_zero {b : Box} (hb : ∀ j, 0 ≤ b.dim j) (p : V3) :
    boxDisplacement p b = some 0 ↔ Inside p (flip b) := by
  obtain ⟨d, hd, h1, h2⟩ := boxDisplacement_spec hb p
  rw [hd, Option.some.injEq]
  constructor
  · rintro rfl
    rwa [add_zero] at h1
  · intro h
    have := h2 p h
    rw [sub_self] at this
    have h0 : norm (0 : V3) = 0 := norm_eq_zero'.mpr rfl
    exact norm_eq_zero'.mp (le_antisymm (h0 ▸ this) (norm_nonneg' d))

/-- Boxes whose heading is a multiple of a right angle do not change when the heading is negated. -/
theorem inside_flip_straight {b : Box} (h : Real.sin b.heading * Real.cos b.heading = 0) (p : V3) :
    Inside p (flip b) ↔ Inside p b := by
  rw [inside_iff, inside_iff]
  simp only [flip, Real.cos_neg, Real.sin_neg]
  rcases mul_eq_zero.mp h with h0 | h0
  · rw [h0]
    simp
  · rw [h0]
    simp [abs_mul]

/-- C35 for the boxes for which it holds: membership and displacement agree when the heading is a multiple of a right
angle (in particular for boxes without heading) and the box has a volume.  Missing: other headings, for which it is false,
see `boxDisplacement_turned_violated`. -/
theorem boxDisplacement_within_partial {b : Box} (hb : ∀ j, 0 < b.dim j)
    (h : Real.sin b.heading * Real.cos b.heading = 0) (p : V3) :
    boxDisplacement p b = some 0 ↔ isWithin3d p b = some true := by
  rw [boxDisplacement_zero (fun j => (hb j).le), inside_flip_straight h, isWithin3d_spec]
  simp only [Option.some.injEq, decide_eq_true_eq]
  rw [within_inside]
  exact ⟨fun h => ⟨fun j => (hb j).ne', h⟩, And.right⟩

/-- C35 is false for turned boxes: with a heading of 45 degrees the front of a long box is outside for `box_displacement`
and a point to its side is inside. -/
theorem boxDisplacement_turned_violated : ∃ (b : Box) (p q : V3), (∀ j, 0 < b.dim j) ∧
    isWithin3d p b = some true ∧ boxDisplacement p b ≠ some 0 ∧
    isWithin3d q b = some false ∧ boxDisplacement q b = some 0 := by
  have hs : Real.sqrt 2 * Real.sqrt 2 = 2 := Real.mul_self_sqrt (by norm_num)
  have hs0 : 0 < Real.sqrt 2 := Real.sqrt_pos.mpr (by norm_num)
  let b : Box := ⟨0, ![4 * Real.sqrt 2, Real.sqrt 2, 1], Real.pi / 4⟩
  have hb : ∀ j, 0 < b.dim j := by
    intro j
    fin_cases j
    · exact mul_pos (by norm_num) hs0
    · exact hs0
    · exact one_pos
  have k1 : Inside ![1, 1, 0] b := by
    rw [inside_iff]
    refine ⟨?_, ?_, ?_⟩
    · show |((1 : ℝ) - 0) * Real.cos (Real.pi / 4) + (1 - 0) * Real.sin (Real.pi / 4)| ≤ 4 * Real.sqrt 2 / 2
      rw [Real.cos_pi_div_four, Real.sin_pi_div_four, abs_of_pos (by linarith)]
      linarith
    · show |((1 : ℝ) - 0) * Real.cos (Real.pi / 4) - (1 - 0) * Real.sin (Real.pi / 4)| ≤ Real.sqrt 2 / 2
      rw [Real.cos_pi_div_four, Real.sin_pi_div_four, sub_self, abs_zero]
      linarith
    · show |(0 : ℝ) - 0| ≤ 1 / 2
      norm_num
  have k2 : ¬ Inside ![1, 1, 0] (flip b) := by
    rw [inside_iff]
    rintro ⟨_, h, _⟩
    have h' : |((1 : ℝ) - 0) * Real.cos (-(Real.pi / 4)) - (1 - 0) * Real.sin (-(Real.pi / 4))| ≤ Real.sqrt 2 / 2 := h
    rw [Real.cos_neg, Real.sin_neg, Real.cos_pi_div_four, Real.sin_pi_div_four, abs_of_pos (by linarith)] at h'
    linarith
  have k3 : ¬ Inside ![1, -1, 0] b := by
    rw [inside_iff]
    rintro ⟨_, h, _⟩
    have h' : |((-1 : ℝ) - 0) * Real.cos (Real.pi / 4) - (1 - 0) * Real.sin (Real.pi / 4)| ≤ Real.sqrt 2 / 2 := h
    rw [Real.cos_pi_div_four, Real.sin_pi_div_four, abs_of_neg (by linarith)] at h'
    linarith
  have k4 : Inside ![1, -1, 0] (flip b) := by
    rw [inside_iff]
    refine ⟨?_, ?_, ?_⟩
    · show |((1 : ℝ) - 0) * Real.cos (-(Real.pi / 4)) + (-1 - 0) * Real.sin (-(Real.pi / 4))| ≤ 4 * Real.sqrt 2 / 2
      rw [Real.cos_neg, Real.sin_neg, Real.cos_pi_div_four, Real.sin_pi_div_four, abs_of_pos (by linarith)]
      linarith
    · show |((-1 : ℝ) - 0) * Real.cos (-(Real.pi / 4)) - (1 - 0) * Real.sin (-(Real.pi / 4))| ≤ Real.sqrt 2 / 2
      rw [Real.cos_neg, Real.sin_neg, Real.cos_pi_div_four, Real.sin_pi_div_four]
      have : ((-1 : ℝ) - 0) * (Real.sqrt 2 / 2) - (1 - 0) * -(Real.sqrt 2 / 2) = 0 := by ring
      rw [this, abs_zero]
      linarith
    · show |(0 : ℝ) - 0| ≤ 1 / 2
      norm_num
  refine ⟨b, ![1, 1, 0], ![1, -1, 0], hb, ?_, ?_, ?_, ?_⟩
  · rw [isWithin3d_spec]
    simp only [Option.some.injEq, decide_eq_true_eq]
    exact ⟨fun j => (hb j).ne', k1⟩
  · rw [ne_eq, boxDisplacement_zero fun j => (hb j).le]
    exact k2
  · rw [isWithin3d_spec]
    simp only [Option.some.injEq, decide_eq_false_iff_not]
    exact fun h => k3 h.2
  · rw [boxDisplacement_zero fun j => (hb j).le]
    exact k4

/-! ### C71 -/

/-- C71 where it holds: the tensor of a converted box has the sizes of the box along its own axes when it is as long as
it is wide.  Missing: all other boxes, see `laserSize_swapped_violated`. -/
theorem laserSize_partial (s : Size3) (h : s.x = s.y) : laserSize (labelSize s) = ![s.x, s.y, s.z] := by
  unfold laserSize labelSize
  rw [h]

/-- C71 exactly: the sizes along the own axes of a converted box are kept exactly when it is as long as it is wide. -/
theorem laserSize_iff (s : Size3) : laserSize (labelSize s) = ![s.x, s.y, s.z] ↔ s.x = s.y := by
  refine ⟨fun h => ?_, laserSize_partial s⟩
  have := congrFun h 0
  simp [laserSize, labelSize] at this
  exact this.symm

/-- C71 is false: a box 4 m along its heading and 2 m across becomes one 2 m along and 4 m across. -/
theorem laserSize_swapped_violated : ∃ s : Size3, laserSize (labelSize s) = ![s.y, s.x, s.z] ∧
    laserSize (labelSize s) ≠ ![s.x, s.y, s.z] := by
  refine ⟨⟨4, 2, 1⟩, rfl, ?_⟩
  intro h
  have := congrFun h 0
  norm_num [laserSize, labelSize] at this

end Verif.Pose
