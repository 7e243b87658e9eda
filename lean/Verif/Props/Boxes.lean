import Verif.Model.Boxes
import Mathlib.Analysis.Convex.Combination
import Mathlib.Tactic.LinearCombination
import Mathlib.Tactic.Linarith
import Mathlib.Tactic.FieldSimp

/-!
Property C56: rigid transforms and box membership.
-/

namespace Verif.Boxes

open Matrix

/-! ### Rotations -/

theorem yaw_orthogonal (h : ℝ) : yawRotation h * (yawRotation h)ᵀ = 1 := by
  have := Real.sin_sq_add_cos_sq h
  ext i j
  fin_cases i <;> fin_cases j <;> simp [yawRotation, Matrix.mul_apply, Fin.sum_univ_three] <;> linarith

theorem pitch_orthogonal (h : ℝ) : pitchRotation h * (pitchRotation h)ᵀ = 1 := by
  have := Real.sin_sq_add_cos_sq h
  ext i j
  fin_cases i <;> fin_cases j <;> simp [pitchRotation, Matrix.mul_apply, Fin.sum_univ_three] <;> linarith

theorem roll_orthogonal (h : ℝ) : rollRotation h * (rollRotation h)ᵀ = 1 := by
  have := Real.sin_sq_add_cos_sq h
  ext i j
  fin_cases i <;> fin_cases j <;> simp [rollRotation, Matrix.mul_apply, Fin.sum_univ_three] <;> linarith

/-- C56: a rotation matrix of roll, pitch and yaw is orthogonal. -/
theorem rotation_orthogonal (r p y : ℝ) : rotationMatrix r p y * (rotationMatrix r p y)ᵀ = 1 := by
  unfold rotationMatrix
  rw [Matrix.transpose_mul, Matrix.transpose_mul]
  calc yawRotation y * (pitchRotation p * rollRotation r) *
        ((rollRotation r)ᵀ * (pitchRotation p)ᵀ * (yawRotation y)ᵀ)
      = yawRotation y * (pitchRotation p * (rollRotation r * (rollRotation r)ᵀ) * (pitchRotation p)ᵀ) *
        (yawRotation y)ᵀ := by simp only [Matrix.mul_assoc]
    _ = 1 := by rw [roll_orthogonal, Matrix.mul_one, pitch_orthogonal, Matrix.mul_one, yaw_orthogonal]

theorem yaw_det (h : ℝ) : (yawRotation h).det = 1 := by
  have := Real.sin_sq_add_cos_sq h
  rw [Matrix.det_fin_three]
  simp [yawRotation]
  linarith

/-- C56: it keeps the orientation. -/
theorem rotation_det (r p y : ℝ) : (rotationMatrix r p y).det = 1 := by
  unfold rotationMatrix
  rw [Matrix.det_mul, Matrix.det_mul, yaw_det, Matrix.det_fin_three, Matrix.det_fin_three]
  have h1 := Real.sin_sq_add_cos_sq p
  have h2 := Real.sin_sq_add_cos_sq r
  simp [pitchRotation, rollRotation]
  have e1 : Real.cos p * Real.cos p + Real.sin p * Real.sin p = 1 := by linarith
  have e2 : Real.cos r * Real.cos r + Real.sin r * Real.sin r = 1 := by linarith
  rw [e1, e2, one_mul]

/-- C56: without roll and pitch it is the yaw rotation. -/
theorem rotation_yaw (y : ℝ) : rotationMatrix 0 0 y = yawRotation y := by
  have h1 : pitchRotation 0 = 1 := by
    ext i j
    fin_cases i <;> fin_cases j <;> simp [pitchRotation]
  have h2 : rollRotation 0 = 1 := by
    ext i j
    fin_cases i <;> fin_cases j <;> simp [rollRotation]
  unfold rotationMatrix
  rw [h1, h2, Matrix.mul_one, Matrix.mul_one]

/-- C56: what the rotation does to a point: first the roll turns it about the x axis (y towards z), then the pitch about
the y axis (z towards x), then the yaw about the z axis (x towards y). -/
theorem rotation_action (r p y : ℝ) (v : V3) : rotationMatrix r p y *ᵥ v =
    (let a : V3 := ![v 0, v 1 * Real.cos r - v 2 * Real.sin r, v 1 * Real.sin r + v 2 * Real.cos r]
     let b : V3 := ![a 2 * Real.sin p + a 0 * Real.cos p, a 1, a 2 * Real.cos p - a 0 * Real.sin p]
     ![b 0 * Real.cos y - b 1 * Real.sin y, b 0 * Real.sin y + b 1 * Real.cos y, b 2]) := by
  unfold rotationMatrix
  rw [← Matrix.mulVec_mulVec, ← Matrix.mulVec_mulVec]
  have h1 : rollRotation r *ᵥ v = ![v 0, v 1 * Real.cos r - v 2 * Real.sin r, v 1 * Real.sin r + v 2 * Real.cos r] := by
    funext i
    fin_cases i <;> simp [rollRotation, Matrix.mulVec, dotProduct, Fin.sum_univ_three] <;> ring
  have h2 : ∀ a : V3, pitchRotation p *ᵥ a = ![a 2 * Real.sin p + a 0 * Real.cos p, a 1, a 2 * Real.cos p - a 0 * Real.sin p] := by
    intro a
    funext i
    fin_cases i <;> simp [pitchRotation, Matrix.mulVec, dotProduct, Fin.sum_univ_three] <;> ring
  have h3 : ∀ b : V3, yawRotation y *ᵥ b = ![b 0 * Real.cos y - b 1 * Real.sin y, b 0 * Real.sin y + b 1 * Real.cos y, b 2] := by
    intro b
    funext i
    fin_cases i <;> simp [yawRotation, Matrix.mulVec, dotProduct, Fin.sum_univ_three] <;> ring
  rw [h1, h2, h3]

/-- C56: yaw rotations add. -/
theorem yaw_add (a b : ℝ) : yawRotation a * yawRotation b = yawRotation (a + b) := by
  ext i j
  fin_cases i <;> fin_cases j <;>
    simp [yawRotation, Matrix.mul_apply, Fin.sum_univ_three, Real.cos_add, Real.sin_add] <;> ring

/-! ### Poses -/

/-- An affine transform that can be inverted. -/
structure IsPose (t : M4) : Prop where
  row : ∀ j, t 3 j = if j = 3 then 1 else 0
  det : t.det ≠ 0

/-- A point in homogeneous coordinates. -/
def hom (p : V3) : Fin 4 → ℝ := ![p 0, p 1, p 2, 1]

theorem apply_hom {t : M4} (p : V3) (i : Fin 3) : apply t p i = (t *ᵥ hom p) i.castSucc := by
  fin_cases i <;>
    simp [apply, rotationPart, translationPart, hom, Matrix.mulVec, dotProduct, Fin.sum_univ_three, Fin.sum_univ_four]

theorem hom_apply {t : M4} (ht : ∀ j, t 3 j = if j = 3 then 1 else 0) (p : V3) : hom (apply t p) = t *ᵥ hom p := by
  funext i
  fin_cases i
  · exact apply_hom p 0
  · exact apply_hom p 1
  · exact apply_hom p 2
  · simp [hom, Matrix.mulVec, dotProduct, Fin.sum_univ_four, ht]

theorem hom_inj {p q : V3} (h : hom p = hom q) : p = q := by
  funext i
  fin_cases i
  · exact congrFun h 0
  · exact congrFun h 1
  · exact congrFun h 2

theorem IsPose.unit {t : M4} (h : IsPose t) : IsUnit t.det := isUnit_iff_ne_zero.mpr h.det

theorem IsPose.inv {t : M4} (h : IsPose t) : IsPose t⁻¹ := by
  constructor
  · have h1 : (fun j => if j = (3 : Fin 4) then (1 : ℝ) else 0) ᵥ* t = fun j => if j = (3 : Fin 4) then (1 : ℝ) else 0 := by
      funext j
      rw [← h.row j]
      simp [Matrix.vecMul, dotProduct]
    have h2 : (fun j => if j = (3 : Fin 4) then (1 : ℝ) else 0) ᵥ* t⁻¹ = fun j => if j = (3 : Fin 4) then (1 : ℝ) else 0 := by
      conv_lhs => rw [← h1]
      rw [Matrix.vecMul_vecMul, Matrix.mul_nonsing_inv t h.unit, Matrix.vecMul_one]
    intro j
    have := congrFun h2 j
    simp only [Matrix.vecMul, dotProduct, ite_mul, one_mul, zero_mul, Finset.sum_ite_eq', Finset.mem_univ, if_true] at this
    exact this
  · rw [Matrix.det_nonsing_inv]
    simp [h.det]

theorem IsPose.mul {s t : M4} (hs : IsPose s) (ht : IsPose t) : IsPose (s * t) := by
  constructor
  · intro j
    simp [Matrix.mul_apply, hs.row, ht.row]
  · rw [Matrix.det_mul]
    exact mul_ne_zero hs.det ht.det

theorem apply_mul {s t : M4} (hs : IsPose s) (ht : IsPose t) (p : V3) : apply (s * t) p = apply s (apply t p) := by
  apply hom_inj
  rw [hom_apply (hs.mul ht).row, hom_apply hs.row, hom_apply ht.row, Matrix.mulVec_mulVec]

theorem apply_one (p : V3) : apply 1 p = p := by
  funext i
  rw [apply_hom, Matrix.one_mulVec]
  fin_cases i <;> rfl

theorem inv_pose {t : M4} (h : IsPose t) : inv t = some t⁻¹ := by
  unfold inv
  rw [if_neg h.det]

theorem apply_inv_apply {t : M4} (h : IsPose t) (p : V3) : apply t⁻¹ (apply t p) = p := by
  rw [← apply_mul h.inv h, Matrix.nonsing_inv_mul t h.unit, apply_one]

theorem apply_apply_inv {t : M4} (h : IsPose t) (p : V3) : apply t (apply t⁻¹ p) = p := by
  rw [← apply_mul h h.inv, Matrix.mul_nonsing_inv t h.unit, apply_one]

/-- C56: the transformed point is the one that stands for the same world point in the target frame. -/
theorem transformPoint_spec {a b : M4} (ha : IsPose a) (hb : IsPose b) (p q : V3) :
    transformPoint p a b = some q ↔ apply b q = apply a p := by
  unfold transformPoint
  rw [inv_pose hb]
  simp only [Option.bind_eq_bind, Option.bind_some, Option.pure_def, Option.some.injEq]
  rw [apply_mul hb.inv ha]
  constructor
  · rintro rfl
    exact apply_apply_inv hb _
  · intro h
    rw [← h, apply_inv_apply hb]

/-- C56: there and back is the identity. -/
theorem transformPoint_back {a b : M4} (ha : IsPose a) (hb : IsPose b) (p : V3) :
    (transformPoint p a b).bind (fun q => transformPoint q b a) = some p := by
  have h1 : transformPoint p a b = some (apply b⁻¹ (apply a p)) := by
    rw [transformPoint_spec ha hb, apply_apply_inv hb]
  rw [h1, Option.bind_some, transformPoint_spec hb ha, apply_apply_inv hb]

/-- C56: transforms compose. -/
theorem transformPoint_trans {a b c : M4} (ha : IsPose a) (hb : IsPose b) (hc : IsPose c) (p : V3) :
    (transformPoint p a b).bind (fun q => transformPoint q b c) = transformPoint p a c := by
  have h1 : transformPoint p a b = some (apply b⁻¹ (apply a p)) := by
    rw [transformPoint_spec ha hb, apply_apply_inv hb]
  have h2 : transformPoint p a c = some (apply c⁻¹ (apply a p)) := by
    rw [transformPoint_spec ha hc, apply_apply_inv hc]
  rw [h1, h2, Option.bind_some, transformPoint_spec hb hc, apply_apply_inv hb, apply_apply_inv hc]

theorem apply_transform (r : M3) (t p : V3) : apply (transform r t) p = r *ᵥ p + t := by
  funext i
  fin_cases i <;> simp [apply, rotationPart, translationPart, transform, Matrix.mulVec, dotProduct, Fin.sum_univ_three]

theorem transform_mul (r s : M3) (t u : V3) : transform r t * transform s u = transform (r * s) (r *ᵥ u + t) := by
  ext i j
  fin_cases i <;> fin_cases j <;>
    simp [transform, Matrix.mul_apply, Fin.sum_univ_four, Fin.sum_univ_three, Matrix.mulVec, dotProduct]

theorem transform_one : transform 1 0 = 1 := by
  ext i j
  fin_cases i <;> fin_cases j <;> simp [transform]

theorem transform_right_inv {r : M3} (hr : r * rᵀ = 1) (t : V3) : transform r t * transform rᵀ (-(rᵀ *ᵥ t)) = 1 := by
  rw [transform_mul, hr, Matrix.mulVec_neg, Matrix.mulVec_mulVec, hr, Matrix.one_mulVec, neg_add_cancel, transform_one]

theorem transform_isPose {r : M3} (hr : r * rᵀ = 1) (t : V3) : IsPose (transform r t) := by
  constructor
  · intro j
    fin_cases j <;> simp [transform]
  · intro h0
    have := congrArg Matrix.det (transform_right_inv hr t)
    rw [Matrix.det_mul, h0, zero_mul, Matrix.det_one] at this
    exact zero_ne_one this

/-- C56: every rigid transform built by the library is such a pose. -/
theorem rigid_isPose (r p y : ℝ) (t : V3) : IsPose (transform (rotationMatrix r p y) t) :=
  transform_isPose (rotation_orthogonal r p y) t

theorem inv_transform {r : M3} (hr : r * rᵀ = 1) (t : V3) :
    inv (transform r t) = some (transform rᵀ (-(rᵀ *ᵥ t))) := by
  rw [inv_pose (transform_isPose hr t), Matrix.inv_eq_right_inv (transform_right_inv hr t)]

/-! ### Membership -/

/-- The point lies `a` in front, `l` to the left and `u` above the centre of the box. -/
def At (b : Box) (p : V3) (a l u : ℝ) : Prop :=
  p 0 = b.center 0 + a * Real.cos b.heading - l * Real.sin b.heading ∧
    p 1 = b.center 1 + a * Real.sin b.heading + l * Real.cos b.heading ∧ p 2 = b.center 2 + u

/-- Membership in a box: within half the length, width and height of its centre.  Boxes without volume are empty. -/
def Within (p : V3) (b : Box) : Prop :=
  (∀ j, b.dim j ≠ 0) ∧ ∃ a l u, At b p a l u ∧ |a| ≤ b.dim 0 / 2 ∧ |l| ≤ b.dim 1 / 2 ∧ |u| ≤ b.dim 2 / 2

theorem at_local (b : Box) (p : V3) {a l u : ℝ} (h : At b p a l u) :
    a = (p 0 - b.center 0) * Real.cos b.heading + (p 1 - b.center 1) * Real.sin b.heading ∧
    l = (p 1 - b.center 1) * Real.cos b.heading - (p 0 - b.center 0) * Real.sin b.heading ∧ u = p 2 - b.center 2 := by
  obtain ⟨h1, h2, h3⟩ := h
  have := Real.sin_sq_add_cos_sq b.heading
  rw [h1, h2, h3]
  refine ⟨?_, ?_, by ring⟩
  · linear_combination -a * this
  · linear_combination -l * this

theorem local_at (b : Box) (p : V3) :
    At b p ((p 0 - b.center 0) * Real.cos b.heading + (p 1 - b.center 1) * Real.sin b.heading)
      ((p 1 - b.center 1) * Real.cos b.heading - (p 0 - b.center 0) * Real.sin b.heading) (p 2 - b.center 2) := by
  have := Real.sin_sq_add_cos_sq b.heading
  refine ⟨?_, ?_, by ring⟩
  · linear_combination -(p 0 - b.center 0) * this
  · linear_combination -(p 1 - b.center 1) * this

theorem within_iff (p : V3) (b : Box) : Within p b ↔ (∀ j, b.dim j ≠ 0) ∧
    |(p 0 - b.center 0) * Real.cos b.heading + (p 1 - b.center 1) * Real.sin b.heading| ≤ b.dim 0 / 2 ∧
    |(p 1 - b.center 1) * Real.cos b.heading - (p 0 - b.center 0) * Real.sin b.heading| ≤ b.dim 1 / 2 ∧
    |p 2 - b.center 2| ≤ b.dim 2 / 2 := by
  refine and_congr_right fun _ => ⟨?_, fun h => ⟨_, _, _, local_at b p, h⟩⟩
  rintro ⟨a, l, u, h, h1, h2, h3⟩
  obtain ⟨e1, e2, e3⟩ := at_local b p h
  exact ⟨e1 ▸ h1, e2 ▸ h2, e3 ▸ h3⟩

theorem mulVec_yaw_transpose (h : ℝ) (v : V3) :
    (yawRotation h)ᵀ *ᵥ v = ![v 0 * Real.cos h + v 1 * Real.sin h, v 1 * Real.cos h - v 0 * Real.sin h, v 2] := by
  funext i
  fin_cases i <;> simp [yawRotation, Matrix.mulVec, dotProduct, Fin.sum_univ_three] <;> ring

theorem bounds_iff (q d : ℝ) : (q ≤ d * (1 / 2) ∧ q ≥ -d * (1 / 2)) ↔ |q| ≤ d / 2 := by
  rw [abs_le]
  constructor
  · rintro ⟨h1, h2⟩; exact ⟨by linarith, by linarith⟩
  · rintro ⟨h1, h2⟩; exact ⟨by linarith, by linarith⟩

open Classical in
/-- C56: `is_within_box_3d` never fails and decides membership. -/
theorem isWithin3d_spec (p : V3) (b : Box) : isWithin3d p b = some (decide (Within p b)) := by
  unfold isWithin3d
  rw [inv_transform (yaw_orthogonal b.heading)]
  simp only [Option.bind_eq_bind, Option.bind_some, Option.pure_def, Option.some.injEq, decide_eq_decide]
  rw [within_iff]
  have hq : apply (transform (yawRotation b.heading)ᵀ (-((yawRotation b.heading)ᵀ *ᵥ b.center))) p =
      ![(p 0 - b.center 0) * Real.cos b.heading + (p 1 - b.center 1) * Real.sin b.heading,
        (p 1 - b.center 1) * Real.cos b.heading - (p 0 - b.center 0) * Real.sin b.heading, p 2 - b.center 2] := by
    rw [apply_transform, ← sub_eq_add_neg, ← Matrix.mulVec_sub, mulVec_yaw_transpose]
    rfl
  rw [hq]
  constructor
  · intro h
    refine ⟨(h 0).2, (bounds_iff _ _).mp (h 0).1, (bounds_iff _ _).mp (h 1).1, (bounds_iff _ _).mp (h 2).1⟩
  · rintro ⟨h0, h1, h2, h3⟩ i
    refine ⟨(bounds_iff _ _).mpr ?_, h0⟩
    fin_cases i
    · exact h1
    · exact h2
    · exact h3

/-- Membership in a bird's eye view box. -/
def Within2 (p : V2) (b : Box2) : Prop :=
  (∀ j, b.dim j ≠ 0) ∧
    |(p 0 - b.center 0) * Real.cos b.heading + (p 1 - b.center 1) * Real.sin b.heading| ≤ b.dim 0 / 2 ∧
    |(p 1 - b.center 1) * Real.cos b.heading - (p 0 - b.center 0) * Real.sin b.heading| ≤ b.dim 1 / 2

theorem transform2d_right_inv (h : ℝ) (t : V2) :
    transform2d (yawRotation2d h) t * !![Real.cos h, Real.sin h, -(t 0 * Real.cos h + t 1 * Real.sin h);
      -Real.sin h, Real.cos h, -(t 1 * Real.cos h - t 0 * Real.sin h); 0, 0, 1] = 1 := by
  have := Real.sin_sq_add_cos_sq h
  ext i j
  fin_cases i <;> fin_cases j <;> simp [transform2d, yawRotation2d, Matrix.mul_apply, Fin.sum_univ_three]
  · linear_combination this
  · ring
  · linear_combination -(t 0) * this
  · ring
  · linear_combination this
  · linear_combination -(t 1) * this

open Classical in
/-- C56: `is_within_box_2d` never fails and decides membership. -/
theorem isWithin2d_spec (p : V2) (b : Box2) : isWithin2d p b = some (decide (Within2 p b)) := by
  have hri := transform2d_right_inv b.heading b.center
  have hd : (transform2d (yawRotation2d b.heading) b.center).det ≠ 0 := by
    intro h0
    have := congrArg Matrix.det hri
    rw [Matrix.det_mul, h0, zero_mul, Matrix.det_one] at this
    exact zero_ne_one this
  unfold isWithin2d inv
  rw [if_neg hd, Matrix.inv_eq_right_inv hri]
  simp only [Option.bind_eq_bind, Option.bind_some, Option.pure_def, Option.some.injEq, decide_eq_decide]
  unfold Within2
  set q : V2 := _ + _ with hq
  have h0 : q 0 = (p 0 - b.center 0) * Real.cos b.heading + (p 1 - b.center 1) * Real.sin b.heading := by
    simp [hq, Matrix.mulVec, dotProduct]
    ring
  have h1 : q 1 = (p 1 - b.center 1) * Real.cos b.heading - (p 0 - b.center 0) * Real.sin b.heading := by
    simp [hq, Matrix.mulVec, dotProduct]
    ring
  rw [← h0, ← h1]
  constructor
  · intro h
    exact ⟨(h 0).2, (bounds_iff _ _).mp (h 0).1, (bounds_iff _ _).mp (h 1).1⟩
  · rintro ⟨g0, g1, g2⟩ i
    refine ⟨(bounds_iff _ _).mpr ?_, g0⟩
    fin_cases i
    · exact g1
    · exact g2

/-- C56: a 3D box is its footprint times its vertical extent. -/
theorem within_footprint (p : V3) (b : Box) : Within p b ↔
    Within2 ![p 0, p 1] ⟨![b.center 0, b.center 1], ![b.dim 0, b.dim 1], b.heading⟩ ∧ b.dim 2 ≠ 0 ∧
      |p 2 - b.center 2| ≤ b.dim 2 / 2 := by
  rw [within_iff]
  unfold Within2
  simp only [Fin.forall_fin_succ, Fin.forall_fin_zero, Matrix.cons_val_zero, Matrix.cons_val_one, Fin.succ_zero_eq_one,
    Fin.succ_one_eq_two, Matrix.cons_val_succ, and_true]
  tauto

/-- C56: the number of points in a box is the number of its members. -/
theorem numPointsInBox_spec (ps : List V3) (b : Box) [DecidablePred fun p => Within p b] :
    numPointsInBox ps b = some (ps.countP fun p => decide (Within p b)) := by
  classical
  have h : ps.mapM (fun p => isWithin3d p b) = some (ps.map fun p => decide (Within p b)) := by
    induction ps with
    | nil => rfl
    | cons p rest ih =>
      rw [List.mapM_cons, ih, isWithin3d_spec]
      simp
  unfold numPointsInBox
  rw [h]
  simp only [Option.bind_eq_bind, Option.bind_some, Option.pure_def, Option.some.injEq, List.map_map]
  induction ps with
  | nil => rfl
  | cons p rest ih =>
    have h' : rest.mapM (fun p => isWithin3d p b) = some (rest.map fun p => decide (Within p b)) := by
      clear ih h
      induction rest with
      | nil => rfl
      | cons p rest ih =>
        rw [List.mapM_cons, ih, isWithin3d_spec]
        simp
    rw [List.map_cons, List.sum_cons, ih h', List.countP_cons]
    by_cases hp : Within p b <;> simp [hp, Nat.add_comm]

/-! ### Invariance -/

/-- A yaw rotation by `α` about the origin followed by a translation. -/
noncomputable def movePoint (α : ℝ) (t p : V3) : V3 := yawRotation α *ᵥ p + t

noncomputable def moveBox (α : ℝ) (t : V3) (b : Box) : Box := ⟨movePoint α t b.center, b.dim, b.heading + α⟩

theorem yaw_mulVec (h : ℝ) (v : V3) :
    yawRotation h *ᵥ v = ![v 0 * Real.cos h - v 1 * Real.sin h, v 0 * Real.sin h + v 1 * Real.cos h, v 2] := by
  funext i
  fin_cases i <;> simp [yawRotation, Matrix.mulVec, dotProduct, Fin.sum_univ_three] <;> ring

/-- C56: membership is invariant under a common yaw rotation and translation of box and point. -/
theorem within_move (α : ℝ) (t p : V3) (b : Box) : Within (movePoint α t p) (moveBox α t b) ↔ Within p b := by
  rw [within_iff, within_iff]
  have hs := Real.sin_sq_add_cos_sq α
  have hd : ∀ i, movePoint α t p i - movePoint α t b.center i = (yawRotation α *ᵥ (p - b.center)) i := by
    intro i
    simp only [movePoint, Pi.add_apply, Matrix.mulVec_sub, Pi.sub_apply]
    ring
  simp only [moveBox, hd]
  rw [yaw_mulVec]
  simp only [Matrix.cons_val_zero, Matrix.cons_val_one, Matrix.cons_val, Pi.sub_apply, Real.cos_add, Real.sin_add]
  have e1 : ((p 0 - b.center 0) * Real.cos α - (p 1 - b.center 1) * Real.sin α) *
        (Real.cos b.heading * Real.cos α - Real.sin b.heading * Real.sin α) +
      ((p 0 - b.center 0) * Real.sin α + (p 1 - b.center 1) * Real.cos α) *
        (Real.sin b.heading * Real.cos α + Real.cos b.heading * Real.sin α) =
      (p 0 - b.center 0) * Real.cos b.heading + (p 1 - b.center 1) * Real.sin b.heading := by
    linear_combination ((p 0 - b.center 0) * Real.cos b.heading + (p 1 - b.center 1) * Real.sin b.heading) * hs
  have e2 : ((p 0 - b.center 0) * Real.sin α + (p 1 - b.center 1) * Real.cos α) *
        (Real.cos b.heading * Real.cos α - Real.sin b.heading * Real.sin α) -
      ((p 0 - b.center 0) * Real.cos α - (p 1 - b.center 1) * Real.sin α) *
        (Real.sin b.heading * Real.cos α + Real.cos b.heading * Real.sin α) =
      (p 1 - b.center 1) * Real.cos b.heading - (p 0 - b.center 0) * Real.sin b.heading := by
    linear_combination ((p 1 - b.center 1) * Real.cos b.heading - (p 0 - b.center 0) * Real.sin b.heading) * hs
  rw [e1, e2]

/-- Membership depends on the direction of a box only, not on how its angle is written. -/
theorem within_congr {p : V3} {b b' : Box} (hc : b.center = b'.center) (hd : b.dim = b'.dim)
    (h1 : Real.cos b.heading = Real.cos b'.heading) (h2 : Real.sin b.heading = Real.sin b'.heading) :
    Within p b ↔ Within p b' := by
  rw [within_iff, within_iff, hc, hd, h1, h2]

theorem between_upright (α β : ℝ) (t u : V3) : ∃ v, (transform (yawRotation β) u)⁻¹ * transform (yawRotation α) t =
    transform (yawRotation (α - β)) v := by
  have h := yaw_orthogonal β
  rw [Matrix.inv_eq_right_inv (transform_right_inv h u), transform_mul]
  refine ⟨(yawRotation β)ᵀ *ᵥ t + -((yawRotation β)ᵀ *ᵥ u), ?_⟩
  congr 1
  have hT : (yawRotation β)ᵀ = yawRotation (-β) := by
    ext i j
    fin_cases i <;> fin_cases j <;> simp [yawRotation]
  rw [hT, yaw_add]
  congr 1
  ring

theorem cos_sin_arg (γ : ℝ) : Real.cos (Complex.arg ⟨Real.cos γ, Real.sin γ⟩) = Real.cos γ ∧
    Real.sin (Complex.arg ⟨Real.cos γ, Real.sin γ⟩) = Real.sin γ := by
  have hn : ‖(⟨Real.cos γ, Real.sin γ⟩ : ℂ)‖ = 1 := by
    have h1 : ‖(⟨Real.cos γ, Real.sin γ⟩ : ℂ)‖ ^ 2 = 1 ^ 2 := by
      rw [← Complex.normSq_eq_norm_sq, Complex.normSq_apply]
      have := Real.sin_sq_add_cos_sq γ
      simp only
      linarith
    exact (sq_eq_sq₀ (norm_nonneg _) zero_le_one).mp h1
  have h0 : (⟨Real.cos γ, Real.sin γ⟩ : ℂ) ≠ 0 := by
    intro h
    rw [h, norm_zero] at hn
    exact zero_ne_one hn
  constructor
  · rw [Complex.cos_arg h0, hn, div_one]
  · rw [Complex.sin_arg, hn, div_one]

/-- C56: transforming a box and a point between two upright frames keeps membership. -/
theorem transformBox_within (α β : ℝ) (t u p : V3) (b : Box) :
    ∃ q b', transformPoint p (transform (yawRotation α) t) (transform (yawRotation β) u) = some q ∧
      transformBox b (transform (yawRotation α) t) (transform (yawRotation β) u) = some b' ∧ b'.dim = b.dim ∧
      (Within q b' ↔ Within p b) := by
  have hb := transform_isPose (yaw_orthogonal β) u
  obtain ⟨v, hv⟩ := between_upright α β t u
  refine ⟨movePoint (α - β) v p, ⟨movePoint (α - β) v b.center, b.dim,
    b.heading + Complex.arg ⟨Real.cos (α - β), Real.sin (α - β)⟩⟩, ?_, ?_, rfl, ?_⟩
  · unfold transformPoint
    rw [inv_pose hb]
    simp only [Option.bind_eq_bind, Option.bind_some, Option.pure_def, Option.some.injEq]
    rw [hv, apply_transform]
    rfl
  · unfold transformBox
    rw [inv_pose hb]
    simp only [Option.bind_eq_bind, Option.bind_some, Option.pure_def, Option.some.injEq]
    rw [hv, apply_transform]
    rfl
  · rw [← within_move (α - β) v p b]
    obtain ⟨h1, h2⟩ := cos_sin_arg (α - β)
    refine within_congr rfl rfl ?_ ?_
    · simp only [moveBox, Real.cos_add, h1, h2]
    · simp only [moveBox, Real.sin_add, h1, h2]

theorem transformBox_upright (α β : ℝ) (t u : V3) (b : Box) :
    ∃ c, transformPoint b.center (transform (yawRotation α) t) (transform (yawRotation β) u) = some c ∧
      transformBox b (transform (yawRotation α) t) (transform (yawRotation β) u) =
        some ⟨c, b.dim, b.heading + Complex.arg ⟨Real.cos (α - β), Real.sin (α - β)⟩⟩ := by
  have hb := transform_isPose (yaw_orthogonal β) u
  obtain ⟨v, hv⟩ := between_upright α β t u
  refine ⟨apply ((transform (yawRotation β) u)⁻¹ * transform (yawRotation α) t) b.center, ?_, ?_⟩
  · unfold transformPoint
    rw [inv_pose hb]
    rfl
  · unfold transformBox
    rw [inv_pose hb]
    simp only [Option.bind_eq_bind, Option.bind_some, Option.pure_def, Option.some.injEq]
    rw [hv]
    rfl

/-- C56: a box taken to another upright frame and back is the same box: same centre, same dimensions, same direction. -/
theorem transformBox_back (α β : ℝ) (t u : V3) (b : Box) :
    ∃ b' b'', transformBox b (transform (yawRotation α) t) (transform (yawRotation β) u) = some b' ∧
      transformBox b' (transform (yawRotation β) u) (transform (yawRotation α) t) = some b'' ∧
      b''.center = b.center ∧ b''.dim = b.dim ∧ Real.cos b''.heading = Real.cos b.heading ∧
      Real.sin b''.heading = Real.sin b.heading := by
  obtain ⟨c, hc, h1⟩ := transformBox_upright α β t u b
  obtain ⟨c', hc', h2⟩ := transformBox_upright β α u t
    ⟨c, b.dim, b.heading + Complex.arg ⟨Real.cos (α - β), Real.sin (α - β)⟩⟩
  refine ⟨_, _, h1, h2, ?_, rfl, ?_, ?_⟩
  · have hback := transformPoint_back (transform_isPose (yaw_orthogonal α) t) (transform_isPose (yaw_orthogonal β) u) b.center
    rw [hc, Option.bind_some] at hback
    rw [hback] at hc'
    exact (Option.some.inj hc').symm
  all_goals
    obtain ⟨e1, e2⟩ := cos_sin_arg (α - β)
    obtain ⟨e3, e4⟩ := cos_sin_arg (β - α)
    have hs := Real.sin_sq_add_cos_sq (α - β)
    have e5 : Real.cos (β - α) = Real.cos (α - β) := by rw [← Real.cos_neg]; congr 1; ring
    have e6 : Real.sin (β - α) = -Real.sin (α - β) := by rw [← Real.sin_neg]; congr 1; ring
    simp only [Real.cos_add, Real.sin_add, e1, e2, e3, e4]
    rw [e5, e6]
  · linear_combination Real.cos b.heading * hs
  · linear_combination Real.sin b.heading * hs

/-! ### Corners -/

/-- The point `a` in front, `l` to the left and `u` above the centre. -/
noncomputable def pointAt (b : Box) (a l u : ℝ) : V3 := yawRotation b.heading *ᵥ ![a, l, u] + b.center

theorem pointAt_apply (b : Box) (a l u : ℝ) : pointAt b a l u =
    ![b.center 0 + a * Real.cos b.heading - l * Real.sin b.heading,
      b.center 1 + a * Real.sin b.heading + l * Real.cos b.heading, b.center 2 + u] := by
  unfold pointAt
  rw [yaw_mulVec]
  funext i
  fin_cases i <;> simp <;> ring

theorem at_iff (b : Box) (p : V3) (a l u : ℝ) : At b p a l u ↔ p = pointAt b a l u := by
  rw [pointAt_apply]
  constructor
  · rintro ⟨h1, h2, h3⟩
    funext i
    fin_cases i
    · exact h1
    · exact h2
    · exact h3
  · rintro rfl
    exact ⟨rfl, rfl, rfl⟩

theorem mem_corners {b : Box} {c : V3} : c ∈ corners b ↔ ∃ s ∈ ({-1, 1} : Set ℝ), ∃ t ∈ ({-1, 1} : Set ℝ),
    ∃ v ∈ ({-1, 1} : Set ℝ), c = pointAt b (s * (b.dim 0 / 2)) (t * (b.dim 1 / 2)) (v * (b.dim 2 / 2)) := by
  simp only [corners, localCorners, List.map_cons, List.map_nil, List.mem_cons, List.not_mem_nil, or_false,
    Set.mem_insert_iff, Set.mem_singleton_iff, exists_eq_or_imp, exists_eq_left, pointAt, neg_mul, one_mul, div_eq_mul_inv]
  tauto

theorem seg {K : Set V3} (hK : Convex ℝ K) {f : ℝ → V3} {d a : ℝ} (hd : 0 < d) (ha : |a| ≤ d)
    (h : f a = (1 / 2 - a / (2 * d)) • f (-d) + (1 / 2 + a / (2 * d)) • f d) (h1 : f (-d) ∈ K) (h2 : f d ∈ K) :
    f a ∈ K := by
  rw [h]
  obtain ⟨h3, h4⟩ := abs_le.mp ha
  refine hK h1 h2 ?_ ?_ (by ring)
  · have : a / (2 * d) ≤ 1 / 2 := by rw [div_le_div_iff₀ (by linarith) (by norm_num)]; linarith
    linarith
  · have : -(1 / 2) ≤ a / (2 * d) := by rw [le_div_iff₀ (by linarith)]; linarith
    linarith

/-- C56: a box with positive dimensions is the convex hull of its corners. -/
theorem convexHull_corners {b : Box} (h : ∀ j, 0 < b.dim j) (p : V3) :
    p ∈ convexHull ℝ {c | c ∈ corners b} ↔ Within p b := by
  constructor
  · intro hp
    have hmin : convexHull ℝ {c | c ∈ corners b} ⊆ {q | Within q b} := by
      refine convexHull_min ?_ ?_
      · intro c hc
        obtain ⟨s, hs, t, ht, v, hv, rfl⟩ := mem_corners.mp hc
        have key : ∀ x ∈ ({-1, 1} : Set ℝ), ∀ j, |x * (b.dim j / 2)| ≤ b.dim j / 2 := by
          intro x hx j
          have := h j
          rw [abs_mul, abs_of_pos (by linarith : 0 < b.dim j / 2)]
          rcases hx with rfl | rfl <;> simp
        exact ⟨fun j => (h j).ne', _, _, _, (at_iff _ _ _ _ _).mpr rfl, key s hs 0, key t ht 1, key v hv 2⟩
      · rintro q ⟨_, a, l, u, hq, h1, h2, h3⟩ q' ⟨_, a', l', u', hq', h1', h2', h3'⟩ x y hx hy hxy
        refine ⟨fun j => (h j).ne', x * a + y * a', x * l + y * l', x * u + y * u', ?_, ?_, ?_, ?_⟩
        · obtain ⟨e1, e2, e3⟩ := hq
          obtain ⟨e1', e2', e3'⟩ := hq'
          have hy' : y = 1 - x := by linarith
          refine ⟨?_, ?_, ?_⟩ <;> simp only [Pi.add_apply, Pi.smul_apply, smul_eq_mul]
          · rw [e1, e1', hy']; ring
          · rw [e2, e2', hy']; ring
          · rw [e3, e3', hy']; ring
        all_goals
          refine (abs_add_le _ _).trans ?_
          rw [abs_mul, abs_mul, abs_of_nonneg hx, abs_of_nonneg hy]
          refine (add_le_add (mul_le_mul_of_nonneg_left (by assumption) hx)
            (mul_le_mul_of_nonneg_left (by assumption) hy)).trans (le_of_eq ?_)
          rw [← add_mul, hxy, one_mul]
    exact hmin hp
  · rintro ⟨_, a, l, u, hat, h1, h2, h3⟩
    rw [(at_iff _ _ _ _ _).mp hat]
    have hK : Convex ℝ (convexHull ℝ {c | c ∈ corners b}) := convex_convexHull ℝ _
    have hpos : ∀ j, 0 < b.dim j / 2 := fun j => half_pos (h j)
    have aff : ∀ {d x : ℝ}, 0 < d → x = (1 / 2 - x / (2 * d)) * -d + (1 / 2 + x / (2 * d)) * d := by
      intro d x hd
      field_simp
      ring
    have c0 : ∀ s ∈ ({-1, 1} : Set ℝ), ∀ t ∈ ({-1, 1} : Set ℝ), ∀ v ∈ ({-1, 1} : Set ℝ),
        pointAt b (s * (b.dim 0 / 2)) (t * (b.dim 1 / 2)) (v * (b.dim 2 / 2)) ∈ convexHull ℝ {c | c ∈ corners b} :=
      fun s hs t ht v hv => subset_convexHull ℝ _ (mem_corners.mpr ⟨s, hs, t, ht, v, hv, rfl⟩)
    have m1 : (-1 : ℝ) ∈ ({-1, 1} : Set ℝ) := by simp
    have p1 : (1 : ℝ) ∈ ({-1, 1} : Set ℝ) := by simp
    have c1 : ∀ t ∈ ({-1, 1} : Set ℝ), ∀ v ∈ ({-1, 1} : Set ℝ),
        pointAt b a (t * (b.dim 1 / 2)) (v * (b.dim 2 / 2)) ∈ convexHull ℝ {c | c ∈ corners b} := by
      intro t ht v hv
      refine seg hK (f := fun a => pointAt b a (t * (b.dim 1 / 2)) (v * (b.dim 2 / 2))) (hpos 0) h1 ?_ ?_ ?_
      · have e := aff (x := a) (hpos 0)
        simp only [pointAt_apply]
        funext i
        fin_cases i <;> simp only [Pi.add_apply, Pi.smul_apply, smul_eq_mul, Matrix.cons_val_zero, Matrix.cons_val_one,
          Fin.zero_eta, Fin.mk_one, Fin.reduceFinMk, Matrix.cons_val] 
        · linear_combination Real.cos b.heading * e
        · linear_combination Real.sin b.heading * e
        · ring
      · simpa using c0 (-1) m1 t ht v hv
      · simpa using c0 1 p1 t ht v hv
    have c2 : ∀ v ∈ ({-1, 1} : Set ℝ), pointAt b a l (v * (b.dim 2 / 2)) ∈ convexHull ℝ {c | c ∈ corners b} := by
      intro v hv
      refine seg hK (f := fun l => pointAt b a l (v * (b.dim 2 / 2))) (hpos 1) h2 ?_ ?_ ?_
      · have e := aff (x := l) (hpos 1)
        simp only [pointAt_apply]
        funext i
        fin_cases i <;> simp only [Pi.add_apply, Pi.smul_apply, smul_eq_mul, Matrix.cons_val_zero, Matrix.cons_val_one,
          Fin.zero_eta, Fin.mk_one, Fin.reduceFinMk, Matrix.cons_val] 
        · linear_combination -Real.sin b.heading * e
        · linear_combination Real.cos b.heading * e
        · ring
      · simpa using c1 (-1) m1 v hv
      · simpa using c1 1 p1 v hv
    refine seg hK (f := fun u => pointAt b a l u) (hpos 2) h3 ?_ ?_ ?_
    · have e := aff (x := u) (hpos 2)
      simp only [pointAt_apply]
      funext i
      fin_cases i <;> simp only [Pi.add_apply, Pi.smul_apply, smul_eq_mul, Matrix.cons_val_zero, Matrix.cons_val_one,
          Fin.zero_eta, Fin.mk_one, Fin.reduceFinMk, Matrix.cons_val] 
      · ring
      · ring
      · linear_combination e
    · simpa using c2 (-1) m1
    · simpa using c2 1 p1

/-- C56: corners are listed bottom layer first, counter-clockwise from the front left one. -/
theorem corners_order (b : Box) : corners b =
    [pointAt b (b.dim 0 / 2) (b.dim 1 / 2) (-(b.dim 2 / 2)), pointAt b (-(b.dim 0 / 2)) (b.dim 1 / 2) (-(b.dim 2 / 2)),
      pointAt b (-(b.dim 0 / 2)) (-(b.dim 1 / 2)) (-(b.dim 2 / 2)), pointAt b (b.dim 0 / 2) (-(b.dim 1 / 2)) (-(b.dim 2 / 2)),
      pointAt b (b.dim 0 / 2) (b.dim 1 / 2) (b.dim 2 / 2), pointAt b (-(b.dim 0 / 2)) (b.dim 1 / 2) (b.dim 2 / 2),
      pointAt b (-(b.dim 0 / 2)) (-(b.dim 1 / 2)) (b.dim 2 / 2), pointAt b (b.dim 0 / 2) (-(b.dim 1 / 2)) (b.dim 2 / 2)] := by
  simp [corners, localCorners, pointAt, div_eq_mul_inv]

/-! ### Non-vacuity and a limit -/

/-- A point inside a turned box and one outside it that a box without heading would contain. -/
theorem example_turned : Within ![0, 2, 0] ⟨![0, 0, 0], ![4, 2, 1], Real.pi / 2⟩ ∧
    ¬ Within ![2, 0, 0] ⟨![0, 0, 0], ![4, 2, 1], Real.pi / 2⟩ := by
  constructor
  · rw [within_iff]
    refine ⟨?_, ?_⟩
    · intro j; fin_cases j <;> norm_num
    · norm_num
      show |(0 : ℝ) - 0| ≤ 1 / 2
      norm_num
  · rw [within_iff]
    rintro ⟨_, _, h, _⟩
    norm_num at h

/-- C56 needs upright frames: with a pitched target frame a box loses points it contained (the box keeps its dimensions
but no longer its axes). -/
theorem transformBox_pitched_violated : ∃ (b : Box) (p q : V3) (b' : Box),
    transformPoint p 1 (transform (rotationMatrix 0 (Real.pi / 2) 0) 0) = some q ∧
    transformBox b 1 (transform (rotationMatrix 0 (Real.pi / 2) 0) 0) = some b' ∧ Within p b ∧ ¬ Within q b' := by
  have hr : rotationMatrix 0 (Real.pi / 2) 0 = !![0, 0, 1; 0, 1, 0; -1, 0, 0] := by
    ext i j
    fin_cases i <;> fin_cases j <;>
      simp [rotationMatrix, yawRotation, pitchRotation, rollRotation, Matrix.mul_apply, Fin.sum_univ_three]
  have ho : rotationMatrix 0 (Real.pi / 2) 0 * (rotationMatrix 0 (Real.pi / 2) 0)ᵀ = 1 := rotation_orthogonal _ _ _
  have hi := inv_transform ho 0
  refine ⟨⟨0, ![4, 2, 1], 0⟩, ![2, 0, 0], ![0, 0, 2], ⟨0, ![4, 2, 1],
    0 + Complex.arg ⟨(transform (rotationMatrix 0 (Real.pi / 2) 0)ᵀ
      (-((rotationMatrix 0 (Real.pi / 2) 0)ᵀ *ᵥ 0)) * 1) 0 0, (transform (rotationMatrix 0 (Real.pi / 2) 0)ᵀ
      (-((rotationMatrix 0 (Real.pi / 2) 0)ᵀ *ᵥ 0)) * 1) 1 0⟩⟩, ?_, ?_, ?_, ?_⟩
  · unfold transformPoint
    rw [hi, Option.bind_eq_bind, Option.bind_some, Matrix.mul_one, apply_transform, hr]
    congr 1
    funext i
    fin_cases i <;> simp [Matrix.mulVec, dotProduct, Fin.sum_univ_three]
  · unfold transformBox
    rw [hi, Option.bind_eq_bind, Option.bind_some]
    have : apply (transform (rotationMatrix 0 (Real.pi / 2) 0)ᵀ (-((rotationMatrix 0 (Real.pi / 2) 0)ᵀ *ᵥ 0)) * 1) 0 = 0 := by
      rw [Matrix.mul_one, apply_transform]
      simp
    simp only [this]
    rfl
  · rw [within_iff]
    refine ⟨?_, ?_⟩
    · intro j; fin_cases j <;> norm_num
    · norm_num
      show |(0 : ℝ)| ≤ 1 / 2
      norm_num
  · rw [within_iff]
    rintro ⟨_, _, _, h⟩
    have h' : |(2 : ℝ) - 0| ≤ 1 / 2 := h
    norm_num at h'

end Verif.Boxes
