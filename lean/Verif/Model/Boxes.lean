import Mathlib.Analysis.SpecialFunctions.Complex.Arg
import Mathlib.LinearAlgebra.Matrix.NonsingularInverse
import Mathlib.Data.Matrix.Reflection

/-!
Model of utils/transform_utils.py and utils/box_utils.py, for one point, box and pose at a time: the batch dimensions only
repeat the computation.  Floating point numbers are real numbers, `tf.linalg.inv` is the exact inverse and fails for a
singular matrix.
-/

namespace Verif.Boxes

open Matrix

noncomputable section

/-- A point, `[x, y, z]`. -/
abbrev V3 := Fin 3 → ℝ

/-- A 2D point. -/
abbrev V2 := Fin 2 → ℝ

abbrev M3 := Matrix (Fin 3) (Fin 3) ℝ

abbrev M4 := Matrix (Fin 4) (Fin 4) ℝ

/-- `get_yaw_rotation`, transform_utils.py:29-53. -/
def yawRotation (yaw : ℝ) : M3 :=
  !![Real.cos yaw, -1 * Real.sin yaw, 0; Real.sin yaw, Real.cos yaw, 0; 0, 0, 1]

/-- `get_yaw_rotation_2d`, transform_utils.py:55-74. -/
def yawRotation2d (yaw : ℝ) : Matrix (Fin 2) (Fin 2) ℝ :=
  !![Real.cos yaw, -1 * Real.sin yaw; Real.sin yaw, Real.cos yaw]

/-- `r_roll`, transform_utils.py:107-112. -/
def rollRotation (roll : ℝ) : M3 :=
  !![1, 0, 0; 0, Real.cos roll, -1 * Real.sin roll; 0, Real.sin roll, Real.cos roll]

/-- `r_pitch`, transform_utils.py:113-118. -/
def pitchRotation (pitch : ℝ) : M3 :=
  !![Real.cos pitch, 0, Real.sin pitch; 0, 1, 0; -1 * Real.sin pitch, 0, Real.cos pitch]

/-- `get_rotation_matrix`, transform_utils.py:77-126. -/
def rotationMatrix (roll pitch yaw : ℝ) : M3 := yawRotation yaw * (pitchRotation pitch * rollRotation roll)

/-- `get_transform`, transform_utils.py:129-152, for three dimensions. -/
def transform (r : M3) (t : V3) : M4 :=
  !![r 0 0, r 0 1, r 0 2, t 0; r 1 0, r 1 1, r 1 2, t 1; r 2 0, r 2 1, r 2 2, t 2; 0, 0, 0, 1]

/-- `get_transform`, transform_utils.py:129-152, for two dimensions. -/
def transform2d (r : Matrix (Fin 2) (Fin 2) ℝ) (t : V2) : M3 :=
  !![r 0 0, r 0 1, t 0; r 1 0, r 1 1, t 1; 0, 0, 1]

open Classical in
/-- `tf.linalg.inv`. -/
def inv {n : ℕ} (m : Matrix (Fin n) (Fin n) ℝ) : Option (Matrix (Fin n) (Fin n) ℝ) := if m.det = 0 then none else some m⁻¹

/-- `transform[..., 0:3, 0:3]`. -/
def rotationPart (t : M4) : M3 := fun i j => t i.castSucc j.castSucc

/-- `transform[..., 0:3, 3]`. -/
def translationPart (t : M4) : V3 := fun i => t i.castSucc 3

/-- `einsum('...ij,...nj->...ni', rotation, point) + translation`, box_utils.py:58 and 191-193. -/
def apply (t : M4) (p : V3) : V3 := rotationPart t *ᵥ p + translationPart t

/-- A box, `[center_x, center_y, center_z, length, width, height, heading]`. -/
structure Box where
  center : V3
  dim : V3
  heading : ℝ

open Classical in
/-- `is_within_box_3d`, box_utils.py:29-70. -/
def isWithin3d (p : V3) (b : Box) : Option Bool := do
  let t ← inv (transform (yawRotation b.heading) b.center)
  let q := apply t p
  pure (decide (∀ i, (q i ≤ b.dim i * (1 / 2) ∧ q i ≥ -b.dim i * (1 / 2)) ∧ ∀ j, b.dim j ≠ 0))

/-- A bird's eye view box, `[center_x, center_y, length, width, heading]`. -/
structure Box2 where
  center : V2
  dim : V2
  heading : ℝ

open Classical in
/-- `is_within_box_2d`, box_utils.py:73-113. -/
def isWithin2d (p : V2) (b : Box2) : Option Bool := do
  let t ← inv (transform2d (yawRotation2d b.heading) b.center)
  let q : V2 := (fun i j => t i.castSucc j.castSucc : Matrix (Fin 2) (Fin 2) ℝ) *ᵥ p + fun i => t i.castSucc 2
  pure (decide (∀ i, (q i ≤ b.dim i * (1 / 2) ∧ q i ≥ -b.dim i * (1 / 2)) ∧ ∀ j, b.dim j ≠ 0))

/-- `compute_num_points_in_box_3d`, box_utils.py:116-133, for one box. -/
def numPointsInBox (ps : List V3) (b : Box) : Option ℕ := do
  let l ← ps.mapM fun p => isWithin3d p b
  pure (l.map fun x => if x then 1 else 0).sum

/-- The corners in the frame of the box, box_utils.py:159-169. -/
def localCorners (d : V3) : List V3 :=
  let l2 := d 0 * (1 / 2)
  let w2 := d 1 * (1 / 2)
  let h2 := d 2 * (1 / 2)
  [![l2, w2, -h2], ![-l2, w2, -h2], ![-l2, -w2, -h2], ![l2, -w2, -h2], ![l2, w2, h2], ![-l2, w2, h2], ![-l2, -w2, h2],
    ![l2, -w2, h2]]

/-- `get_upright_3d_box_corners`, box_utils.py:136-174. -/
def corners (b : Box) : List V3 := (localCorners b.dim).map fun c => yawRotation b.heading *ᵥ c + b.center

/-- `transform_point`, box_utils.py:177-193. -/
def transformPoint (p : V3) (fromPose toPose : M4) : Option V3 := do
  let i ← inv toPose
  pure (apply (i * fromPose) p)

/-- `transform_box`, box_utils.py:196-215; `atan2 y x` is `Complex.arg ⟨x, y⟩`. -/
def transformBox (b : Box) (fromPose toPose : M4) : Option Box := do
  let i ← inv toPose
  let t := i * fromPose
  pure ⟨apply t b.center, b.dim, b.heading + Complex.arg ⟨t 0 0, t 1 0⟩⟩

end

end Verif.Boxes
