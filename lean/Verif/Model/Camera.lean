import Mathlib.Data.Matrix.Mul
import Mathlib.Data.Real.Basic
import Mathlib.Data.Real.Sqrt
import Mathlib.LinearAlgebra.Matrix.Notation

/-!
The camera model, wdl_limited/camera/camera_model.{h,cc}, and the operations on tensors, wdl_limited/camera/ops/camera_model_ops.cc.

Numbers are real: rounding, infinities and NaN are not modelled (a division by zero gives zero).  `none` is a failed `CHECK`, or
`LOG(FATAL)`.  An output that a function does not write is `none` in `Proj`.
-/

namespace Verif.Camera

open Matrix

/-- `Eigen::Vector3d`. -/
abbrev Vec := Fin 3 → ℝ
/-- `Eigen::Matrix3d`. -/
abbrev Mat := Matrix (Fin 3) (Fin 3) ℝ

/-- `Eigen::Isometry3d`, read from the first twelve numbers of `Transform` by `ToEigenTransform`, camera_model.cc:66-75. -/
structure Iso where
  rot : Mat
  trans : Vec

namespace Iso

/-- The product of Eigen. -/
def mul (a b : Iso) : Iso := ⟨a.rot * b.rot, a.rot *ᵥ b.trans + a.trans⟩

/-- The inverse of Eigen for isometries: the transposed matrix. -/
def inverse (a : Iso) : Iso := ⟨a.rotᵀ, -(a.rotᵀ *ᵥ a.trans)⟩

/-- The product with a point of Eigen. -/
def apply (a : Iso) (p : Vec) : Vec := a.rot *ᵥ p + a.trans

end Iso

/-- `RollingShutterReadOutDirection`, dataset.proto:114-121. -/
inductive Dir where
  | unknown
  | topToBottom
  | leftToRight
  | bottomToTop
  | rightToLeft
  | globalShutter
  deriving DecidableEq

/-- `CameraCalibration`, dataset.proto:96-125; the names of the intrinsics are those of camera_model.cc:113-119, 576-584. -/
structure Calib where
  fu : ℝ
  fv : ℝ
  cu : ℝ
  cv : ℝ
  k1 : ℝ
  k2 : ℝ
  k3 : ℝ
  k4 : ℝ
  k5 : ℝ
  ext : Iso
  width : ℤ
  height : ℤ
  dir : Dir

/-- `CameraImage`, dataset.proto:315-364, without the image. -/
structure Image where
  pose : Iso
  vel : Vec
  omega : Vec
  poseTime : ℝ
  shutter : ℝ
  trigger : ℝ
  done : ℝ

/-- `SkewSymmetric`, camera_model.cc:56-64. -/
def skew (v : Vec) : Mat := !![0, -v 2, v 1; v 2, 0, -v 0; -v 1, v 0, 0]

/-- `GetPixelTimestamp`, camera_model.cc:77-106. -/
noncomputable def pixelTime (dir : Dir) (shutter trigger done : ℝ) (width height : ℤ) (x y : ℝ) : Option ℝ :=
  let readout := done - trigger - shutter
  let base := trigger + 0.5 * shutter
  match dir with
  | .topToBottom => some (base + readout / height * y)
  | .bottomToTop => some (base + readout / height * (height - y))
  | .leftToRight => some (base + readout / width * x)
  | .rightToLeft => some (base + readout / width * (width - x))
  | _ => none

/-! ## The lens -/

namespace Calib

/-- `rd`, camera_model.cc:142-145, and `r_d`, camera_model.cc:587-593. -/
def radial (c : Calib) (p : ℝ × ℝ) : ℝ :=
  let r2 := p.1 * p.1 + p.2 * p.2
  1 + r2 * c.k1 + r2 * r2 * c.k2 + r2 * r2 * r2 * c.k5

/-- The tangential distortion, camera_model.cc:149-150. -/
def tangential (c : Calib) (p : ℝ × ℝ) : ℝ × ℝ :=
  let r2 := p.1 * p.1 + p.2 * p.2
  (2 * c.k3 * p.1 * p.2 + c.k4 * (r2 + 2 * p.1 * p.1), 2 * c.k4 * p.1 * p.2 + c.k3 * (r2 + 2 * p.2 * p.2))

/-- The body of the loop of `IterateUndistortion`, camera_model.cc:142-152. -/
noncomputable def undistStep (c : Calib) (target p : ℝ × ℝ) : ℝ × ℝ :=
  ((target.1 - (c.tangential p).1) / c.radial p, (target.2 - (c.tangential p).2) / c.radial p)

/-- `min_delta2`, camera_model.cc:135. -/
noncomputable def minDelta2 (c : Calib) : ℝ := 1e-12 / (c.fu * c.fu + c.fv * c.fv)

/-- The loop of `IterateUndistortion`, camera_model.cc:141-160, with the number of iterations left. -/
noncomputable def undistLoop (c : Calib) (target : ℝ × ℝ) : ℕ → ℝ × ℝ → ℝ × ℝ
  | 0, p => p
  | n + 1, p =>
    let q := c.undistStep target p
    if (q.1 - p.1) * (q.1 - p.1) + (q.2 - p.2) * (q.2 - p.2) < c.minDelta2 then q else undistLoop c target n q

/-- `kMaxNumIterations`, camera_model.cc:139. -/
def kMaxNumIterations : ℕ := 20

/-- `IterateUndistortion`, camera_model.cc:109-161. -/
noncomputable def iterateUndistortion (c : Calib) (target : ℝ × ℝ) : Option (ℝ × ℝ) :=
  if 0 < c.fu ∧ 0 < c.fv then some (c.undistLoop target kMaxNumIterations target) else none

/-- `ImageToDirection`, camera_model.cc:560-572. -/
noncomputable def imageToDirection (c : Calib) (u v : ℝ) : Option (ℝ × ℝ) :=
  c.iterateUndistortion ((u - c.cu) / c.fu, (v - c.cv) / c.fv)

/-- `kMinRadialDistortion`, camera_model.cc:49. -/
noncomputable def kMinRadialDistortion : ℝ := 0.8
/-- `kMaxRadialDistortion`, camera_model.cc:50. -/
noncomputable def kMaxRadialDistortion : ℝ := 1.2

/-- `DirectionToImage`, camera_model.cc:574-619: the result and the pixel. -/
noncomputable def directionToImage (c : Calib) (p : ℝ × ℝ) : Bool × (ℝ × ℝ) :=
  let r2 := p.1 * p.1 + p.2 * p.2
  if c.radial p < kMinRadialDistortion ∨ kMaxRadialDistortion < c.radial p then
    let radius := √((c.width : ℝ) * c.width + (c.height : ℝ) * c.height)
    (false, (p.1 * (1 / √r2) * radius + c.cu, p.2 * (1 / √r2) * radius + c.cv))
  else
    let und := p.1 * c.radial p + 2 * c.k3 * p.1 * p.2 + c.k4 * (r2 + 2 * p.1 * p.1)
    let vnd := p.2 * c.radial p + c.k3 * (r2 + 2 * p.2 * p.2) + 2 * c.k4 * p.1 * p.2
    (true, (und * c.fu + c.cu, vnd * c.fv + c.cv))

/-- `InImage`, camera_model.cc:534-538. -/
noncomputable def inImage (c : Calib) (p : ℝ × ℝ) : Bool :=
  open scoped Classical in decide (0 ≤ p.1 ∧ p.1 < c.width ∧ 0 ≤ p.2 ∧ p.2 < c.height)

end Calib

/-! ## The state -/

/-- `RollingShutterState`, camera_model.cc:169-192. -/
structure Rolling where
  poseOffset : ℝ
  factor : ℝ
  factorPixel : ℝ
  principal : ℝ × ℝ
  tfm : Iso
  vel : Vec
  skewOmega : Mat
  dcm : Mat
  skewOmegaDcm : Mat
  horizontal : Bool

/-- `GlobalShutterState`, camera_model.cc:194-201. -/
structure Global where
  tfm : Iso
  inv : Iso
  vehicle : Iso

/-- The members of `CameraModel`, camera_model.h:187-189. -/
structure Model where
  calib : Calib
  rolling : Option Rolling
  global : Option Global

namespace Calib

/-- Whether the image is read from right to left or from left to right, camera_model.cc:249-256. -/
def horizontal (c : Calib) : Bool := decide (c.dir = .rightToLeft ∨ c.dir = .leftToRight)

/-- `readout_reverse_direction`, camera_model.cc:277-283. -/
def reversed (c : Calib) : Bool := decide (c.dir = .rightToLeft ∨ c.dir = .bottomToTop)

/-- `normalized_coord_range`, camera_model.cc:259-275. -/
noncomputable def coordRange (c : Calib) : Option ℝ :=
  if c.horizontal then do
    let a ← c.imageToDirection 0 (0.5 * c.height)
    let b ← c.imageToDirection c.width (0.5 * c.height)
    pure (b.1 - a.1)
  else do
    let a ← c.imageToDirection (0.5 * c.width) 0
    let b ← c.imageToDirection (0.5 * c.width) c.height
    pure (b.2 - a.2)

/-- `range_in_pixel_space`, camera_model.cc:260, 267, 274. -/
def pixelRange (c : Calib) : ℝ := if c.horizontal then c.width else c.height

/-- The rolling shutter state of `PrepareProjection`, camera_model.cc:229-317: every member is assigned, so that the previous state does not
matter. -/
noncomputable def prepareRolling (c : Calib) (i : Image) : Option Rolling := do
  let readout := i.done - i.trigger - i.shutter
  let tPrincipal ← pixelTime c.dir i.shutter i.trigger i.done c.width c.height c.cu c.cv
  let range ← c.coordRange
  let tfm := i.pose.mul c.ext
  let nOmega := i.pose.rot *ᵥ i.omega
  let camOmega := c.ext.rotᵀ *ᵥ i.omega
  let arm := i.pose.rot *ᵥ c.ext.trans
  pure {
    poseOffset := i.poseTime - tPrincipal
    factor := if c.reversed then -readout / range else readout / range
    factorPixel := if c.reversed then -readout / c.pixelRange else readout / c.pixelRange
    principal := (c.cu, c.cv)
    tfm := tfm
    vel := i.vel + skew nOmega *ᵥ arm
    skewOmega := skew camOmega
    dcm := tfm.rotᵀ
    skewOmegaDcm := -skew camOmega * tfm.rotᵀ
    horizontal := c.horizontal }

end Calib

namespace Model

/-- The constructor, camera_model.cc:203-204. -/
def new (c : Calib) : Model := ⟨c, none, none⟩

/-- `PrepareProjection`, camera_model.cc:212-318. -/
noncomputable def prepare (m : Model) (i : Image) : Option Model := do
  let tfm := i.pose.mul m.calib.ext
  let g : Global := ⟨tfm, tfm.inverse, m.calib.ext⟩
  if m.calib.dir = .globalShutter then pure ⟨m.calib, m.rolling, some g⟩
  else
    let r ← m.calib.prepareRolling i
    pure ⟨m.calib, some r, some g⟩

end Model

/-! ## Rolling shutter -/

namespace Rolling

/-- `cam_dcm_n`, camera_model.cc:457-458, 632-633. -/
def dcmAt (r : Rolling) (t : ℝ) : Mat := r.dcm + t • r.skewOmegaDcm
/-- `n_pos_cam`, camera_model.cc:459-461, 634-636. -/
def posAt (r : Rolling) (t : ℝ) : Vec := r.tfm.trans + t • r.vel
/-- `cam_pos_f`, camera_model.cc:637-638. -/
def camPos (r : Rolling) (p v : Vec) (t : ℝ) : Vec := r.dcmAt t *ᵥ (p + t • v - r.posAt t)
/-- `normalized_coord`, camera_model.cc:645-646. -/
noncomputable def coord (r : Rolling) (p v : Vec) (t : ℝ) : ℝ × ℝ :=
  (-(r.camPos p v t 1) / r.camPos p v t 0, -(r.camPos p v t 2) / r.camPos p v t 0)
/-- `normalized_spacing`, camera_model.cc:650-653. -/
noncomputable def spacing (r : Rolling) (p v : Vec) (t : ℝ) : ℝ := if r.horizontal then (r.coord p v t).1 else (r.coord p v t).2
/-- `residual`, camera_model.cc:654-656. -/
noncomputable def residual (r : Rolling) (p v : Vec) (t : ℝ) : ℝ := t - r.spacing p v t * r.factor + r.poseOffset
/-- `jacobian_landmark_to_index`, camera_model.cc:661-663. -/
def landmark (r : Rolling) (p v : Vec) (t : ℝ) : Vec := r.dcmAt t *ᵥ (v - r.vel) - r.skewOmega *ᵥ r.camPos p v t
/-- `jacobian`, camera_model.cc:665-673. -/
noncomputable def jacobian (r : Rolling) (p v : Vec) (t : ℝ) : ℝ :=
  1 - (if r.horizontal then r.factor / r.camPos p v t 0 * ((r.coord p v t).1 * r.landmark p v t 0 - r.landmark p v t 1)
    else r.factor / r.camPos p v t 0 * ((r.coord p v t).2 * r.landmark p v t 0 - r.landmark p v t 2))

/-- `kThreshold`, camera_model.cc:363. -/
noncomputable def kThreshold : ℝ := 1e-5
/-- `kMaxIterNum`, camera_model.cc:365. -/
def kMaxIterNum : ℕ := 4
/-- `kMaxFinalResidualError`, camera_model.cc:368. -/
noncomputable def kMaxFinalResidualError : ℝ := 0.1

/-- The loop of `WorldToImageMovingPointWithDepth`, camera_model.cc:375-392: the iterations left, `t_h` and `residual`; `none` if the point is
behind the camera. -/
noncomputable def newton (r : Rolling) (p v : Vec) : ℕ → ℝ → ℝ → Option (ℝ × ℝ)
  | 0, t, res => some (t, res)
  | n + 1, t, res =>
    if kThreshold < |res| then
      if r.camPos p v t 0 ≤ 0 then none
      else newton r p v n (t - r.residual p v t / r.jacobian p v t) (r.residual p v t)
    else some (t, res)

end Rolling

/-- The results of a projection: the value returned and the outputs written. -/
structure Proj where
  ok : Bool
  pixel : Option (ℝ × ℝ)
  depth : Option ℝ

/-- The outputs for a point behind the camera, camera_model.cc:380-384, 403-407, 509-513. -/
def Proj.behind : Proj := ⟨false, some (-1, -1), some (-1)⟩

namespace Calib

/-- The end of a projection: the pixel of a direction and the test of the bounds, camera_model.cc:410-423, 520-525. -/
noncomputable def finish (c : Calib) (check : Bool) (d : ℝ × ℝ) (depth : ℝ) : Proj :=
  let q := c.directionToImage d
  ⟨if q.1 then (if check then c.inImage q.2 else true) else false, some q.2, some depth⟩

/-- `CameraToImageWithDepth`, camera_model.cc:504-526. -/
noncomputable def cameraToImage (c : Calib) (check : Bool) (p : Vec) : Proj :=
  if p 0 ≤ 0 then .behind else c.finish check (-(p 1) / p 0, -(p 2) / p 0) (p 0)

/-- The rolling shutter part of `WorldToImageMovingPointWithDepth`, camera_model.cc:354-423. -/
noncomputable def worldToImageRolling (c : Calib) (r : Rolling) (check : Bool) (p v : Vec) : Proj :=
  match r.newton p v Rolling.kMaxIterNum 0 (2 * Rolling.kThreshold) with
  | none => .behind
  | some (t, res) =>
    if Rolling.kMaxFinalResidualError < |res| then ⟨false, none, none⟩
    else if r.camPos p v t 0 ≤ 0 then .behind
    else c.finish check (r.coord p v t) (r.camPos p v t 0)

end Calib

namespace Model

/-- `WorldToImageMovingPointWithDepth`, camera_model.cc:344-424, and `WorldToImageWithDepthGlobalShutter`, camera_model.cc:540-551. -/
noncomputable def worldToImageMoving (m : Model) (check : Bool) (p v : Vec) : Option Proj :=
  if m.calib.dir = .globalShutter then m.global.map (fun g => m.calib.cameraToImage check (g.inv.apply p))
  else m.rolling.map (fun r => m.calib.worldToImageRolling r check p v)

/-- `WorldToImageWithDepth`, camera_model.cc:426-431. -/
noncomputable def worldToImage (m : Model) (check : Bool) (p : Vec) : Option Proj := m.worldToImageMoving check p 0

/-- `ImageToWorldGlobalShutter`, camera_model.cc:473-486. -/
noncomputable def imageToWorldGlobal (m : Model) (u v depth : ℝ) : Option Vec := do
  let d ← m.calib.imageToDirection u v
  let g ← m.global
  pure (g.tfm.apply ![depth, -d.1 * depth, -d.2 * depth])

/-- `ImageToVehicleGlobalShutter`, camera_model.cc:488-502. -/
noncomputable def imageToVehicle (m : Model) (u v depth : ℝ) : Option Vec := do
  let g ← m.global
  let d ← m.calib.imageToDirection u v
  pure (g.vehicle.apply ![depth, -d.1 * depth, -d.2 * depth])

/-- `t_h` of a pixel, camera_model.cc:449-455. -/
noncomputable def pixelOffset (r : Rolling) (u v : ℝ) : ℝ :=
  r.factorPixel * (if r.horizontal then u - r.principal.1 else v - r.principal.2) - r.poseOffset

/-- `ImageToWorld`, camera_model.cc:440-471. -/
noncomputable def imageToWorld (m : Model) (u v depth : ℝ) : Option Vec :=
  if m.calib.dir = .globalShutter then m.imageToWorldGlobal u v depth
  else do
    let r ← m.rolling
    let d ← m.calib.imageToDirection u v
    let t := pixelOffset r u v
    pure ((r.dcmAt t)ᵀ *ᵥ ![depth, -d.1 * depth, -d.2 * depth] + r.posAt t)

end Model

end Verif.Camera
