import Verif.Model.Camera

/-!
The operations on tensors of the camera model, wdl_limited/camera/ops/camera_model_ops.cc.

Tensors are lists of rows, and numbers are real: the rounding of `float` is only modelled for times (`float30`).  `none` is a failed `CHECK`; an input
that cannot be read by TensorFlow is not modelled.
-/

namespace Verif.CameraOps

open Verif.Camera

/-- `kIntrinsicLen`, camera_model_ops.cc:47. -/
def kIntrinsicLen : ℕ := 9
/-- `kMetadataLen`, camera_model_ops.cc:49. -/
def kMetadataLen : ℕ := 3
/-- `kCameraImageMedataLen`, camera_model_ops.cc:51. -/
def kCameraImageMedataLen : ℕ := 26

/-- `Input`, camera_model_ops.cc:53-59, without the coordinates. -/
structure Input where
  extrinsic : List (List ℝ)
  intrinsic : List ℝ
  metadata : List ℤ
  imageMetadata : List ℝ

/-- `ToEigenTransform` on the numbers of a transform, camera_model.cc:66-75: the first three rows of four. -/
def toIso (l : List ℝ) : Iso :=
  ⟨!![l.getD 0 0, l.getD 1 0, l.getD 2 0; l.getD 4 0, l.getD 5 0, l.getD 6 0; l.getD 8 0, l.getD 9 0, l.getD 10 0],
    ![l.getD 3 0, l.getD 7 0, l.getD 11 0]⟩

/-- The conversion of the number of a direction, camera_model_ops.cc:98-100, with the numbers of dataset.proto:114-121; for other numbers, which end
the program like `UNKNOWN` does, `unknown`. -/
def toDir (n : ℤ) : Dir :=
  if n = 1 then .topToBottom else if n = 2 then .leftToRight else if n = 3 then .bottomToTop else if n = 4 then .rightToLeft
  else if n = 5 then .globalShutter else .unknown

/-- The calibration of `ParseInput`, camera_model_ops.cc:80-100. -/
def parseCalib (x : Input) : Option Calib :=
  if x.extrinsic.length = 4 ∧ (∀ row ∈ x.extrinsic, row.length = 4) ∧ x.intrinsic.length = kIntrinsicLen ∧ x.metadata.length = kMetadataLen then
    some ⟨x.intrinsic.getD 0 0, x.intrinsic.getD 1 0, x.intrinsic.getD 2 0, x.intrinsic.getD 3 0, x.intrinsic.getD 4 0, x.intrinsic.getD 5 0,
      x.intrinsic.getD 6 0, x.intrinsic.getD 7 0, x.intrinsic.getD 8 0, toIso x.extrinsic.flatten, x.metadata.getD 0 0, x.metadata.getD 1 0,
      toDir (x.metadata.getD 2 0)⟩
  else none

/-- The image of `ParseInput`, camera_model_ops.cc:101-117. -/
def parseImage (x : Input) : Option Image :=
  if x.imageMetadata.length = kCameraImageMedataLen then
    let l := x.imageMetadata
    some ⟨toIso (l.take 16), ![l.getD 16 0, l.getD 17 0, l.getD 18 0], ![l.getD 19 0, l.getD 20 0, l.getD 21 0], l.getD 22 0, l.getD 23 0, l.getD 24 0,
      l.getD 25 0⟩
  else none

/-- The model of an operation, camera_model_ops.cc:136-141. -/
noncomputable def prepared (x : Input) : Option Model := do
  let c ← parseCalib x
  let i ← parseImage x
  (Model.new c).prepare i

/-- A row of coordinates. -/
def toVec (row : List ℝ) : Vec := ![row.getD 0 0, row.getD 1 0, row.getD 2 0]

/-- A row of the result, camera_model_ops.cc:147-160: the outputs are 0 unless written. -/
noncomputable def outRow (returnDepth : Bool) (p : Proj) : List ℝ :=
  let px := p.pixel.getD (0, 0)
  let valid : ℝ := if p.ok then 1 else 0
  if returnDepth then [px.1, px.2, p.depth.getD 0, valid] else [px.1, px.2, valid]

/-- `WorldToImageOp::Compute`, camera_model_ops.cc:126-162. -/
noncomputable def worldToImageOp (returnDepth : Bool) (x : Input) (points : List (List ℝ)) : Option (List (List ℝ)) := do
  let m ← prepared x
  if ∀ row ∈ points, row.length = 3 then points.mapM (fun row => (m.worldToImage false (toVec row)).map (outRow returnDepth)) else none

/-- `WorldToImageMovingPointOp::Compute`, camera_model_ops.cc:182-222; as many velocities as points are expected. -/
noncomputable def worldToImageMovingOp (returnDepth : Bool) (x : Input) (points velocities : List (List ℝ)) : Option (List (List ℝ)) := do
  let m ← prepared x
  if ∀ row ∈ points, row.length = 3 then
    (points.zip velocities).mapM (fun row => (m.worldToImageMoving false (toVec row.1) (toVec row.2)).map (outRow returnDepth))
  else none

/-- `ImageToWorldOp::Compute`, camera_model_ops.cc:243-275. -/
noncomputable def imageToWorldOp (x : Input) (points : List (List ℝ)) : Option (List (List ℝ)) := do
  let m ← prepared x
  if ∀ row ∈ points, row.length = 3 then
    points.mapM (fun row => (m.imageToWorld (row.getD 0 0) (row.getD 1 0) (row.getD 2 0)).map (fun p => [p 0, p 1, p 2]))
  else none

/-- A number as `float` if it is at least 2^30 and less than 2^31: the nearest multiple of 128 (ties up; the float has 24 significant bits). -/
noncomputable def float30 (t : ℝ) : ℝ := 128 * (⌊t / 128 + 1 / 2⌋ : ℤ)

end Verif.CameraOps
