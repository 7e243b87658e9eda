import Verif.Model.Clouds

/-!
Model of `convert_frame_to_dict`, utils/frame_utils.py:238-365.  Numbers are real; `single` is the conversion to
`np.float32` and a parameter, and so is the decoding of JPEG images.  Arrays are given by their dimensions and elements.
`none` is an exception.  The names of the enumerations are those of dataset.proto:50-76; other numbers are errors.
-/

namespace Verif.FrameDict

open Verif.Clouds (Bytes Codec Frame Parsed Calibration Raw)

/-- `LaserName.Name.Name`, dataset.proto:66-76. -/
def laserNames : List String := ["UNKNOWN", "TOP", "FRONT", "SIDE_LEFT", "SIDE_RIGHT", "REAR"]

/-- `CameraName.Name.Name`, dataset.proto:50-62. -/
def cameraNames : List String :=
  ["UNKNOWN", "FRONT", "FRONT_LEFT", "FRONT_RIGHT", "SIDE_LEFT", "SIDE_RIGHT", "REAR_LEFT", "REAR", "REAR_RIGHT"]

/-- A NumPy array: real numbers, integers, a range image with its points, or a picture. -/
inductive Value (P : Type)
  | reals (dims : List ℕ) (data : List ℝ)
  | ints (dims : List ℕ) (data : List ℤ)
  | grid (rows : List (List (List ℝ)))
  | picture (p : P)

/-- The fields of `CameraImage` that are read, dataset.proto:315-358; the velocity is `v_x, v_y, v_z, w_x, w_y, w_z`. -/
structure CameraImage where
  name : ℕ
  image : Bytes
  pose : List ℝ
  vx : ℝ
  vy : ℝ
  vz : ℝ
  wx : ℝ
  wy : ℝ
  wz : ℝ
  poseTimestamp : ℝ
  shutter : ℝ
  triggerTime : ℝ
  readoutDoneTime : ℝ

/-- `CameraCalibration`, dataset.proto:96-125. -/
structure CameraCalibration where
  name : ℕ
  intrinsic : List ℝ
  extrinsic : List ℝ
  width : ℤ
  height : ℤ
  direction : ℤ

/-- The parts of a frame that are read. -/
structure FullFrame where
  frame : Frame
  images : List CameraImage
  cameras : List CameraCalibration
  timestamp : ℤ

noncomputable section

variable {P : Type}

/-- `np.reshape(np.array(data, np.float32), dims)`: the sizes have to agree. -/
def floats (single : ℝ → ℝ) (dims : List ℕ) (data : List ℝ) : Option (Value P) :=
  if data.length = dims.prod then some (.reals dims (data.map single)) else none

/-- `np.reshape(np.array(data), dims)` of integers. -/
def integers (dims : List ℕ) (data : List ℤ) : Option (Value P) :=
  if data.length = dims.prod then some (.ints dims data) else none

/-- The inclinations of a laser, frame_utils.py:302-312. -/
def beamEntry (single : ℝ → ℝ) (s : Parsed) (c : Calibration) : Option (Value P) :=
  if c.beams = [] then do
    let l ← s.ranges c.name
    let r ← l[0]?
    let h ← r.dims[0]?
    pure (Value.reals [h] (RangeImage.inclinations c.lo c.hi h))
  else some (.reals [c.beams.length] (c.beams.map single))

/-- The loop over the calibrations of the lasers, frame_utils.py:299-325. -/
def laserEntries (single : ℝ → ℝ) (s : Parsed) (first second : ℕ → Option (List (List (List ℝ)))) (c : Calibration) :
    Option (List (String × Value P)) := do
  let n ← laserNames[c.name]?
  let beams ← beamEntry single s c
  let extrinsic ← floats single [4, 4] c.extrinsic
  let a ← first c.name
  let b ← second c.name
  let l ← s.projections c.name
  let p ← l[0]?
  let p ← integers p.dims p.data
  let q ← l[1]?
  let q ← integers q.dims q.data
  pure [(n ++ "_BEAM_INCLINATION", beams), (n ++ "_LIDAR_EXTRINSIC", extrinsic),
    (n ++ "_RANGE_IMAGE_FIRST_RETURN", .grid a), (n ++ "_RANGE_IMAGE_SECOND_RETURN", .grid b),
    (n ++ "_CAM_PROJ_FIRST_RETURN", p), (n ++ "_CAM_PROJ_SECOND_RETURN", q)]

/-- The loop over the images, frame_utils.py:328-343. -/
def imageEntries (single : ℝ → ℝ) (jpeg : Bytes → Option P) (i : CameraImage) : Option (List (String × Value P)) := do
  let n ← cameraNames[i.name]?
  let p ← jpeg i.image
  let pose ← floats single [4, 4] i.pose
  pure [(n ++ "_IMAGE", .picture p),
    (n ++ "_SDC_VELOCITY", .reals [6] ([i.vx, i.vy, i.vz, i.wx, i.wy, i.wz].map single)),
    (n ++ "_POSE", pose), (n ++ "_POSE_TIMESTAMP", .reals [] [single i.poseTimestamp]),
    (n ++ "_ROLLING_SHUTTER_DURATION", .reals [] [i.shutter]), (n ++ "_CAMERA_TRIGGER_TIME", .reals [] [i.triggerTime]),
    (n ++ "_CAMERA_READOUT_DONE_TIME", .reals [] [i.readoutDoneTime])]

/-- The loop over the calibrations of the cameras, frame_utils.py:346-354. -/
def cameraEntries (single : ℝ → ℝ) (c : CameraCalibration) : Option (List (String × Value P)) := do
  let n ← cameraNames[c.name]?
  let e ← floats single [4, 4] c.extrinsic
  pure [(n ++ "_INTRINSIC", .reals [c.intrinsic.length] (c.intrinsic.map single)), (n ++ "_EXTRINSIC", e),
    (n ++ "_WIDTH", .ints [] [c.width]), (n ++ "_HEIGHT", .ints [] [c.height]),
    (n ++ "_ROLLING_SHUTTER_DIRECTION", .ints [] [c.direction])]

/-- The last three entries, frame_utils.py:357-363. -/
def lastEntries (single : ℝ → ℝ) (s : Parsed) (f : FullFrame) : Option (List (String × Value P)) := do
  let t ← floats single s.topPose.dims s.topPose.data
  let p ← floats single [4, 4] f.frame.pose
  pure [("TOP_RANGE_IMAGE_POSE", t), ("POSE", p), ("TIMESTAMP", .ints [] [f.timestamp])]

/-- `data_dict[key] = value`, one after another. -/
def fill (entries : List (String × Value P)) : String → Option (Value P) :=
  entries.foldl (fun d e => Function.update d e.1 (some e.2)) fun _ => none

/-- `convert_frame_to_dict`, frame_utils.py:238-365. -/
def toDict (D : Codec) (jpeg : Bytes → Option P) (single : ℝ → ℝ) (f : FullFrame) : Option (String → Option (Value P)) := do
  let s ← Clouds.parse D f.frame
  let first ← Clouds.toCartesian f.frame s 0 true
  let second ← Clouds.toCartesian f.frame s 1 true
  let ls ← f.frame.calibrations.mapM (laserEntries single s first second)
  let is ← f.images.mapM (imageEntries single jpeg)
  let cs ← f.cameras.mapM (cameraEntries single)
  let es ← lastEntries single s f
  pure (fill (ls.flatten ++ is.flatten ++ cs.flatten ++ es))

end

end Verif.FrameDict
