import Mathlib.Data.Rat.Defs
import Mathlib.Data.List.Basic

/-!
Extraction of components of version 2 from messages of version 1:
v2/perception/compat_v1/{box,keypoints,camera_image,context,segmentation,pose,interfaces}.py.

Messages are records of optional fields, and reading a field that is not set gives its default.  Numbers are copied only, so
their type does not matter; here they are rational.  An extractor is a generator that yields at most one component:
`.ok none` is an empty generator.  The lidar images are in `Verif.Clouds`.
-/

namespace Verif.Extract

abbrev Num := ℚ

/-- What an extractor raises. -/
inductive Err where
  | assertion
  | extraction
  | key
  | index
  deriving DecidableEq

abbrev Res (α : Type) := Except Err α

/-- `assert`. -/
def require (b : Bool) (e : Err) : Res Unit := if b then .ok () else .error e

/-! ## Messages -/

/-- `Label.Box`, label.proto:24-38. -/
structure Box where
  cx : Option Num := none
  cy : Option Num := none
  cz : Option Num := none
  length : Option Num := none
  width : Option Num := none
  height : Option Num := none
  heading : Option Num := none
  deriving DecidableEq

/-- `Label.Metadata`, label.proto:53-60: speed and acceleration, each with x, y and z. -/
structure Axes where
  x : Option Num := none
  y : Option Num := none
  z : Option Num := none
  deriving DecidableEq

structure Metadata where
  speed : Axes := {}
  accel : Axes := {}
  deriving DecidableEq

/-- `CameraKeypoint` and `LaserKeypoint`, keypoint.proto: type, location and visibility; both inner messages are in
`keypoint_2d` or `keypoint_3d`. -/
structure Place where
  location : Option (List (Option Num)) := none
  visibility : Option (Option Bool) := none
  deriving DecidableEq

structure Keypoint where
  type : Option ℕ := none
  place : Option Place := none
  deriving DecidableEq

/-- `Label`, label.proto:22-136; the two fields of keypoints exclude each other there. -/
structure Label where
  box : Option Box := none
  metadata : Option Metadata := none
  type : Option ℕ := none
  id : Option (List Char) := none
  detection : Option ℕ := none
  tracking : Option ℕ := none
  points : Option ℤ := none
  topPoints : Option ℤ := none
  association : Option (Option (List Char)) := none
  visible : Option (List Char) := none
  synced : Option Box := none
  laserKeypoints : Option (List Keypoint) := none
  cameraKeypoints : Option (List Keypoint) := none
  deriving DecidableEq

/-- The part of `Frame` that keys are made of. -/
structure FrameKey where
  segment : List Char
  time : ℤ
  deriving DecidableEq

/-! ## Components -/

structure Vec3 where
  x : Num
  y : Num
  z : Num
  deriving DecidableEq

structure Box3d where
  center : Vec3
  size : Vec3
  heading : Num
  deriving DecidableEq

structure Box2d where
  center : Num × Num
  size : Num × Num
  deriving DecidableEq

structure LaserBox where
  key : FrameKey × List Char
  box : Box3d
  type : ℕ
  speed : Option Vec3
  acceleration : Option Vec3
  points : ℤ
  topPoints : ℤ
  difficulty : Option (ℕ × ℕ)
  deriving DecidableEq

structure SyncedBox where
  key : FrameKey × List Char
  camera : ℕ
  box : Box3d
  deriving DecidableEq

/-- The key is the frame, the camera and the object of the laser. -/
structure ProjectedBox where
  key : FrameKey × ℕ × List Char
  box : Box2d
  type : ℕ
  deriving DecidableEq

structure CameraBox where
  key : FrameKey × ℕ × List Char
  box : Box2d
  type : ℕ
  difficulty : Option (ℕ × ℕ)
  deriving DecidableEq

/-! ## Boxes -/

/-- `_get_box3d`, box.py:26-46. -/
def box3d (b : Box) : Res Box3d := do
  require b.cx.isSome .assertion
  require b.cy.isSome .assertion
  require b.cz.isSome .assertion
  require b.length.isSome .assertion
  require b.width.isSome .assertion
  require b.height.isSome .assertion
  require b.heading.isSome .assertion
  pure ⟨⟨b.cx.getD 0, b.cy.getD 0, b.cz.getD 0⟩, ⟨b.length.getD 0, b.width.getD 0, b.height.getD 0⟩, b.heading.getD 0⟩

/-- `_get_box_axis_aligned_2d`, box.py:49-68. -/
def box2d (b : Box) : Res Box2d := do
  require b.cx.isSome .assertion
  require b.cy.isSome .assertion
  require b.length.isSome .assertion
  require b.width.isSome .assertion
  require b.cz.isNone .assertion
  require b.height.isNone .assertion
  require b.heading.isNone .assertion
  pure ⟨(b.cx.getD 0, b.cy.getD 0), (b.length.getD 0, b.width.getD 0)⟩

/-- `_get_metadata_vector`, box.py:71-90; which of the two vectors is given by a function. -/
def metadataVector (l : Label) (get : Metadata → Axes) : Res (Option Vec3) :=
  match l.metadata with
  | none => pure none
  | some m => do
    require (get m).x.isSome .assertion
    require (get m).y.isSome .assertion
    pure (some ⟨(get m).x.getD 0, (get m).y.getD 0, (get m).z.getD 0⟩)

/-- `_get_difficulty`, box.py:93-103. -/
def difficulty (l : Label) : Option (ℕ × ℕ) :=
  if l.detection.isNone && l.tracking.isNone then none else some (l.detection.getD 0, l.tracking.getD 0)

/-- `LiDARBoxComponentExtractor`, box.py:106-128. -/
def laserBox (f : FrameKey) (l : Label) : Res (Option LaserBox) :=
  match l.box with
  | none => pure none
  | some b => do
    let box ← box3d b
    let speed ← metadataVector l Metadata.speed
    let accel ← metadataVector l Metadata.accel
    pure (some ⟨(f, l.id.getD []), box, l.type.getD 0, speed, accel, l.points.getD 0, l.topPoints.getD 0, difficulty l⟩)

/-- `CameraName` of version 2, camera_image.py:104-111. -/
def cameraNames : List (List Char) :=
  ["UNKNOWN".toList, "FRONT".toList, "FRONT_LEFT".toList, "FRONT_RIGHT".toList, "SIDE_LEFT".toList, "SIDE_RIGHT".toList]

/-- `CameraName[name].value`: a KeyError for other names. -/
def cameraValue (s : List Char) : Res ℕ :=
  match cameraNames.findIdx? (· == s) with
  | some i => .ok i
  | none => .error .key

/-- `LiDARCameraSyncedBoxComponentExtractor`, box.py:131-154. -/
def syncedBox (f : FrameKey) (l : Label) : Res (Option SyncedBox) :=
  if l.visible.getD [] = [] then pure none
  else match l.synced with
    | none => pure none
    | some b => do
      let camera ← cameraValue (l.visible.getD [])
      let box ← box3d b
      pure (some ⟨(f, l.id.getD []), camera, box⟩)

/-- `_parse_lidar_object_id`, box.py:157-162. -/
def parseId (id : List Char) : Res (List Char × ℕ) := do
  let camera ← cameraValue (id.drop 23)
  pure (id.take 22, camera)

/-- `ProjectedLiDARBoxComponentExtractor`, box.py:165-187. -/
def projectedBox (f : FrameKey) (l : Label) : Res (Option ProjectedBox) :=
  match l.box with
  | none => pure none
  | some b => do
    let (object, camera) ← parseId (l.id.getD [])
    let box ← box2d b
    pure (some ⟨(f, camera, object), box, l.type.getD 0⟩)

/-- `CameraBoxComponentExtractor`, box.py:190-210. -/
def cameraBox (f : FrameKey) (camera : ℕ) (l : Label) : Res (Option CameraBox) :=
  match l.box with
  | none => pure none
  | some b => do
    let box ← box2d b
    pure (some ⟨(f, camera, l.id.getD []), box, l.type.getD 0, difficulty l⟩)

/-- `CameraToLiDARBoxAssociationComponentExtractor`, box.py:213-230: a key of frame, camera, object of the camera and object of
the laser. -/
def association (f : FrameKey) (camera : ℕ) (l : Label) : Option (FrameKey × ℕ × List Char × List Char) :=
  l.association.map fun a => (f, camera, l.id.getD [], a.getD [])

/-! ## Keypoints -/

/-- `assert_has_fields`, interfaces.py:77-81, for the fields of a keypoint, keypoints.py:26-32 and 59-65. -/
def requireKeypoint (k : Keypoint) : Res Unit := do
  require k.type.isSome .extraction
  require k.place.isSome .extraction
  require (k.place.getD {}).location.isSome .extraction
  require (k.place.getD {}).visibility.isSome .extraction

/-- `CameraHumanKeypoints` and `LiDARHumanKeypoints`: columns of types, occlusion and coordinates. -/
structure Keypoints where
  type : List ℕ := []
  occluded : List Bool := []
  coords : List (List Num)
  deriving DecidableEq

/-- A coordinate of a location that is not set is zero. -/
def coordinate (k : Keypoint) (i : ℕ) : Num := ((((k.place.getD {}).location.getD [])[i]?).getD none).getD 0

/-- The loops of `_camera_hkp_from_label_proto` and `_lidar_hkp_from_label_proto`, keypoints.py:41-48 and 74-82; `dim` is 2 or 3. -/
def keypointLoop (dim : ℕ) : Keypoints → List Keypoint → Res Keypoints
  | s, [] => pure s
  | s, k :: ks => do
    requireKeypoint k
    keypointLoop dim ⟨s.type ++ [k.type.getD 0], s.occluded ++ [((k.place.getD {}).visibility.getD none).getD false],
      (List.range dim).map fun i => (s.coords.getD i []) ++ [coordinate k i]⟩ ks

/-- `_camera_hkp_from_label_proto` and `_lidar_hkp_from_label_proto`, keypoints.py:35-56 and 68-90. -/
def keypoints (dim : ℕ) (ks : Option (List Keypoint)) : Res (Option Keypoints) :=
  match ks with
  | none => pure none
  | some ks => (keypointLoop dim ⟨[], [], List.replicate dim []⟩ ks).map some

/-- `CameraHumanKeypointsFrameExtractor`, keypoints.py:93-112. -/
def cameraKeypoints (f : FrameKey) (camera : ℕ) (l : Label) : Res (Option ((FrameKey × ℕ × List Char) × Keypoints)) := do
  let k ← keypoints 2 l.cameraKeypoints
  pure (k.map fun k => ((f, camera, l.id.getD []), k))

/-- `LiDARHumanKeypointsFrameExtractor`, keypoints.py:115-132. -/
def laserKeypoints (f : FrameKey) (l : Label) : Res (Option ((FrameKey × List Char) × Keypoints)) := do
  let k ← keypoints 3 l.laserKeypoints
  pure (k.map fun k => ((f, l.id.getD []), k))

/-! ## Cameras, statistics and poses -/

/-- `CameraCalibration`, dataset.proto:96-125. -/
structure CameraCalibration where
  name : Option ℕ := none
  intrinsic : List Num := []
  extrinsic : List Num := []
  width : Option ℤ := none
  height : Option ℤ := none
  direction : Option ℕ := none
  deriving DecidableEq

structure Intrinsic where
  fu : Num
  fv : Num
  cu : Num
  cv : Num
  k1 : Num
  k2 : Num
  p1 : Num
  p2 : Num
  k3 : Num
  deriving DecidableEq

structure Calibration2 where
  key : List Char × ℕ
  intrinsic : Intrinsic
  extrinsic : List Num
  width : ℤ
  height : ℤ
  direction : ℕ
  deriving DecidableEq

/-- `l[i]`. -/
def item (l : List Num) (i : ℕ) : Res Num :=
  match l[i]? with
  | some x => .ok x
  | none => .error .index

/-- `CameraCalibrationComponentExtractor`, context.py:25-60. -/
def calibration (f : FrameKey) (c : CameraCalibration) : Res Calibration2 := do
  let fu ← item c.intrinsic 0
  let fv ← item c.intrinsic 1
  let cu ← item c.intrinsic 2
  let cv ← item c.intrinsic 3
  let k1 ← item c.intrinsic 4
  let k2 ← item c.intrinsic 5
  let p1 ← item c.intrinsic 6
  let p2 ← item c.intrinsic 7
  let k3 ← item c.intrinsic 8
  pure ⟨(f.segment, c.name.getD 0), ⟨fu, fv, cu, cv, k1, k2, p1, p2, k3⟩, c.extrinsic, c.width.getD 0, c.height.getD 0, c.direction.getD 0⟩

/-- `CameraImage`, dataset.proto:315-362; the velocity has `v_x, v_y, v_z, w_x, w_y, w_z`. -/
structure CameraImage where
  name : Option ℕ := none
  image : List UInt8 := []
  pose : List Num := []
  linear : Axes := {}
  angular : Axes := {}
  poseTime : Option Num := none
  shutter : Option Num := none
  trigger : Option Num := none
  readout : Option Num := none
  deriving DecidableEq

structure CameraImage2 where
  key : FrameKey × ℕ
  image : List UInt8
  pose : List Num
  linear : Vec3
  angular : Vec3
  poseTime : Num
  shutter : Num
  trigger : Num
  readout : Num
  deriving DecidableEq

/-- Fields that are not set are zero. -/
def Axes.vec (a : Axes) : Vec3 := ⟨a.x.getD 0, a.y.getD 0, a.z.getD 0⟩

/-- `CameraImageComponentExtractor`, camera_image.py:24-62. -/
def cameraImage (f : FrameKey) (c : CameraImage) : CameraImage2 :=
  ⟨(f, c.name.getD 0), c.image, c.pose, c.linear.vec, c.angular.vec, c.poseTime.getD 0, c.shutter.getD 0, c.trigger.getD 0, c.readout.getD 0⟩

/-- `_parse_object_counts`, context.py:95-104. -/
def objectCounts (l : List (Option ℕ × Option ℤ)) : Option (List ℕ × List ℤ) :=
  if l = [] then none else some (l.map fun c => c.1.getD 0, l.map fun c => c.2.getD 0)

/-- `CameraSegmentationLabel`, dataset.proto:274-312: divisor, image, mappings, sequence and coverage. -/
structure SegLabel where
  divisor : Option ℤ := none
  image : List UInt8 := []
  mapping : List (Option ℤ × Option ℤ × Option Bool) := []
  sequence : Option (List Char) := none
  coverage : List UInt8 := []
  deriving DecidableEq

structure SegLabel2 where
  key : FrameKey × ℕ
  divisor : ℤ
  image : List UInt8
  locals : List ℤ
  globals : List ℤ
  tracked : List Bool
  sequence : List Char
  coverage : List UInt8
  deriving DecidableEq

/-- The loop over the mappings, segmentation.py:40-44. -/
def mappingLoop : List ℤ × List ℤ × List Bool → List (Option ℤ × Option ℤ × Option Bool) → List ℤ × List ℤ × List Bool
  | s, [] => s
  | s, m :: ms => mappingLoop (s.1 ++ [m.1.getD 0], s.2.1 ++ [m.2.1.getD 0], s.2.2 ++ [m.2.2.getD false]) ms

/-- `CameraSegmentationLabelComponentExtractor`, segmentation.py:24-58. -/
def segLabel (f : FrameKey) (camera : ℕ) (l : Option SegLabel) : Option SegLabel2 :=
  l.map fun l =>
    let m := mappingLoop ([], [], []) l.mapping
    ⟨(f, camera), l.divisor.getD 0, l.image, m.1, m.2.1, m.2.2, l.sequence.getD [], l.coverage⟩

/-- `LaserCalibration`, dataset.proto:127-140. -/
structure LaserCalibration where
  name : Option ℕ := none
  inclinations : List Num := []
  min : Option Num := none
  max : Option Num := none
  extrinsic : List Num := []
  deriving DecidableEq

structure LaserCalibration2 where
  key : List Char × ℕ
  extrinsic : List Num
  min : Num
  max : Num
  values : Option (List Num)
  deriving DecidableEq

/-- `LiDARCalibrationComponentExtractor`, context.py:63-92. -/
def laserCalibration (f : FrameKey) (c : LaserCalibration) : LaserCalibration2 :=
  ⟨(f.segment, c.name.getD 0), c.extrinsic, c.min.getD 0, c.max.getD 0, if c.inclinations = [] then none else some c.inclinations⟩

/-- `Context.Stats`, dataset.proto:148-162. -/
structure Stats where
  laser : List (Option ℕ × Option ℤ) := []
  timeOfDay : Option (List Char) := none
  location : Option (List Char) := none
  weather : Option (List Char) := none
  camera : List (Option ℕ × Option ℤ) := []
  deriving DecidableEq

structure Stats2 where
  key : FrameKey
  timeOfDay : List Char
  location : List Char
  weather : List Char
  laser : Option (List ℕ × List ℤ)
  camera : Option (List ℕ × List ℤ)
  deriving DecidableEq

/-- `StatsComponentExtractor`, context.py:107-129. -/
def stats (f : FrameKey) (s : Stats) : Stats2 :=
  ⟨f, s.timeOfDay.getD [], s.location.getD [], s.weather.getD [], objectCounts s.laser, objectCounts s.camera⟩

/-- `VehiclePoseFrameExtractor`, pose.py:24-38. -/
def vehiclePose (f : FrameKey) (transform : List Num) : FrameKey × List Num := (f, transform)

end Verif.Extract
