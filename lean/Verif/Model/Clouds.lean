import Verif.Model.RangeImage

/-!
Point clouds of frames: utils/frame_utils.py ("frame"), v2/perception/utils/lidar_utils.py ("lidar"), the extractors of
v2/perception/compat_v1/{lidar,pose,context}.py that feed the latter, and utils/womd_lidar_utils.py ("womd").

Floating point numbers are real numbers.  Bytes are decompressed and parsed by functions that are parameters, because the
compression and the protocol buffers are libraries; an empty string is special in the code and so it is here.  Dimensions of
images are natural numbers.  `none` is an exception.
-/

namespace Verif.Clouds

open Verif.Boxes (V3 M4)

noncomputable section

abbrev Bytes := List UInt8

/-- `MatrixFloat` and `MatrixInt32`, dataset.proto:24-48: elements and dimensions. -/
structure Raw (α : Type) where
  data : List α := []
  dims : List ℕ := []

/-- A tensor `[H, W, C]`. -/
structure Image (α : Type) where
  h : ℕ
  w : ℕ
  c : ℕ
  data : List α

/-- `tf.reshape(data, dims)`, frame:155-156, v2/perception/lidar.py `tensor`.  Tensors of another rank are errors later on. -/
def reshape {α : Type} (m : Raw α) : Option (Image α) :=
  match m.dims with
  | [h, w, c] => if m.data.length = h * w * c then some ⟨h, w, c, m.data⟩ else none
  | _ => none

/-- An element of a tensor. -/
def Image.at {α : Type} [Inhabited α] (x : Image α) (row col ch : ℕ) : α := x.data.getD ((row * x.w + col) * x.c + ch) default

/-- The channels of a pixel. -/
def Image.cell {α : Type} [Inhabited α] (x : Image α) (row col : ℕ) : List α := (List.range x.c).map fun k => x.at row col k

/-- How bytes are decompressed and parsed. -/
structure Codec where
  floats : Bytes → Option (Raw ℝ)
  ints : Bytes → Option (Raw ℤ)

/-- `RangeImage`, dataset.proto:179-269. -/
structure Return where
  range : Bytes := []
  projection : Bytes := []
  pose : Bytes := []
  seg : Bytes := []

/-- `Laser`, dataset.proto:375-379. -/
structure Laser where
  name : ℕ
  ret1 : Return := {}
  ret2 : Return := {}

/-- `LaserCalibration`, dataset.proto:127-140. -/
structure Calibration where
  name : ℕ
  beams : List ℝ := []
  lo : ℝ := 0
  hi : ℝ := 0
  extrinsic : List ℝ

/-- The parts of `Frame` that are read. -/
structure Frame where
  pose : List ℝ
  lasers : List Laser
  calibrations : List Calibration

/-! ## Parsing -/

/-- What `parse_range_image_and_camera_projection` returns; dictionaries are functions. -/
structure Parsed where
  ranges : ℕ → Option (List (Raw ℝ)) := fun _ => none
  projections : ℕ → Option (List (Raw ℤ)) := fun _ => none
  segs : ℕ → Option (List (Raw ℤ)) := fun _ => none
  topPose : Raw ℝ := {}

/-- `d[k] = [v]`. -/
def put {α : Type} (d : ℕ → Option (List α)) (k : ℕ) (v : α) : ℕ → Option (List α) := Function.update d k (some [v])

/-- `d[k].append(v)`: `none` is a KeyError. -/
def append {α : Type} (d : ℕ → Option (List α)) (k : ℕ) (v : α) : Option (ℕ → Option (List α)) :=
  (d k).map fun l => Function.update d k (some (l ++ [v]))

/-- The first return of a laser, frame:56-81.  The name of TOP is 1. -/
def parseFirst (D : Codec) (s : Parsed) (l : Laser) : Option Parsed :=
  if l.ret1.range = [] then some s
  else do
    let ri ← D.floats l.ret1.range
    let top ← if l.name = 1 then D.floats l.ret1.pose else some s.topPose
    let cp ← D.ints l.ret1.projection
    let segs ← if l.ret1.seg = [] then some s.segs else (D.ints l.ret1.seg).map fun g => put s.segs l.name g
    pure ⟨put s.ranges l.name ri, put s.projections l.name cp, segs, top⟩

/-- The second return of a laser, frame:82-100. -/
def parseSecond (D : Codec) (s : Parsed) (l : Laser) : Option Parsed :=
  if l.ret2.range = [] then some s
  else do
    let ri ← D.floats l.ret2.range
    let ranges ← append s.ranges l.name ri
    let cp ← D.ints l.ret2.projection
    let projections ← append s.projections l.name cp
    let segs ← if l.ret2.seg = [] then some s.segs else (D.ints l.ret2.seg).bind fun g => append s.segs l.name g
    pure ⟨ranges, projections, segs, s.topPose⟩

/-- The loop over the lasers. -/
def parseLasers (D : Codec) : Parsed → List Laser → Option Parsed
  | s, [] => some s
  | s, l :: ls => do
    let s ← parseFirst D s l
    let s ← parseSecond D s l
    parseLasers D s ls

/-- `parse_range_image_and_camera_projection`, frame:34-101. -/
def parse (D : Codec) (f : Frame) : Option Parsed := parseLasers D {} f.lasers

/-! ## Cartesian coordinates -/

/-- `np.reshape(np.array(transform), [4, 4])`, frame:127-128 and 153. -/
def matrix (t : List ℝ) : Option M4 := if t.length = 16 then some fun i j => t.getD (4 * i.val + j.val) 0 else none

/-- The pose of a pixel, frame:130-141, lidar:50-57: roll, pitch, yaw and translation. -/
def poseAt (p : Image ℝ) (row col : ℕ) : M4 :=
  Boxes.transform (Boxes.rotationMatrix (p.at row col 0) (p.at row col 1) (p.at row col 2)) ![p.at row col 3, p.at row col 4, p.at row col 5]

/-- The tensor of poses; the six channels are necessary to build matrices of them. -/
def poses (p : Raw ℝ) : Option (Image ℝ) := do
  let x ← reshape p
  if x.c = 6 then pure x else none

/-- The inclinations of the rows, frame:145-152, lidar:91-104: the list is reversed. -/
def rowInclinations (beams : List ℝ) (lo hi : ℝ) (height : ℕ) : List ℝ :=
  (if beams = [] then RangeImage.inclinations lo hi height else beams).reverse

/-- `extract_point_cloud_from_range_image` for an image, range_image_utils.py:610-647.  Stacking the polar coordinates needs an inclination for
each row; the poses need the size of the image, and the inverse of the pose of the frame is computed even if there is no
pixel. -/
def cartesian (x : Image ℝ) (extrinsic : M4) (incl : List ℝ) (pose : Option (Image ℝ)) (frame : Option M4) :
    Option (List (List V3)) :=
  if x.c = 0 ∨ incl.length ≠ x.h then none
  else match pose with
    | none => (List.range x.h).mapM fun r => (List.range x.w).mapM fun c =>
        RangeImage.extract extrinsic incl x.w r c (x.at r c 0) none none
    | some p =>
      if p.h ≠ x.h ∨ p.w ≠ x.w then none
      else match frame with
        | none => none
        | some f => do
          let _ ← Boxes.inv f
          (List.range x.h).mapM fun r => (List.range x.w).mapM fun c =>
            RangeImage.extract extrinsic incl x.w r c (x.at r c 0) (some (poseAt p r c)) (some f)

/-- An image with the polar features in front, if they are kept, frame:172-177, lidar:131-138. -/
def withPolar (keep : Bool) (x : Image ℝ) (points : List (List V3)) : List (List (List ℝ)) :=
  (List.range x.h).map fun r => (List.range x.w).map fun c =>
    (if keep then (x.cell r c).take 3 else []) ++
      (((points[r]?).bind fun row => row[c]?).map fun p => [p 0, p 1, p 2]).getD []

/-- The loop body of `convert_range_image_to_cartesian`, frame:143-179. -/
def cartesianOf (s : Parsed) (frame : M4) (top : Image ℝ) (index : ℕ) (keep : Bool) (c : Calibration) :
    Option (List (List (List ℝ))) := do
  let l ← s.ranges c.name
  let ri ← l[index]?
  let height ← if c.beams = [] then ri.dims[0]? else some 0
  let extrinsic ← matrix c.extrinsic
  let x ← reshape ri
  let incl := rowInclinations c.beams c.lo c.hi height
  let points ← cartesian x extrinsic incl (if c.name = 1 then some top else none) (if c.name = 1 then some frame else none)
  pure (withPolar keep x points)

/-- `convert_range_image_to_cartesian`, frame:104-181.  The poses of the pixels of TOP are used before the loop. -/
def toCartesian (f : Frame) (s : Parsed) (index : ℕ) (keep : Bool) : Option (ℕ → Option (List (List (List ℝ)))) := do
  let frame ← matrix f.pose
  let top ← poses s.topPose
  f.calibrations.foldlM (fun d c => do
    let x ← cartesianOf s frame top index keep c
    pure (Function.update d c.name (some x))) (fun _ => none)

/-- `tf.where(range_image[..., 0] > 0)`: the pixels in row-major order. -/
def hits (x : Image ℝ) : List (ℕ × ℕ) :=
  ((List.range x.h).flatMap fun r => (List.range x.w).map fun c => (r, c)).filter fun p => decide (x.at p.1 p.2 0 > 0)

/-- `tf.gather_nd` of rows of an image given as nested lists. -/
def gather {α : Type} (image : List (List α)) (at_ : List (ℕ × ℕ)) : Option (List α) :=
  at_.mapM fun p => (image[p.1]?).bind fun row => row[p.2]?

/-- The same for a tensor. -/
def gatherImage {α : Type} [Inhabited α] (x : Image α) (at_ : List (ℕ × ℕ)) : Option (List (List α)) :=
  at_.mapM fun p => if p.1 < x.h ∧ p.2 < x.w then some (x.cell p.1 p.2) else none

/-- The loop body of `convert_range_image_to_point_cloud`, frame:218-233. -/
def cloudOf (s : Parsed) (images : ℕ → Option (List (List (List ℝ)))) (index : ℕ) (c : Calibration) :
    Option (List (List ℝ) × List (List ℤ)) := do
  let l ← s.ranges c.name
  let ri ← l[index]?
  let x ← reshape ri
  let image ← images c.name
  let points ← gather image (hits x)
  let cl ← s.projections c.name
  let cp ← cl[index]?
  let y ← reshape cp
  let cps ← gatherImage y (hits x)
  pure (points, cps)

/-- `convert_range_image_to_point_cloud`, frame:184-235. -/
def toCloud (f : Frame) (s : Parsed) (index : ℕ) (keep : Bool) : Option (List (List (List ℝ)) × List (List (List ℤ))) := do
  let images ← toCartesian f s index keep
  let r ← (f.calibrations.insertionSort fun a b => a.name ≤ b.name).mapM (cloudOf s images index)
  pure (r.map Prod.fst, r.map Prod.snd)

/-! ## Version 2 -/

/-- `parse_range_image`, lidar:208-237: `some none` is Python's `None`. -/
def parseImage {α : Type} (decode : Bytes → Option (Raw α)) (b : Bytes) : Option (Option (Raw α)) :=
  if b = [] then some none else (decode b).map some

/-- `LiDARComponentExtractor` and its siblings, compat_v1/lidar.py:29-43, 54-68 and segmentation.py:69-82: both returns, or no component. -/
def extractReturns {α : Type} (decode : Bytes → Option (Raw α)) (b1 b2 : Bytes) : Option (Option (Option (Raw α) × Option (Raw α))) := do
  let r1 ← parseImage decode b1
  let r2 ← parseImage decode b2
  pure (if r1.isNone && r2.isNone then none else some (r1, r2))

/-- `LiDARPoseComponentExtractor`, compat_v1/lidar.py:71-85. -/
def extractPose (D : Codec) (l : Laser) : Option (Option (Raw ℝ)) := parseImage D.floats l.ret1.pose

/-- `LiDARCalibrationComponent`, v2/perception/context.py. -/
structure Calibration2 where
  laser : ℕ
  extrinsic : List ℝ
  lo : ℝ
  hi : ℝ
  values : Option (List ℝ)

/-- `LiDARCalibrationComponentExtractor`, compat_v1/context.py:68-92. -/
def extractCalibration (c : Calibration) : Calibration2 :=
  if c.beams ≠ [] then ⟨c.name, c.extrinsic, c.lo, c.hi, some c.beams⟩ else ⟨c.name, c.extrinsic, c.lo, c.hi, none⟩

/-- The inclinations of the rows, lidar:91-104. -/
def inclinations2 (c : Calibration2) (height : ℕ) : List ℝ :=
  (match c.values with
    | some v => v
    | none => RangeImage.inclinations c.lo c.hi height).reverse

/-- `convert_range_image_to_cartesian`, lidar:60-139.  The image is returned with the tensor. -/
def toCartesian2 (ri : Raw ℝ) (c : Calibration2) (pixelPose : Option (Raw ℝ)) (framePose : Option (List ℝ)) (keep : Bool) :
    Option (Image ℝ × List (List (List ℝ))) :=
  if pixelPose.isSome ∧ framePose.isNone then none
  else do
    let x ← reshape ri
    let extrinsic ← matrix c.extrinsic
    let incl := inclinations2 c x.h
    let points ← match pixelPose, framePose with
      | some p, some f => do
        let p ← poses p
        let f ← matrix f
        cartesian x extrinsic incl (some p) (some f)
      | _, _ => cartesian x extrinsic incl none none
    pure (x, withPolar keep x points)

/-- `convert_range_image_to_point_cloud`, lidar:142-178. -/
def toCloud2 (ri : Raw ℝ) (c : Calibration2) (pixelPose : Option (Raw ℝ)) (framePose : Option (List ℝ)) (keep : Bool) :
    Option (List (List ℝ)) := do
  let (x, image) ← toCartesian2 ri c pixelPose framePose keep
  gather image (hits x)

/-- `extract_pointwise_camera_projection`, lidar:181-202. -/
def projections2 (ri : Raw ℝ) (cp : Raw ℤ) : Option (List (List ℤ)) := do
  let x ← reshape ri
  let y ← reshape cp
  gatherImage y (hits x)

/-- `get_laser_by_name`, lidar:248-255. -/
def laserByName (ls : List Laser) (name : ℕ) : Option Laser := ls.find? fun l => decide (l.name = name)

/-! ## Motion data set -/

/-- `CompressedLaser`, protos/compressed_lidar.proto: range images of two returns and the poses of the first one. -/
structure Compressed where
  range1 : Bytes
  range2 : Bytes
  pose1 : Bytes

/-- The loop body of `extract_top_lidar_points`, womd:110-143.  Without a list of inclinations the code asks for the attribute `dims` of an
array, which does not exist. -/
def topReturn (x : Image ℝ) (p : Image ℝ) (frame : M4) (c : Calibration) : Option (List V3 × List (List ℝ)) := do
  let incl ← if c.beams = [] then none else some c.beams.reverse
  let extrinsic ← matrix c.extrinsic
  let image ← cartesian x extrinsic incl (some p) (some frame)
  let points ← gather image (hits x)
  let features ← gatherImage x (hits x)
  pure (points, features.map fun l => l.take 3)

/-- `extract_top_lidar_points`, womd:63-151; `decode` is `delta_encoder.decompress`. -/
def top (decode : Bytes → Option (Image ℝ)) (l : Compressed) (frame : M4) (c : Calibration) :
    Option ((List V3 × List (List ℝ)) × (List V3 × List (List ℝ))) := do
  let p ← decode l.pose1
  if p.c ≠ 6 then none
  else do
    let x1 ← decode l.range1
    let a ← topReturn x1 p frame c
    let x2 ← decode l.range2
    let b ← topReturn x2 p frame c
    pure (a, b)

/-- The loop body of `extract_side_lidar_points`, womd:175-209. -/
def sideReturn (x : Image ℝ) (c : Calibration) : Option (List V3 × List (List ℝ)) := do
  let extrinsic ← matrix c.extrinsic
  let incl := rowInclinations c.beams c.lo c.hi x.h
  let image ← cartesian x extrinsic incl none none
  let points ← gather image (hits x)
  let features ← gatherImage x (hits x)
  pure (points, features.map fun l => l.take 3)

/-- `extract_side_lidar_points`, womd:153-216. -/
def side (decode : Bytes → Option (Image ℝ)) (l : Compressed) (c : Calibration) :
    Option ((List V3 × List (List ℝ)) × (List V3 × List (List ℝ))) := do
  let x1 ← decode l.range1
  let a ← sideReturn x1 c
  let x2 ← decode l.range2
  let b ← sideReturn x2 c
  pure (a, b)

end

end Verif.Clouds
