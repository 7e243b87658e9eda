import Verif.Model.Clouds
import Mathlib.Analysis.Real.Sqrt

/-!
The tutorials that show lasers and cameras: tutorial/tutorial_maps.ipynb ("maps"), tutorial/tutorial_womd_lidar.ipynb ("womd") and tutorial/tutorial.ipynb
("main"; tutorial/tutorial_local.ipynb has the same functions).  Cells are counted from zero.

Floating point numbers are real numbers, as in `Verif.Clouds`.  `none` is an exception.
-/

namespace Verif.LaserTutorial

open Verif.Clouds
open Verif.Boxes (V3 M4)

noncomputable section

/-! ## Point clouds with maps -/

/-- The parts of a frame that maps cell 4 reads. -/
structure MapFrame (F : Type) where
  frame : Clouds.Frame
  offset : V3
  features : List F

/-- The loop body of maps cell 4: the points and the numbers that become their colors.  The product needs three columns behind the first three. -/
def traceOf {F : Type} (D : Codec) (m : MapFrame F) : Option (List (V3 × ℝ)) := do
  let s ← parse D m.frame
  let (points, _) ← toCloud m.frame s 0 true
  let first ← points[0]?
  let t ← matrix m.frame.pose
  first.mapM fun row =>
    match row.drop 3 with
    | [x, y, z] => some (Boxes.apply t ![x, y, z] + m.offset, row.getD 0 0)
    | _ => none

/-- `plot_point_clouds_with_maps`, maps cell 4; `draw` is `plot_map_features`.  Without frames nothing is shown. -/
def plotClouds {F G : Type} (draw : List F → Option G) (D : Codec) (frames : List (MapFrame F)) : Option (Option (G × List (List (V3 × ℝ)))) :=
  match frames with
  | [] => some none
  | m :: _ => do
    let figure ← draw m.features
    let traces ← frames.mapM (traceOf D)
    pure (some (figure, traces))

/-! ## Lasers of the motion data set -/

/-- A laser of `CompressedFrameLaserData`. -/
structure WLaser where
  name : ℕ
  data : Compressed

/-- `CompressedFrameLaserData`. -/
structure WFrame where
  pose : List ℝ
  lasers : List WLaser
  calibrations : List Calibration

/-- `_get_laser_calib`, womd cell 6. -/
def laserCalib (f : WFrame) (name : ℕ) : Option Calibration := f.calibrations.find? fun c => decide (c.name = name)

/-- The points of a laser, womd cell 6: `None` has no attributes, so without calibration both functions raise. -/
def laserPoints (decode : Bytes → Option (Image ℝ)) (f : WFrame) (pose : M4) (l : WLaser) :
    Option ((List V3 × List (List ℝ)) × (List V3 × List (List ℝ))) := do
  let c ← laserCalib f l.name
  if l.name = 1 then top decode l.data pose c else side decode l.data c

/-- The loop body of womd cell 6 for the frame at position `i`: nothing cannot be concatenated. -/
def framePoints (decode : Bytes → Option (Image ℝ)) (frames : List WFrame) (f : WFrame) (i : ℕ) : Option (List V3 × List (List ℝ)) := do
  let posed ← frames[i]?
  let pose ← matrix posed.pose
  let rs ← f.lasers.mapM (laserPoints decode f pose)
  if rs = [] then none
  else pure (rs.flatMap fun r => r.1.1 ++ r.2.1, rs.flatMap fun r => r.1.2 ++ r.2.2)

/-- womd cell 6; the dictionaries have the positions as keys. -/
def allPoints (decode : Bytes → Option (Image ℝ)) (frames : List WFrame) : Option (List (List V3 × List (List ℝ))) :=
  frames.zipIdx.mapM fun p => framePoints decode frames p.1 p.2

/-! ## Pictures of a frame -/

/-- A label of a camera: center, length and width. -/
structure Label2 where
  cx : ℝ
  cy : ℝ
  length : ℝ
  width : ℝ

/-- The labels of a camera. -/
structure CameraLabels where
  name : ℕ
  labels : List Label2

/-- `patches.Rectangle`: a corner, width and height. -/
structure Rectangle where
  x : ℝ
  y : ℝ
  width : ℝ
  height : ℝ

/-- `show_camera_image`, main cell 11: the rectangles.  The argument is overwritten by the variable of the loop over the labels of the global `frame`; the
position in the layout must exist. -/
def showCamera (frameLabels : List CameraLabels) (camera : ℕ) (_labels : List CameraLabels) (rows cols index : ℕ) : Option (List Rectangle) :=
  if 1 ≤ index ∧ index ≤ rows * cols then
    some ((frameLabels.filter fun l => decide (l.name = camera)).flatMap fun l => l.labels.map fun b =>
      ⟨b.cx - 1 / 2 * b.length, b.cy - 1 / 2 * b.width, b.length, b.width⟩)
  else none

/-- The pictures of all cameras, main cell 11. -/
def showCameras (frameLabels : List CameraLabels) (cameras : List ℕ) : Option (List (List Rectangle)) :=
  cameras.zipIdx.mapM fun p => showCamera frameLabels p.1 frameLabels 3 3 (p.2 + 1)

/-- `show_range_image`, main cell 13: the three pictures, with their titles and upper limits. -/
def showRange (m : Raw ℝ) (start : ℕ) : Option (List (String × ℝ × List (List ℝ))) := do
  let x ← reshape m
  if 3 ≤ x.c ∧ 1 ≤ start ∧ start + 2 ≤ 8 then
    let channel (k : ℕ) : List (List ℝ) := (List.range x.h).map fun r => (List.range x.w).map fun c =>
      if 0 ≤ x.at r c k then x.at r c k else 10 ^ 10
    pure [("range", 75, channel 0), ("intensity", 3 / 2, channel 1), ("elongation", 3 / 2, channel 2)]
  else none

/-- What `imshow` makes of a number between 0 and the upper limit: the brightness. -/
def brightness (limit v : ℝ) : ℝ := max 0 (min 1 (v / limit))

/-- main cell 24: the positions in the picture of the first camera and the distances of the points; the first three columns of a projection are the camera, the
column and the row. -/
def projected (cameras : List ℕ) (cps : List (List ℤ)) (points : List V3) : Option (List (ℤ × ℤ × ℝ)) := do
  let camera ← cameras.min?
  if cps.length = points.length ∧ ∀ p ∈ cps, p.length = 6 then
    pure (((cps.zip points).filter fun q => decide (q.1.getD 0 0 = (camera : ℤ))).map fun q =>
      (q.1.getD 1 0, q.1.getD 2 0, √(q.2 0 ^ 2 + q.2 1 ^ 2 + q.2 2 ^ 2)))
  else none

/-- `rgba`, main cell 25: the position in the color map. -/
def colorOf (r : ℝ) : ℝ := (r - 20 * ⌊r / 20⌋) / 20

/-- `plot_points_on_image`, main cell 25: columns, rows and colors. -/
def plotPoints (ps : List (ℤ × ℤ × ℝ)) : List ℤ × List ℤ × List ℝ :=
  (ps.map fun p => p.1, ps.map fun p => p.2.1, ps.map fun p => colorOf p.2.2)

end

end Verif.LaserTutorial
