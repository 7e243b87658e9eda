import Verif.Model.PoseTensors
import Verif.Model.Rays
import Mathlib.Data.Real.Archimedean

/-!
Model of the code of tutorial/tutorial_keypoints.ipynb, cells 13 and 16, and of tutorial/tutorial_object_asset.ipynb, cells 7, 9, 12, 13 and 17 (in /repo).
Floating point numbers are real numbers.  `none` is an exception.
-/

namespace Verif.AssetTutorial

open Verif.Boxes Verif.Pose Verif.PoseTensors Verif.Rays

noncomputable section

/-! ## tutorial_keypoints.ipynb -/

/-- The loop of `get_laser_data`, cell 13, over the labels with their key points, if any. -/
def laserRows (order : List ℤ) (labels : List (LabelBox × Option (List (ℤ × (V3 × Bool))))) : Option (List (Row × BoxT)) :=
  (labels.filterMap fun l => l.2.map fun ks => (l.1, ks)).mapM fun l => do
    let box := laserBox l.1
    let row ← laserKeypoints l.2 box.center order
    pure (row, box)

/-- `get_laser_data`, cell 13. -/
def laserData (order : List ℤ) (labels : List (LabelBox × Option (List (ℤ × (V3 × Bool))))) : Option (KeypointsT × BoxesT) := do
  let rows ← laserRows order labels
  let k ← stackKeypoints (rows.map Prod.fst) order.length
  let b ← stackBoxes (rows.map Prod.snd)
  pure (k, b)

/-- `_create_all_keypoints_proto`, cell 16: key points with visibility 0 are left out, all others are written as not occluded. -/
def keypointsProto (locs : List V3) (vis : List ℤ) (order : List ℤ) : List (ℤ × (V3 × Bool)) :=
  (locs.zip (vis.zip order)).filterMap fun p => if p.2.1 = 0 then none else some (p.2.2, p.1, false)

/-- A `PoseEstimation` as made in cell 16. -/
structure Estimate where
  context : String
  time : ℕ
  keypoints : List (ℤ × (V3 × Bool))

/-- The main loop of cell 16: `detect` stands for the random numbers. -/
def estimates (order : List ℤ) (detect : ℕ → List (List V3 × List ℤ)) (frames : List (String × ℕ)) : List Estimate :=
  (frames.zipIdx.map fun f => (detect f.2).map fun d => ⟨f.1.1, f.1.2, keypointsProto d.1 d.2 order⟩).flatten

/-! ## tutorial_object_asset.ipynb -/

/-- One channel of a pixel of `apply_color_mask`, cell 7: `astype(np.uint8)` of a number from 0 to 255. -/
def colorMask (mask : Bool) (alpha : ℝ) (color value : ℕ) : ℤ := if mask then ⌊(value : ℝ) * (1 - alpha) + alpha * color⌋ else value

/-- `apply_color_mask`, cell 7, of an image as the list of its pixels. -/
def applyColorMask (image : List (ℕ × ℕ × ℕ)) (mask : List Bool) (color : ℕ × ℕ × ℕ) (alpha : ℝ) : List (ℤ × ℤ × ℤ) :=
  (image.zip mask).map fun p =>
    (colorMask p.2 alpha color.1 p.1.1, colorMask p.2 alpha color.2.1 p.1.2.1, colorMask p.2 alpha color.2.2 p.1.2.2)

/-- `grid_imshow`, cell 7: for `n` images, the place of each in a grid of `h` rows and `w` columns. `plt.subplots` returns a single axis for one
place, a list of axes for one row or column, and a matrix otherwise, whose rows have no `imshow`. -/
def grid (h w n : ℕ) : Option (List (ℕ × ℕ)) :=
  (List.range n).mapM fun (i : ℕ) =>
    if h = 1 ∧ w = 1 then none
    else if h = 1 then if i < w then some (0, i) else none
    else if w = 1 then if i < h then some (i, 0) else none
    else none

/-- What the variables `ray_component` and `lidar_box_component` hold. -/
structure Globals where
  origins : List V3
  directions : List V3
  size : V3

/-- `_compute_ray_mask`, cell 9: of its arguments only the height and width of the first are used. -/
def rayMask (g : Globals) (origins _directions : List V3) (_size : V3) : Option (List Bool) := do
  let hits ← intersect g.origins g.directions g.size
  if hits.length = origins.length then some (hits.map Hit.flag) else none

/-- The points of cells 12 and 13: those of pixels that are in both masks, with their colors. -/
def unproject (dists : List ℝ) (directions origins : List V3) (colors : List (ℕ × ℕ × ℕ)) (masks objects : List ℕ) : List (V3 × (ℕ × ℕ × ℕ)) :=
  ((dists.zip (directions.zip (origins.zip (colors.zip (masks.zip objects))))).filter fun p => 0 < p.2.2.2.2.1 * p.2.2.2.2.2).map fun p =>
    (fun i => p.1 * p.2.1 i + p.2.2.1 i, p.2.2.2.1)

/-- Cell 17: points in coordinates of the labelled box, moved to those of the refined box. -/
def refined (points : List V3) (box : Box7) (boxFromVehicle : M4) : List V3 := pointsToFrame (pointsFromBox points box) boxFromVehicle

end

end Verif.AssetTutorial
