import Verif.Model.Pose

/-!
# Tensors of poses

Model of utils/keypoint_data.py 350-528 and 568-629 (paths relative to /repo/src/waymo_open_dataset).

* A tensor over objects is the list of their values; numbers are real.
* A message, once set, counts as true, whatever it contains; `none` is a missing value.
* Locations have three coordinates.
* The outer `none` of a result is an exception.
-/

namespace Verif.PoseTensors

open Verif.Boxes Verif.Pose

noncomputable section

/-- `Label.Box`, label.proto:17-60. -/
structure LabelBox where
  center : V3
  size : LabelSize
  heading : ℝ

/-- `PoseLabel` or `PosePrediction`, keypoint_data.py:74-109: the box and the key points, each with its
type, location and whether it is occluded. -/
structure Input where
  box : Option LabelBox
  keypoints : Option (List (ℤ × (V3 × Bool)))

/-- `BoundingBoxTensors` of one box, keypoint_data.py:424-484. -/
structure BoxT where
  center : V3
  size : V3
  heading : Option ℝ

/-- `min_corner`, keypoint_data.py:459-461. -/
def BoxT.minCorner (b : BoxT) : V3 := fun i => b.center i - b.size i / 2

/-- `max_corner`, keypoint_data.py:463-465. -/
def BoxT.maxCorner (b : BoxT) : V3 := fun i => b.center i + b.size i / 2

/-- `BoundingBoxTensors` of many boxes. -/
structure BoxesT where
  center : List V3
  size : List V3
  heading : Option (List ℝ)

/-- `create_laser_box_tensors`, keypoint_data.py:494-502. -/
def laserBox (b : LabelBox) : BoxT := ⟨b.center, laserSize b.size, some b.heading⟩

/-- `tf.stack` of tensors of one shape: there has to be one. -/
def stack {α : Type} (l : List α) : Option (List α) := if l = [] then none else some l

/-- `_stack_optional_headings`, keypoint_data.py:505-517. -/
def stackHeadings (bs : List BoxT) : Option (Option (List ℝ)) :=
  let n := (bs.map fun b => if b.heading.isSome then 1 else 0).sum
  if n = 0 then some none
  else if n = bs.length then (bs.mapM BoxT.heading).bind fun hs => (stack hs).map some
  else none

/-- `stack_boxes`, keypoint_data.py:520-527. -/
def stackBoxes (bs : List BoxT) : Option BoxesT := do
  let c ← stack (bs.map BoxT.center)
  let s ← stack (bs.map BoxT.size)
  let h ← stackHeadings bs
  pure ⟨c, s, h⟩

/-- Locations and visibilities of `KeypointsTensors` of one object. -/
structure Row where
  location : List V3
  visibility : List ℤ

/-- `create_laser_keypoints_tensors`, keypoint_data.py:385-404, and `create_tensors_from_points`, 350-373. -/
def laserKeypoints (ks : List (ℤ × (V3 × Bool))) (default : V3) (order : List ℤ) : Option Row := do
  let points := order.map (byType ks)
  let l ← stack (points.map fun p => (p.map Prod.fst).getD default)
  pure ⟨l, points.map fromPoint⟩

/-- `KeypointsTensors` of many objects, with the number of key points of each. -/
structure KeypointsT where
  location : List (List V3)
  visibility : List (List ℤ)
  points : ℕ

/-- `PoseEstimationTensors`, keypoint_data.py:530-552. -/
structure Output where
  keypoints : KeypointsT
  box : Option BoxesT

/-- `stack_keypoints`, keypoint_data.py:376-382. -/
def stackKeypoints (rows : List Row) (n : ℕ) : Option KeypointsT := do
  let l ← stack (rows.map Row.location)
  let v ← stack (rows.map Row.visibility)
  pure ⟨l, v, n⟩

/-- The loop of `create_pose_estimation_tensors`, keypoint_data.py:594-609. -/
def collect (default : V3) (order : List ℤ) (acc : List Row × List BoxT) (p : Input) : Option (List Row × List BoxT) :=
  match p.keypoints with
  | none => some acc
  | some ks => do
    let k ← laserKeypoints ks default order
    pure (acc.1 ++ [k], match p.box with
      | none => acc.2
      | some b => acc.2 ++ [laserBox b])

/-- `create_pose_estimation_tensors`, keypoint_data.py:568-629. -/
def create (poses : List Input) (default : V3) (order : List ℤ) : Option Output := do
  let acc ← poses.foldlM (collect default order) ([], [])
  let k ← if acc.1 = [] then some ⟨[], [], order.length⟩ else stackKeypoints acc.1 order.length
  let b ← if acc.2 = [] then
      (if acc.1 = [] then some (some ⟨[], [], some []⟩) else some none)
    else (stackBoxes acc.2).map some
  pure ⟨k, b⟩

/-- `KeypointsTensors.subset`, keypoint_data.py:340-347: locations and visibilities; the checks of `select_subset`, 241-250,
are also made without objects, and `tf.concat` needs a type. -/
def subset (k : KeypointsT) (src dst : List ℤ) : Option KeypointsT := do
  guard (k.points = src.length ∧ (∀ t ∈ dst, t ∈ src) ∧ dst ≠ [])
  let l ← k.location.mapM fun r => selectSubset r src dst
  let v ← k.visibility.mapM fun r => selectSubset r src dst
  pure ⟨l, v, dst.length⟩

end

end Verif.PoseTensors
