import Verif.Model.Boxes

/-!
Model of v2/perception/utils/object_asset_utils.py: rays of object assets and their boxes.

Floating point numbers are real numbers and the conversions between their types are exact.  An array of `N` points is the
list of its rows.  `none` is an exception: arrays whose sizes do not match.
-/

namespace Verif.Rays

open Verif.Boxes (V3 M4)

noncomputable section

/-- `RAY_DIR_MARGIN`, object_asset_utils.py:21. -/
def margin : ℝ := 1 / 10 ^ 10

/-- `_sel_bounds` for one ray, object_asset_utils.py:24-30. -/
def selBounds (lo hi sign : ℝ) : ℝ := (1 - sign) * lo + sign * hi

/-- `inv_ray_dir`, object_asset_utils.py:58. -/
def invDir (d : ℝ) : ℝ := 1 / (d + margin * (if d = 0 then 1 else 0))

/-- `ray_sign` as a number, object_asset_utils.py:59. -/
def raySign (d : ℝ) : ℝ := if invDir d < 0 then 1 else 0

/-- `tmin`, `tymin` and `tzmin`, object_asset_utils.py:63-65, 69-71 and 83-85. -/
def slabMin (size o d : ℝ) : ℝ := (selBounds (-(1 / 2) * size) (1 / 2 * size) (raySign d) - o) * invDir d

/-- `tmax`, `tymax` and `tzmax`, object_asset_utils.py:66-68, 72-74 and 86-88. -/
def slabMax (size o d : ℝ) : ℝ := (selBounds (-(1 / 2) * size) (1 / 2 * size) (1 - raySign d) - o) * invDir d

/-- What is computed for one ray: the flag and both intersections. -/
structure Hit where
  flag : Bool
  first : ℝ
  second : ℝ

open Classical in
/-- `get_ray_box_intersects` for one ray, object_asset_utils.py:58-96. -/
def intersectOne (size o d : V3) : Hit :=
  let tmin := slabMin (size 0) (o 0) (d 0)
  let tmax := slabMax (size 0) (o 0) (d 0)
  let tymin := slabMin (size 1) (o 1) (d 1)
  let tymax := slabMax (size 1) (o 1) (d 1)
  let flag := true
  let flag := if tmin > tymax then false else flag
  let flag := if tymin > tmax then false else flag
  let tmin := max tmin tymin
  let tmax := min tmax tymax
  let tzmin := slabMin (size 2) (o 2) (d 2)
  let tzmax := slabMax (size 2) (o 2) (d 2)
  let flag := if tmin > tzmax then false else flag
  let flag := if tzmin > tmax then false else flag
  let tmin := max tmin tzmin
  let tmax := min tmax tzmax
  let flag := if tmax ≤ 0 then false else flag
  ⟨flag, tmin, tmax⟩

/-- `get_ray_box_intersects`, object_asset_utils.py:33-96, for as many origins as directions; numpy repeats a single row
if the sizes differ, which is not modelled. -/
def intersect (origins dirs : List V3) (size : V3) : Option (List Hit) :=
  if origins.length = dirs.length then some (List.zipWith (intersectOne size) origins dirs) else none

/-- `frame_pose_tfm[0:3, 0:3]` applied to a column, object_asset_utils.py:115-120 and 144-147. -/
def linear (m : M4) (v : V3) : V3 := fun i => ∑ j : Fin 3, m i.castSucc j.castSucc * v j

/-- `transform_points_to_frame`, object_asset_utils.py:99-123. -/
def pointsToFrame (points : List V3) (m : M4) : List V3 := points.map fun p i => linear m p i + m i.castSucc 3

/-- `transform_directions_to_frame`, object_asset_utils.py:126-148. -/
def directionsToFrame (dirs : List V3) (m : M4) : List V3 := dirs.map (linear m)

/-- One row of `rotate_points_along_z`, object_asset_utils.py:151-170. -/
def rotateOne (angle : ℝ) (p : V3) : V3 :=
  ![p 0 * Real.cos angle + p 1 * -Real.sin angle, p 0 * Real.sin angle + p 1 * Real.cos angle, p 2]

/-- `rotate_points_along_z`, object_asset_utils.py:151-170. -/
def rotate (points : List V3) (angle : ℝ) : List V3 := points.map (rotateOne angle)

/-- `box_3d`: centre, length, width, height and heading. -/
structure Box7 where
  center : V3
  size : V3
  heading : ℝ

/-- `transform_points_to_box_coord`, object_asset_utils.py:173-191. -/
def pointsToBox (points : List V3) (b : Box7) : List V3 :=
  rotate (points.map fun p i => p i - b.center i) (-1 * b.heading)

/-- `transform_directions_to_box_coord`, object_asset_utils.py:194-215. -/
def directionsToBox (dirs : List V3) (b : Box7) : List V3 := rotate dirs (-1 * b.heading)

/-- `transform_points_to_box_coord_reverse`, object_asset_utils.py:218-237. -/
def pointsFromBox (points : List V3) (b : Box7) : List V3 :=
  (rotate points b.heading).map fun p i => p i + b.center i

end

end Verif.Rays
