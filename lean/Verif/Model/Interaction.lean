import Verif.Model.Planar
import Verif.Model.Boxes
import Verif.Model.Kinematics

/-!
Model of wdl_limited/sim_agents_metrics/interaction_features.py.  Steps are independent of each other except through the speeds,
so the distances are modelled for one step; floating point numbers are real numbers and `none` is a NaN.
-/

namespace Verif.Interaction

open Verif.Planar
open Verif.RangeImage (argmin)

noncomputable section

/-- `EXTREMELY_LARGE_DISTANCE`, interaction_features.py:20. -/
def big : ℝ := 10000000000

/-- `CORNER_ROUNDING_FACTOR`, interaction_features.py:28. -/
def roundingFactor : ℝ := 7 / 10

/-- An object at one step. -/
structure Obj where
  x : ℝ
  y : ℝ
  z : ℝ
  length : ℝ
  width : ℝ
  height : ℝ
  heading : ℝ
  valid : Bool

/-- `shrinking_distance`, interaction_features.py:108-110. -/
def shrink (f : ℝ) (o : Obj) : ℝ := min o.length o.width * f / 2

/-- The core of a box: all sides shrunk by the same distance, interaction_features.py:113-121. -/
def core (f : ℝ) (o : Obj) : Boxes.Box :=
  ⟨![o.x, o.y, o.z], ![o.length - 2 * shrink f o, o.width - 2 * shrink f o, o.height], o.heading⟩

/-- The lower corners of a box, interaction_features.py:128. -/
def corners (b : Boxes.Box) : List P := ((Boxes.corners b).take 4).map fun c => (c 0, c 1)

/-- The distance of two rounded boxes, interaction_features.py:161-208. -/
def pairDistance (f : ℝ) (a b : Obj) : Option ℝ := do
  let m ← minkowskiSum (corners (core f a)) ((corners (core f b)).map fun c => (-1 * c.1, -1 * c.2))
  let d ← signedDistance (0, 0) m
  pure (d - shrink f a - shrink f b)

/-- `tf.where(mask)[:, 0]`. -/
def whereTrue (mask : List Bool) : List ℕ := (List.range mask.length).filter fun i => mask[i]? == some true

/-- `tf.gather` on the first axis. -/
def gather {β : Type} (l : List β) (idx : List ℕ) : Option (List β) := idx.mapM fun i => l[i]?

/-- One entry of the masked distances, interaction_features.py:210-234. -/
def maskedDistance (f : ℝ) (a b : Obj × ℕ) : Option ℝ :=
  if a.1.valid && b.1.valid then (pairDistance f a.1 b.1).map fun d => d + (if a.2 = b.2 then 1 else 0) * big else some big

/-- `compute_distance_to_nearest_object` at one step, interaction_features.py:49-236. -/
def nearest (f : ℝ) (objs : List Obj) (mask : List Bool) : Option (List ℝ) := do
  let eval ← gather objs (whereTrue mask)
  let other ← gather objs (whereTrue (mask.map not))
  eval.zipIdx.mapM fun a => do
    let ds ← (eval ++ other).zipIdx.mapM (maskedDistance f a)
    least ds

/-! ### Time to collision -/

/-- `MAXIMUM_TIME_TO_COLLISION`, interaction_features.py:43. -/
def maxTime : ℝ := 5

/-- `MAX_HEADING_DIFF`, interaction_features.py:34. -/
def maxHeadingDiff : ℝ := 75 * (Real.pi / 180)

/-- `MAX_HEADING_DIFF_FOR_SMALL_OVERLAP`, interaction_features.py:36. -/
def maxHeadingDiffSmall : ℝ := 10 * (Real.pi / 180)

/-- `SMALL_OVERLAP_THRESHOLD`, interaction_features.py:39. -/
def smallOverlap : ℝ := 1 / 2

/-- A box at one step with its speed, `boxes` of interaction_features.py:285. -/
structure Car where
  x : ℝ
  y : ℝ
  length : ℝ
  width : ℝ
  heading : ℝ
  speed : Option ℝ
  valid : Bool

/-- `yaw_diff`, interaction_features.py:303. -/
def yawDiff (ego o : Car) : ℝ := |o.heading - ego.heading|

/-- `other_long_offset`, interaction_features.py:314-317. -/
def longOffset (ego o : Car) : ℝ := dot (o.length / 2, o.width / 2) (|Real.cos (yawDiff ego o)|, |Real.sin (yawDiff ego o)|)

/-- `other_lat_offset`, interaction_features.py:319-322. -/
def latOffset (ego o : Car) : ℝ := dot (o.length / 2, o.width / 2) (|Real.sin (yawDiff ego o)|, |Real.cos (yawDiff ego o)|)

/-- `other_relative_xy`, interaction_features.py:327-330. -/
def relative (ego o : Car) : P := rotate (o.x - ego.x, o.y - ego.y) (-ego.heading)

/-- `long_distance`, interaction_features.py:335-339. -/
def longDistance (ego o : Car) : ℝ := (relative ego o).1 - ego.length / 2 - longOffset ego o

/-- `lat_overlap`, interaction_features.py:343-347. -/
def latOverlap (ego o : Car) : ℝ := |(relative ego o).2| - ego.width / 2 - latOffset ego o

open Classical in
/-- `_get_object_following_mask`, interaction_features.py:402-447. -/
def following (long lat yaw : ℝ) : Bool :=
  decide (long > 0) && decide (yaw ≤ maxHeadingDiff) && decide (lat < 0) &&
    (decide (lat < -smallOverlap) || decide (yaw ≤ maxHeadingDiffSmall))

/-- `masked_long_distance`, interaction_features.py:358-363. -/
def maskedLong (ego o : Car) : ℝ :=
  longDistance ego o +
    (1 - if o.valid && following (longDistance ego o) (latOverlap ego o) (yawDiff ego o) then 1 else 0) * big

/-- The time to collision of one object at one step, interaction_features.py:366-398. -/
def ttcStep (ego : Car) (all : List Car) : Option ℝ := do
  let i := argmin (all.map (maskedLong ego))
  let d ← (all.map (maskedLong ego))[i]?
  let o ← all[i]?
  pure (match ego.speed, o.speed with
    | some v, some w => if v - w > 0 then min (d / (v - w)) maxTime else maxTime
    | _, _ => maxTime)

/-- The states of one object over all steps. -/
structure Traj where
  x : List ℝ
  y : List ℝ
  length : List ℝ
  width : List ℝ
  heading : List ℝ
  valid : List Bool

/-- The boxes at one step, interaction_features.py:278-288. -/
def carAt (dt : ℝ) (s : ℕ) (t : Traj) : Option Car := do
  let x ← t.x[s]?
  let y ← t.y[s]?
  let l ← t.length[s]?
  let w ← t.width[s]?
  let h ← t.heading[s]?
  let v ← (Kinematics.linearSpeed t.x t.y (t.x.map fun _ => 0) dt)[s]?
  let ok ← t.valid[s]?
  pure ⟨x, y, l, w, h, v, ok⟩

/-- `compute_time_to_collision_with_object_in_front`, interaction_features.py:239-399, at one step. -/
def timeToCollision (ts : List Traj) (mask : List Bool) (dt : ℝ) (s : ℕ) : Option (List ℝ) := do
  let cars ← ts.mapM (carAt dt s)
  let egos ← gather cars (whereTrue mask)
  egos.mapM fun ego => ttcStep ego cars

end

end Verif.Interaction
