import Verif.Model.Boxes
import Mathlib.Analysis.SpecialFunctions.Pow.Real
import Mathlib.Order.WithBot

/-!
# Key point (pose estimation) metrics

Model of `metrics/python/keypoint_metrics.py` and of the parts of `utils/keypoint_data.py` it builds on (paths relative
to /repo/src/waymo_open_dataset).

* Key points and boxes are three dimensional; numbers are real.
* A frame is a list of objects, a tensor over objects is the list of the values for each of them.
* `MatchingIdsPairs` is the list of its pairs.
* `scipy.optimize.linear_sum_assignment` is a parameter; what it returns is specified in the properties.
* `none` stands for an exception.
-/

namespace Verif.Pose

open Verif.Boxes

noncomputable section

/-! ### keypoint_data.py -/

/-- One key point of `KeypointsTensors`, keypoint_data.py:273-306: visibility 0 is missing, 1 occluded, 2 visible. -/
structure Keypoint where
  loc : V3
  visibility : ℤ

/-- `is_fully_visible`, keypoint_data.py:324-326. -/
def visible (k : Keypoint) : Bool := decide (1 < k.visibility)

/-- `mask`, keypoint_data.py:328-330. -/
def mask (k : Keypoint) : ℝ := if 0 < k.visibility then 1 else 0

/-- An object of `PoseEstimationTensors`, keypoint_data.py:530-552. -/
structure Obj where
  points : List Keypoint
  box : Box

instance : Inhabited Obj := ⟨⟨[], ⟨0, 0, 0⟩⟩⟩

/-- `has_visible`, keypoint_data.py:321-322. -/
def hasVisible (o : Obj) : Bool := o.points.any visible

/-- `Visibility.from_point`, keypoint_data.py:263-270; a point is its location and whether it is occluded. -/
def fromPoint : Option (V3 × Bool) → ℤ
  | none => 0
  | some p => if p.2 then 1 else 2

/-- `create_tensors_from_points`, keypoint_data.py:350-373, for the key points of one object. -/
def tensorsFromPoints (byType : ℤ → Option (V3 × Bool)) (default : V3) (order : List ℤ) : List Keypoint :=
  order.map fun t => ⟨((byType t).map Prod.fst).getD default, fromPoint (byType t)⟩

/-- The dictionary of `laser_keypoint_coordinates`, keypoint_data.py:220-223: the last key point of a type wins. -/
def byType (ks : List (ℤ × (V3 × Bool))) : ℤ → Option (V3 × Bool) :=
  ks.foldl (fun d k t => if t = k.1 then some k.2 else d t) fun _ => none

/-- `src_index`, keypoint_data.py:251: the last position of a type. -/
def srcIndex (src : List ℤ) : ℤ → Option ℕ :=
  src.zipIdx.foldl (fun d k t => if t = k.1 then some k.2 else d t) fun _ => none

/-- `select_subset`, keypoint_data.py:226-254, for the values of one object. -/
def selectSubset {α : Type} (values : List α) (src dst : List ℤ) : Option (List α) :=
  if values.length ≠ src.length then none
  else if dst.all fun t => decide (t ∈ src) then dst.mapM fun t => (srcIndex src t).bind fun i => values[i]?
  else none

/-- The sizes of a `Box3d`, protos/box.proto: `x`, `y` and `z`. -/
structure Size3 where
  x : ℝ
  y : ℝ
  z : ℝ

/-- The sizes of a `Label.Box`, label.proto:17-60. -/
structure LabelSize where
  length : ℝ
  width : ℝ
  height : ℝ

/-- `label_box_from_box_proto`, keypoint_data.py:555-565: the sizes. -/
def labelSize (s : Size3) : LabelSize := ⟨s.y, s.x, s.z⟩

/-- `create_laser_box_tensors`, keypoint_data.py:494-502: the sizes. -/
def laserSize (s : LabelSize) : V3 := ![s.length, s.width, s.height]

/-! ### Displacement into a box -/

/-- `tf.clip_by_value`. -/
def clip (x lo hi : ℝ) : ℝ := max (min x hi) lo

/-- `tf.linalg.norm`. -/
def norm (v : V3) : ℝ := Real.sqrt (v 0 ^ 2 + v 1 ^ 2 + v 2 ^ 2)

/-- `_to_box_transform`, keypoint_metrics.py:63-108, for three dimensions. -/
def toBoxTransform (b : Box) : M4 :=
  let cos := Real.cos b.heading
  let sin := Real.sin b.heading
  let tx := cos * b.center 0 - sin * b.center 1
  let ty := sin * b.center 0 + cos * b.center 1
  let tz := b.center 2
  !![cos, -sin, 0, -tx; sin, cos, 0, -ty; 0, 0, 1, -tz; 0, 0, 0, 1]

/-- `box_displacement`, keypoint_metrics.py:126-153, for one point and one box. -/
def boxDisplacement (p : V3) (b : Box) : Option V3 := do
  let t := toBoxTransform b
  let q := apply t p
  let c : V3 := fun i => clip (q i) (-(b.dim i / 2)) (b.dim i / 2)
  let i ← inv t
  pure (apply i c - p)

/-- `keypoint_distance`, keypoint_metrics.py:1295-1335, for one box and one key point. -/
def keypointDistance (b : Box) (k : Keypoint) : Option (WithTop ℝ) := do
  let d ← boxDisplacement k.loc b
  pure (if visible k then ((norm d : ℝ) : WithTop ℝ) else ⊤)

/-! ### Pose estimation metric -/

/-- `_pose_estimation_error`, keypoint_metrics.py:490-531, for one pair of key points. -/
def pointError (penalty : ℝ) (g p : Keypoint) : ℝ × Bool :=
  let error := clip (norm (g.loc - p.loc)) 0 penalty
  let tn := !(visible g || visible p)
  let tp := visible g && visible p
  let error := if tn then 0 else error
  (if tp || tn then error else penalty, !tn)

/-- Two tensors with the same shape. -/
def sameShape (gt pr : List (List Keypoint)) : Prop := gt.map List.length = pr.map List.length

/-- Weights: none, one for each object, or one for each key point, keypoint_metrics.py:168-183. -/
inductive Weights where
  | none
  | perObject (w : List ℝ)
  | perPoint (w : List (List ℝ))

/-- `_reshape_weights` and its broadcast against a tensor with the given numbers of points. -/
def Weights.expand (shape : List ℕ) : Weights → Option (List (List ℝ))
  | .none => some (shape.map fun n => List.replicate n 1)
  | .perObject w => if w.length = shape.length then some (List.zipWith (fun n x => List.replicate n x) shape w) else Option.none
  | .perPoint w => if w.map List.length = shape then some w else Option.none

/-- The state of `tf.keras.metrics.Mean`. -/
structure Mean where
  total : ℝ
  count : ℝ

/-- `Mean.update_state`: values with their weights. -/
def Mean.update (s : Mean) (vs : List (ℝ × ℝ)) : Mean :=
  ⟨s.total + (vs.map fun v => v.1 * v.2).sum, s.count + (vs.map Prod.snd).sum⟩

/-- `tf.math.divide_no_nan`. -/
def divNoNan (x y : ℝ) : ℝ := if y = 0 then 0 else x / y

/-- `Mean.result`. -/
def Mean.result (s : Mean) : ℝ := divNoNan s.total s.count

def Mean.start : Mean := ⟨0, 0⟩

/-- The values of one object with their weights. -/
def objValues (f : Keypoint → Keypoint → ℝ × ℝ) (g p : List Keypoint) (w : List ℝ) : List (ℝ × ℝ) :=
  List.zipWith (fun (v : ℝ × ℝ) x => (v.1, v.2 * x)) (List.zipWith f g p) w

/-- An update of a mean with a value and a mask for each key point: `update_state`, keypoint_metrics.py:315-349, and
`_masked_weights`, 178-183. -/
def updateMean (f : Keypoint → Keypoint → ℝ × ℝ) (s : Mean) (gt pr : List (List Keypoint)) (w : Weights) :
    Option Mean := do
  if gt.map List.length = pr.map List.length then
    let w ← w.expand (gt.map List.length)
    pure (s.update (List.zipWith (fun (x : List Keypoint × List Keypoint) y => objValues f x.1 x.2 y) (gt.zip pr) w).flatten)
  else none

/-- What `PoseEstimationMetric._update_state` averages, keypoint_metrics.py:574-580. -/
def pemValue (penalty : ℝ) (g p : Keypoint) : ℝ × ℝ :=
  ((pointError penalty g p).1, if (pointError penalty g p).2 then 1 else 0)

/-- What `MeanPerJointPositionError._update_state` averages, keypoint_metrics.py:480-482. -/
def mpjpeValue (g p : Keypoint) : ℝ × ℝ := (norm (g.loc - p.loc), mask g * mask p)

/-- `PoseEstimationMetric`, keypoint_metrics.py:534-585: the result after the updates. -/
def pem (penalty : ℝ) (updates : List (List (List Keypoint) × List (List Keypoint) × Weights)) : Option ℝ := do
  let s ← updates.foldlM (fun s u => updateMean (pemValue penalty) s u.1 u.2.1 u.2.2) Mean.start
  pure s.result

/-- `MeanPerJointPositionError`, keypoint_metrics.py:460-487: the result after the updates. -/
def mpjpe (updates : List (List (List Keypoint) × List (List Keypoint) × Weights)) : Option ℝ := do
  let s ← updates.foldlM (fun s u => updateMean mpjpeValue s u.1 u.2.1 u.2.2) Mean.start
  pure s.result

/-! ### Matching -/

/-- `optimize.linear_sum_assignment` of a cost matrix with the given numbers of rows and columns. -/
abbrev Lsa := ℕ → ℕ → (ℕ → ℕ → ℝ) → List (ℕ × ℕ)

open Classical in
/-- `_hungarian_assignment`, keypoint_metrics.py:1356-1391. -/
def hungarian (lsa : Lsa) (rows cols : ℕ) (cost : ℕ → ℕ → ℝ) (maximize : Bool) (keep : ℝ → Prop) : List (ℕ × ℕ) :=
  (lsa rows cols fun i j => if maximize then -cost i j else cost i j).filter fun m => decide (keep (cost m.1 m.2))

/-- `_VERY_LARGE_ERROR_M`, keypoint_metrics.py:1396. -/
def veryLarge : ℝ := 10000000000

/-- `_EPS_M`, keypoint_metrics.py:1398. -/
def eps : ℝ := 1 / 100000

/-- The mean over the key points of one pair of objects, keypoint_metrics.py:1453-1470. -/
def meanOf (xs : List ℝ) : ℝ := xs.sum / xs.length

/-- The cost of a pair of objects, keypoint_metrics.py:1443-1470. -/
def pairCost (penalty : ℝ) (candidate : Bool) (g p : List Keypoint) : ℝ :=
  clip (meanOf (if candidate then List.zipWith (fun a b => (pointError penalty a b).1) g p
    else List.replicate g.length veryLarge)) 0 penalty

/-- All objects have the same, positive number of key points. -/
def uniform (gt pr : List Obj) : Prop := ∃ n, 0 < n ∧ (∀ o ∈ gt, o.points.length = n) ∧ ∀ o ∈ pr, o.points.length = n

/-- `mean_error_matching`, keypoint_metrics.py:1401-1477, for objects with the same, positive number of key points. -/
def meanErrorMatching (lsa : Lsa) (gt pr : List Obj) (candidate : ℕ → ℕ → Bool) (penalty : ℝ) : List (ℕ × ℕ) :=
  if pr.length = 0 then []
  else hungarian lsa gt.length pr.length
    (fun i j => pairCost penalty (candidate i j) (gt.getD i default).points (pr.getD j default).points) false
    fun x => x < penalty

/-- The distances of all key points of a prediction from a ground truth box. -/
def objDistance (g p : Obj) : Option (List (WithTop ℝ)) := p.points.mapM (keypointDistance g.box)

open Classical in
/-- `closest_mask`, keypoint_metrics.py:1569-1572. -/
def closeMask (threshold : ℝ) (ds : List (WithTop ℝ)) : Bool :=
  decide (ds.foldl min ⊤ ≤ (threshold : WithTop ℝ))

open Classical in
/-- `n_points_inside`, keypoint_metrics.py:1574-1576. -/
def pointsInside (ds : List (WithTop ℝ)) : ℝ := (ds.map fun d => if d < (eps : WithTop ℝ) then (1 : ℝ) else 0).sum

open Classical in
/-- `gtv_is_near`, keypoint_metrics.py:1517-1529, for one pair. -/
def nearVisible (threshold : ℝ) (g p : Obj) : Bool :=
  (List.zipWith (fun a b => visible a && visible b && decide (norm (a.loc - b.loc) < threshold)) g.points p.points).any id

/-- `_is_gti_and_not_gtv_close_enough`, keypoint_metrics.py:1510-1532, for one pair. -/
def gtiMask (threshold : ℝ) (gt : List Obj) (g p : Obj) : Bool :=
  !(gt.any fun g' => nearVisible threshold g' p) && !(hasVisible g)

/-- `_mask_of_used_ids`, keypoint_metrics.py:1502-1507, for one pair. -/
def used (m : List (ℕ × ℕ)) (i j : ℕ) : Bool := (m.any fun x => x.2 == j) || (m.any fun x => x.1 == i)

/-- Stage 1 of `MeanErrorMatcher.matching_ids`, keypoint_metrics.py:1574-1601. -/
def stage1 (lsa : Lsa) (threshold : ℝ) (gt pr : List Obj) (dist : ℕ → ℕ → List (WithTop ℝ)) : List (ℕ × ℕ) :=
  (hungarian lsa gt.length pr.length
    (fun i j => if gtiMask threshold gt (gt.getD i default) (pr.getD j default) then pointsInside (dist i j) else 0) true
    fun x => 0 < x).filter fun m => !(hasVisible (gt.getD m.1 default))

/-- `MeanErrorMatcher.matching_ids`, keypoint_metrics.py:1562-1622, for objects with the same, positive number of key
points. -/
def matchingIds (lsa : Lsa) (threshold : ℝ) (gt pr : List Obj) : Option (List (ℕ × ℕ)) := do
  let dists ← gt.mapM fun g => pr.mapM fun p => objDistance g p
  let dist : ℕ → ℕ → List (WithTop ℝ) := fun i j => (dists.getD i []).getD j []
  let m1 := stage1 lsa threshold gt pr dist
  let m2 := meanErrorMatching lsa gt pr (fun i j => closeMask threshold (dist i j) && !(used m1 i j)) threshold
  pure (m2 ++ m1)

/-! ### Reordering -/

/-- `missing_ids`, keypoint_metrics.py:1095-1112. -/
def missingIds (ids : List ℕ) (count : ℕ) : Option (List ℕ) :=
  if ids.all fun i => decide (i < count) then
    let mask := (List.range count).map fun i => ids.any fun x => x == i
    some (((List.range count).zip mask).filterMap fun x => if x.2 then none else some x.1)
  else none

/-- A part of the arguments of `_reorder`: positions to take or a number of zeros. -/
inductive Part where
  | ids (l : List ℕ)
  | pad (n : ℕ)

/-- `_reorder`, keypoint_metrics.py:1115-1141. -/
def reorderList {α : Type} (zero : α) (l : List α) (parts : List Part) : Option (List α) := do
  let ps ← parts.mapM fun p => match p with
    | .ids is => is.mapM fun i => l[i]?
    | .pad n => some (List.replicate n zero)
  pure ps.flatten

/-- `_indices_of_false`, keypoint_metrics.py:1192-1197. -/
def indicesOfFalse (l : List Bool) : List ℕ := l.zipIdx.filterMap fun x => if x.1 then none else some x.2

/-- `_select_ids`, keypoint_metrics.py:1200-1206. -/
def selectIds (ids : List (ℕ × ℕ)) (gtMask : List Bool) : Option (List (ℕ × ℕ)) := do
  let ms ← ids.mapM fun m => gtMask[m.1]?
  pure ((ids.zip ms).filterMap fun x => if x.2 then some x.1 else none)

/-- An object of zeros with the given number of key points. -/
def zeroObj (n : ℕ) : Obj := ⟨List.replicate n ⟨0, 0⟩, ⟨0, 0, 0⟩⟩

/-- `BaseMatcher.reorder`, keypoint_metrics.py:1224-1268, with the pairs returned by `matching_ids`; `n` is the number of
key points. -/
def reorder (n : ℕ) (ids : List (ℕ × ℕ)) (gt pr : List Obj) : Option (List Obj × List Obj) := do
  let vis ← selectIds ids (gt.map hasVisible)
  let gtIds := ids.map Prod.fst ++ indicesOfFalse (gt.map hasVisible)
  let prIds := ids.map Prod.snd ++ indicesOfFalse (pr.map hasVisible)
  let fn ← missingIds gtIds gt.length
  let fp ← missingIds prIds pr.length
  let g ← reorderList (zeroObj n) gt [.ids (vis.map Prod.fst), .ids fn, .pad fp.length]
  let p ← reorderList (zeroObj n) pr [.ids (vis.map Prod.snd), .pad fn.length, .ids fp]
  pure (g, p)

/-! ### Object key point similarity and correct key points -/

/-- `_oks_per_point`, keypoint_metrics.py:48-50. -/
def oksPoint (diff : V3) (scale : ℝ) : ℝ :=
  Real.exp (divNoNan (-(diff 0 * diff 0 + diff 1 * diff 1 + diff 2 * diff 2)) (2 * scale * scale))

/-- `BoundingBoxTensors.scale`, keypoint_data.py:455-457, in three dimensions. -/
def boxScale (b : Box) : ℝ := (b.dim 0 * b.dim 1 * b.dim 2) ^ ((1 : ℝ) / 3)

/-- `_mean` with weights, keypoint_metrics.py:156-165. -/
def weightedMean (vs : List (ℝ × ℝ)) : ℝ := divNoNan (vs.map fun v => v.1 * v.2).sum (vs.map Prod.snd).sum

/-- `object_keypoint_similarity`, keypoint_metrics.py:186-248, for one object; `w` holds one weight per key point.
Broadcasting of tensors of length one is left out. -/
def oks (g p : List Keypoint) (b : Box) (scales : List ℝ) (w : List ℝ) : Option ℝ := do
  guard (g.length = scales.length ∧ p.length = scales.length ∧ w.length = scales.length)
  let sc := scales.map fun s => s * boxScale b
  let big : Box := ⟨b.center, fun i => 3 * b.dim i, 0⟩
  let boxDiff ← p.mapM fun k => boxDisplacement k.loc big
  let gtDiff := List.zipWith (fun a c => a.loc - c.loc) g p
  let available := decide (0 < (g.map mask).sum)
  let scores := List.zipWith oksPoint (if available then gtDiff else boxDiff) sc
  let boxSim := divNoNan scores.sum scales.length
  let ws := List.zipWith (fun x y => x * y) (List.zipWith (fun a c => mask a * mask c) g p) w
  let gtSim := weightedMean (scores.zip ws)
  pure (if available then gtSim else boxSim)

/-- What `PercentageOfCorrectKeypoints._update_state` averages for an object with the absolute threshold,
keypoint_metrics.py:737-746. -/
def pckValue (threshold : ℝ) (g p : Keypoint) : ℝ × ℝ :=
  (if norm (g.loc - p.loc) ≤ threshold then 1 else 0, mask g * mask p)

end

end Verif.Pose
