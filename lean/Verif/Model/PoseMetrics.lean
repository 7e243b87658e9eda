import Verif.Model.Pose
import Verif.Model.Wireframe
import Verif.Model.Common

/-!
# Key point metrics: precision, correct key points, subsets and combinations

Model of the metric classes of metrics/python/keypoint_metrics.py (paths relative to /repo/src/waymo_open_dataset) that
collect results under names.

* A metric is the function from the batches of its updates, in order, to its result: a dictionary from names to numbers.
  An exception in any update ends the run.
* Key points and boxes have three dimensions, numbers are real, a box is always given.
* Broadcasting of tensors of length one is left out.  A batch without objects has no number of key points to check.
* A threshold is a rational number, which every Python float is.
-/

namespace Verif.PoseMetrics

open Verif.Boxes Verif.Pose
open Verif.Wireframe (get put dict)

noncomputable section

/-- The arguments of `update_state`, keypoint_metrics.py:314-349. -/
structure Batch where
  gt : List (List Keypoint)
  pr : List (List Keypoint)
  boxes : List Box
  w : Weights

/-- A `KeypointsMetric`, keypoint_metrics.py:280-360: what `result` returns after the updates. -/
abbrev Metric := List Batch → Option (List (String × ℝ))

/-! ### Names -/

/-- The hundredths of a number printed with two digits; ties go to the even one. -/
def hundredths (t : ℚ) : ℤ := Verif.roundHalfEven (100 * t)

/-- `'{:.2f}'.format(t)`. -/
def fixed2 (t : ℚ) : String :=
  let n := (hundredths t).natAbs
  (if t < 0 then "-" else "") ++ Nat.repr (n / 100) ++ "." ++ Nat.repr (n / 10 % 10) ++ Nat.repr (n % 10)

/-! ### Layers by threshold -/

/-- The loop over the thresholds of `_update_state`, keypoint_metrics.py:443-447 and 739-746, where `by_key` of
`_LayerDictWrapper`, 363-379, is the function from a threshold to the state of its layer: equal thresholds share one. -/
def updateAll (ts : List ℚ) (vals : ℚ → List (ℝ × ℝ)) (m : ℚ → Mean) : ℚ → Mean :=
  ts.foldl (fun m t => Function.update m t ((m t).update (vals t))) m

/-- The layers before the first update. -/
def startAll : ℚ → Mean := fun _ => Mean.start

/-- The results by name: `by_name` of `_LayerDictWrapper`, keypoint_metrics.py:363-379, holds the layer of the last
threshold with a name. -/
def byName (name : ℚ → String) (ts : List ℚ) (m : ℚ → Mean) : List (String × ℝ) :=
  ts.map fun t => (name t, (m t).result)

/-! ### Average precision at OKS -/

open Classical in
/-- `box_is_valid`, keypoint_metrics.py:436. -/
def boxValid (b : Box) : Bool := decide (∃ i, 1 / 100000 < b.dim i)

/-- `tf.cast(box_is_valid, tf.float32)`, keypoint_metrics.py:440-442. -/
def boxWeight (b : Box) : ℝ := if boxValid b then 1 else 0

/-- `_oks_object_weights`, keypoint_metrics.py:251-277. -/
def objectWeights (boxes : List Box) : Weights → Option (List ℝ)
  | .none => some (boxes.map boxWeight)
  | .perObject _ => Option.none
  | .perPoint w =>
    let abs := w.map List.sum
    if abs.length = boxes.length then
      some (List.zipWith (fun x b => divNoNan x abs.sum * boxWeight b) abs boxes)
    else Option.none

/-- The similarities and weights of the objects of a batch, keypoint_metrics.py:433-442. -/
def oksValues (scales : List ℝ) (b : Batch) : Option (List (ℝ × ℝ)) := do
  guard (b.gt.length = b.pr.length ∧ b.gt.length = b.boxes.length)
  let w ← b.w.expand (b.gt.map List.length)
  let os ← (b.gt.zip (b.pr.zip (b.boxes.zip w))).mapM fun x => oks x.1 x.2.1 x.2.2.1 scales x.2.2.2
  let ow ← objectWeights b.boxes b.w
  pure ((List.zipWith (fun o b => if boxValid b then o else 0) os b.boxes).zip ow)

open Classical in
/-- `m` with the weights, keypoint_metrics.py:443-447. -/
def matched (vs : List (ℝ × ℝ)) (t : ℚ) : List (ℝ × ℝ) := vs.map fun v => (if (t : ℝ) < v.1 then 1 else 0, v.2)

/-- `AveragePrecisionAtOKS._update_state`, keypoint_metrics.py:424-450. -/
def apUpdate (ts : List ℚ) (scales : List ℝ) (s : (ℚ → Mean) × Mean) (b : Batch) : Option ((ℚ → Mean) × Mean) := do
  let vs ← oksValues scales b
  pure (updateAll ts (matched vs) s.1, s.2.update (ts.map fun t => (weightedMean (matched vs t), 1)))

/-- `AveragePrecisionAtOKS`, keypoint_metrics.py:385-457. -/
def apMetric (ts : List ℚ) (scales : List ℝ) (name : String) : Metric := fun bs => do
  let s ← bs.foldlM (apUpdate ts scales) (startAll, Mean.start)
  pure (dict (byName (fun t => name ++ " P @ " ++ fixed2 t) ts s.1 ++ [(name ++ " AP", s.2.result)]))

/-! ### Percentage of correct key points -/

/-- The values and weights of the key points of one object; `f` is its scale, `sc` holds the scales of the key points. -/
def pckObject (t : ℝ) (f : ℝ) (sc : List ℝ) (g p : List Keypoint) (w : List ℝ) : List (ℝ × ℝ) :=
  (g.zip (p.zip (sc.zip w))).map fun x =>
    ((pckValue (t * f * x.2.2.1) x.1 x.2.1).1, (pckValue (t * f * x.2.2.1) x.1 x.2.1).2 * x.2.2.2)

/-- The values and weights of a batch for a threshold, keypoint_metrics.py:703-746. -/
def pckValues (useScale : Bool) (scales : Option (List ℝ)) (b : Batch) : Option (ℚ → List (ℝ × ℝ)) := do
  guard (b.gt.map List.length = b.pr.map List.length)
  guard (useScale = true → b.boxes.length = b.gt.length)
  guard (∀ sc ∈ scales, ∀ g ∈ b.gt, g.length = sc.length)
  let w ← b.w.expand (b.gt.map List.length)
  let fs := if useScale then b.boxes.map boxScale else b.gt.map fun _ => 1
  pure fun t => (b.gt.zip (b.pr.zip (fs.zip w))).flatMap fun x =>
    pckObject t x.2.2.1 (scales.getD (x.1.map fun _ => 1)) x.1 x.2.1 x.2.2.2

/-- `PercentageOfCorrectKeypoints`, keypoint_metrics.py:657-752. -/
def pckMetric (ts : List ℚ) (scales : Option (List ℝ)) (useScale : Bool) (name : String) : Metric := fun bs => do
  let s ← bs.foldlM (fun m b => do
    let vs ← pckValues useScale scales b
    pure (updateAll ts vs m)) startAll
  pure (dict (byName (fun t => name ++ " @ " ++ fixed2 t) ts s))

/-! ### Position error -/

/-- `MeanPerJointPositionError`, keypoint_metrics.py:460-487. -/
def mpjpeMetric (name : String) : Metric := fun bs => do
  let x ← mpjpe (bs.map fun b => (b.gt, b.pr, b.w))
  pure [(name, x)]

/-! ### Visibility -/

/-- The weights of the true positives, false positives and false negatives. -/
structure Confusion where
  tp : ℝ
  fp : ℝ
  fn : ℝ

/-- `update_state` of `tf.keras.metrics.Precision` and `Recall` for labels and predictions that are true or false:
keypoint_metrics.py:610-614 and 643-647. -/
def Confusion.update (c : Confusion) (vs : List ((Bool × Bool) × ℝ)) : Confusion :=
  ⟨c.tp + (vs.map fun v => if v.1.1 && v.1.2 then v.2 else 0).sum,
    c.fp + (vs.map fun v => if !v.1.1 && v.1.2 then v.2 else 0).sum,
    c.fn + (vs.map fun v => if v.1.1 && !v.1.2 then v.2 else 0).sum⟩

/-- The visibilities of a batch with their weights. -/
def visValues (b : Batch) : Option (List ((Bool × Bool) × ℝ)) := do
  guard (b.gt.map List.length = b.pr.map List.length)
  let w ← b.w.expand (b.gt.map List.length)
  pure (((b.gt.map fun g => g.map visible).flatten.zip (b.pr.map fun g => g.map visible).flatten).zip w.flatten)

/-- The counts after the updates. -/
def confusion (bs : List Batch) : Option Confusion :=
  bs.foldlM (fun c b => do
    let vs ← visValues b
    pure (c.update vs)) ⟨0, 0, 0⟩

/-- `KeypointVisibilityPrecision`, keypoint_metrics.py:588-618. -/
def precisionMetric (name : String) : Metric := fun bs => do
  let c ← confusion bs
  pure [(name, divNoNan c.tp (c.tp + c.fp))]

/-- `KeypointVisibilityRecall`, keypoint_metrics.py:621-651. -/
def recallMetric (name : String) : Metric := fun bs => do
  let c ← confusion bs
  pure [(name, divNoNan c.tp (c.tp + c.fn))]

/-! ### Subsets and combinations -/

/-- The selection of the key points of a subset, keypoint_metrics.py:801-803; the box and the weights stay. -/
def subsetBatch (src dst : List ℤ) (b : Batch) : Option Batch := do
  let gt ← b.gt.mapM fun g => selectSubset g src dst
  let pr ← b.pr.mapM fun p => selectSubset p src dst
  pure ⟨gt, pr, b.boxes, b.w⟩

/-- `MetricForSubsets`, keypoint_metrics.py:762-816, with `_merge_results`, 755-759; `subsets` are the items of the
mapping. -/
def forSubsets (src : List ℤ) (subsets : List (String × List ℤ)) (create : String × List ℤ → Metric) : Metric := fun bs => do
  let rs ← subsets.mapM fun s => do
    let bs ← bs.mapM (subsetBatch src s.2)
    create s bs
  pure (dict rs.flatten)

/-- `CombinedMetric`, keypoint_metrics.py:819-853. -/
def combined (ms : List Metric) : Metric := fun bs => do
  let rs ← ms.mapM fun m => m bs
  pure (dict rs.flatten)

/-- `CombinedMetricsConfig`, keypoint_metrics.py:856-878; the mappings are the lists of their items. -/
structure Config where
  src : List ℤ
  subsets : List (String × List ℤ)
  scales : List (ℤ × ℝ)
  oksThresholds : List ℚ
  pckThresholds : List ℚ

/-- `__post_init__`, keypoint_metrics.py:879-892: the configuration is refused otherwise. -/
def Config.Accepted (c : Config) : Prop :=
  (∀ t ∈ c.src, (get c.scales t).isSome) ∧ ∀ s ∈ c.subsets, ∀ t ∈ s.2, (get c.scales t).isSome

/-- `select_scales`, keypoint_metrics.py:894-897, of types that have one. -/
def Config.selectScales (c : Config) (types : List ℤ) : List ℝ := types.map fun t => (get c.scales t).getD 0

/-- `create_combined_metric`, keypoint_metrics.py:1017-1065, for an accepted configuration. -/
def createCombined (c : Config) : Metric := combined [
  forSubsets c.src c.subsets fun s => mpjpeMetric ("MPJPE/" ++ s.1),
  forSubsets c.src c.subsets fun s => pckMetric c.pckThresholds (some (c.selectScales s.2)) true ("PCK/" ++ s.1),
  forSubsets c.src c.subsets fun s => apMetric c.oksThresholds (c.selectScales s.2) ("OKS/" ++ s.1)]

/-! ### Default configurations -/

/-- `_SHARED_TYPES`, keypoint_data.py:34-46, with the numbers of protos/keypoint.proto. -/
def sharedTypes : List ℤ := [1, 5, 13, 6, 14, 7, 15, 8, 16, 9, 17, 10, 18]

/-- `CANONICAL_ORDER_CAMERA`, keypoint_data.py:47. -/
def orderCamera : List ℤ := sharedTypes ++ [19]

/-- `CANONICAL_ORDER_LASER`, keypoint_data.py:50. -/
def orderLaser : List ℤ := sharedTypes ++ [20]

/-- `CANONICAL_ORDER_ALL`, keypoint_data.py:52. -/
def orderAll : List ℤ := sharedTypes ++ [19, 20]

/-- `DEFAULT_PER_TYPE_SCALES`, keypoint_metrics.py:912-928. -/
def defaultScales : List (ℤ × ℝ) := [(1, 52 / 1000), (5, 158 / 1000), (13, 158 / 1000), (6, 144 / 1000), (14, 144 / 1000),
  (7, 124 / 1000), (15, 124 / 1000), (8, 214 / 1000), (16, 214 / 1000), (9, 174 / 1000), (17, 174 / 1000),
  (10, 178 / 1000), (18, 178 / 1000), (19, 158 / 1000), (20, 158 / 1000)]

/-- `_SHARED_GROUPS`, keypoint_metrics.py:931-956. -/
def sharedGroups : List (String × List ℤ) := [("SHOULDERS", [5, 13]), ("ELBOWS", [6, 14]), ("WRISTS", [7, 15]),
  ("HIPS", [8, 16]), ("KNEES", [9, 17]), ("ANKLES", [10, 18])]

/-- `DEFAULT_OKS_THRESHOLDS`, keypoint_metrics.py:382. -/
def defaultOks : List ℚ := [1/2, 11/20, 3/5, 13/20, 7/10, 3/4, 4/5, 17/20, 9/10, 19/20]

/-- `DEFAULT_PCK_THRESHOLDS`, keypoint_metrics.py:654. -/
def defaultPck : List ℚ := [1/20, 1/10, 1/5, 3/10, 2/5, 1/2]

/-- `DEFAULT_CONFIG_CAMERA`, keypoint_metrics.py:957-966 and 990-996. -/
def configCamera : Config :=
  ⟨orderCamera, sharedGroups ++ [("ALL", orderCamera), ("HEAD", [1, 19])], defaultScales, defaultOks, defaultPck⟩

/-- `DEFAULT_CONFIG_LASER`, keypoint_metrics.py:967-976 and 999-1005. -/
def configLaser : Config :=
  ⟨orderLaser, sharedGroups ++ [("ALL", orderLaser), ("HEAD", [1, 20])], defaultScales, defaultOks, defaultPck⟩

/-- `DEFAULT_CONFIG_ALL`, keypoint_metrics.py:977-987 and 1008-1014. -/
def configAll : Config :=
  ⟨orderAll, sharedGroups ++ [("ALL", orderAll), ("HEAD", [1, 19, 20])], defaultScales, defaultOks, defaultPck⟩

end

end Verif.PoseMetrics
