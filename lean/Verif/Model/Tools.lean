import Verif.Model.OpsTracking
import Verif.Model.Segmentation
import Mathlib.Data.Prod.Lex
import Mathlib.Data.String.Basic

/-!
Model of the command line programs that compute metrics: metrics/tools/compute_detection_metrics_main.cc (abbreviated
"det"), compute_detection_let_metrics_main.cc ("let"), compute_tracking_metrics_main.cc ("trk") and
compute_segmentation_metrics_main.cc ("seg").

A file is the list of its messages, or `none` if it does not parse; what the programs print is a value of `Printed`.  An
outer `none` is a failed `CHECK`, a `LOG(FATAL)` or undefined behaviour.  The evaluation itself is that of Model/Curve,
Model/Tracking and Model/Segmentation; matchers are given by their results.
-/

namespace Verif.Tools

open Verif.Ops (push lookup setInsert idsOf)

/-- `Label.Box`; fields that are not set are zero. -/
structure Box where
  cx : ℝ := 0
  cy : ℝ := 0
  cz : ℝ := 0
  width : ℝ := 0
  length : ℝ := 0
  height : ℝ := 0
  heading : ℝ := 0

/-- `Object`, protos/metrics.proto:24-47, with the parts of its label that the programs or the evaluation read. -/
structure Rec where
  context : String
  time : ℤ
  camera : Option Nat := none
  id : String := ""
  type : Nat
  box : Box := {}
  /-- `camera_synced_box` -/
  synced : Option Box := none
  /-- `num_lidar_points_in_box` -/
  points : Option ℤ := none
  /-- `num_top_lidar_points_in_box` -/
  topPoints : Option ℤ := none
  /-- `detection_difficulty_level` -/
  detLevel : Option Nat := none
  /-- `tracking_difficulty_level` -/
  trkLevel : Option Nat := none
  mostVisible : Option String := none
  speed : Option (ℝ × ℝ) := none
  score : Option ℚ := none
  nlz : Option Bool := none

/-- What the breakdown generators read. -/
def Rec.core (o : Rec) : Breakdown.Obj :=
  ⟨o.type, o.box.cx, o.box.cy, o.box.cz, o.box.length, o.box.width, o.box.height, o.speed, o.camera, o.mostVisible⟩

/-! ## Ground truths -/

/-- The difficulty of a ground truth that has none, det:140-152 and let:182-191. -/
def withLevel (points : ℤ) (o : Rec) : Rec :=
  if o.detLevel = none ∨ o.detLevel = some 0 then { o with detLevel := some (if points ≤ 5 then 2 else 1) } else o

/-- The loop over the ground truths, det:137-154. -/
def prepare (gts : List Rec) : List Rec :=
  gts.filterMap fun o => if o.points.getD 0 ≤ 0 then none else some (withLevel (o.points.getD 0) o)

/-- The loop body over the ground truths, let:177-207: the outer `none` is the failed `CHECK`, the inner one
`continue`. -/
def prepareLetOne (o : Rec) : Option (Option Rec) :=
  if o.topPoints.getD 0 ≤ 0 then some none
  else
    let o := withLevel (o.topPoints.getD 0) o
    if o.mostVisible = none ∨ o.mostVisible = some "" then some none
    else if (Breakdown.parseCamera (o.mostVisible.getD "")).isNone then none
    else some (some { o with box := o.synced.getD {} })

/-- The loop over the ground truths, let:175-208. -/
def prepareLet (gts : List Rec) : Option (List Rec) := (gts.mapM prepareLetOne).map fun l => l.filterMap id

/-! ## Frames -/

/-- A map from frames to vectors of objects, filled in the order of the file, det:165-174. -/
def groupBy {κ : Type} [DecidableEq κ] (key : Rec → κ) (os : List Rec) : List (κ × List Rec) :=
  os.foldl (fun m o => push m (key o) o) []

/-- `get_key`, det:159-163: a string and a time. -/
def detKey (o : Rec) : String ×ₗ ℤ := toLex (o.context ++ "_" ++ toString (o.camera.getD 0), o.time)

/-- The frames that are evaluated, det:156-194. -/
def examples {κ : Type} [LinearOrder κ] (key : Rec → κ) (pds gts : List Rec) : List (List Rec × List Rec) :=
  let p := groupBy key pds
  let g := groupBy key gts
  (idsOf p g).map fun k => (lookup p k, lookup g k)

/-- The scenes that are evaluated, trk:137-163. -/
def scenes (pds gts : List Rec) : List (List (List Rec × List Rec)) :=
  let fill (os : List Rec) := os.foldl (fun (m : List (String × List (ℤ × List Rec))) o => OpsTracking.pushIn m o.context o.time o) []
  let p := fill pds
  let g := fill gts
  (idsOf p g).map fun s => (idsOf (lookup p s) (lookup g s)).map fun t => (lookup (lookup p s) t, lookup (lookup g s) t)

/-! ## Evaluation -/

/-- The matcher of a frame of detections. -/
structure Env where
  iou : List Rec → List Rec → Nat → Nat → Option ℚ
  aff : List Rec → List Rec → Nat → Nat → Option ℚ
  ha : List Rec → List Rec → Nat → Nat → ℚ
  can : List Rec → List Rec → Nat → Nat → Option Bool
  doMatch : List Rec → List Rec → List Nat → List Nat → Option (List (Option Nat) × List (Option Nat))

/-- An object as the evaluation of detections reads it; the default score is one, protos/metrics.proto:28. -/
def detItem (o : Rec) : Detection.Item Breakdown.Obj String :=
  ⟨o.core, o.id, o.score.getD 1, o.nlz.getD false, o.detLevel.getD 0⟩

/-- A frame as the evaluation of detections reads it. -/
def Env.detFrame (E : Env) (x : List Rec × List Rec) : Detection.Frame Breakdown.Obj String :=
  ⟨x.1.map detItem, x.2.map detItem, E.iou x.1 x.2, E.aff x.1 x.2, E.ha x.1 x.2, E.doMatch x.1 x.2⟩

/-- An object as the evaluation of tracks reads it. -/
def trkItem (o : Rec) : Tracking.Item Breakdown.Obj String :=
  ⟨o.core, o.id, o.score.getD 1, o.nlz.getD false, o.trkLevel.getD 0⟩

/-- A frame as the evaluation of tracks reads it. -/
def Env.trkFrame (E : Env) (x : List Rec × List Rec) : Tracking.Frame Breakdown.Obj String :=
  ⟨x.1.map trkItem, x.2.map trkItem, E.can x.1 x.2, E.iou x.1 x.2, E.doMatch x.1 x.2⟩

/-- The score cutoffs, det:116-119. -/
def cutoffs : List ℚ := ((List.range 100).map fun i : Nat => (i : ℚ) / 100) ++ [1]

/-- The breakdowns and levels of `GetConfig`, det:98-108 and trk:100-110. -/
def names2 : Breakdown.Config := ⟨[2, 3], [[1, 2], [1, 2]]⟩

/-- The breakdowns and levels of `GetConfig`, let:110-125. -/
def names3 : Breakdown.Config := ⟨[2, 3, 10], [[2], [2], [2]]⟩

/-- The configuration with given breakdowns, det:96-122 and let:109-159. -/
noncomputable def config (n : Breakdown.Config) (letEnabled : Bool) : Detection.Config Breakdown.Obj where
  generators := n.generators.filterMap fun i => (Breakdown.create i).map fun g => (i, g)
  levels := n.levels
  cutoffs := cutoffs
  letEnabled := letEnabled

/-- What a program prints after it has read its files. -/
inductive Printed (α : Type) where
  /-- "Failed to parse" -/
  | unparsed
  /-- "does not match" -/
  | mismatch
  | lines (l : List (String × α))

/-- The names and the metrics side by side if there are as many, det:199-214, let:251-270, trk:169-186. -/
def print {α β : Type} (n : Breakdown.Config) (ms : List β) (f : β → α) : Option (Printed α) := do
  let names ← Breakdown.breakdownNames n
  if names.length ≠ ms.length then pure .mismatch
  else pure (.lines (names.zip (ms.map f)))

/-- `ComputeDetectionMetrics` with the configuration of a program; the recall delta is the default of
protos/metrics.proto:106. -/
noncomputable def detMetrics (E : Env) (n : Breakdown.Config) (letEnabled : Bool) (xs : List (List Rec × List Rec)) :
    Option (List Curve.DetMetrics) :=
  Curve.computeMetrics (config n letEnabled) 0 0 (1 / 20) (xs.map E.detFrame)

/-- `Compute`, det:125-215: average precision, plain and weighted by heading. -/
noncomputable def detection (E : Env) (pd gt : Option (List Rec)) : Option (Printed (ℚ × ℚ)) :=
  match pd, gt with
  | some p, some g => do
    let ms ← detMetrics E names2 false (examples detKey p (prepare g))
    print names2 ms fun m => (m.map, m.mapHa)
  | _, _ => some .unparsed

/-- `Compute`, let:162-271: average precision weighted by affinity, plain and weighted by heading. -/
noncomputable def detectionLet (E : Env) (pd gt : Option (List Rec)) : Option (Printed (ℚ × ℚ × ℚ)) :=
  match pd, gt with
  | some p, some g => do
    let g ← prepareLet g
    let ms ← detMetrics E names3 true (examples detKey p g)
    print names3 ms fun m => (m.mapLa, m.map, m.mapHa)
  | _, _ => some .unparsed

/-- `Compute`, trk:124-187: MOTA, MOTP, misses, mismatches and false positives. -/
noncomputable def tracking (E : Env) (M : Tracking.Motion Breakdown.Obj) (H : Nat → Tracking.Orders)
    (pd gt : Option (List Rec)) : Option (Printed (ℚ × ℚ × ℚ × ℚ × ℚ)) :=
  match pd, gt with
  | some p, some g => do
    let ms ← Tracking.computeMetrics M (config names2 false) 0 H ((scenes p g).map fun xs => xs.map E.trkFrame)
    print names2 ms fun m => (m.2.mota, m.2.motp, m.2.miss, m.2.mismatch, m.2.fp)
  | _, _ => some .unparsed

/-! ## Segmentation -/

/-- The compressed labels of a laser: two returns. -/
structure SegLabel (β : Type) where
  laser : Nat
  ret1 : β
  ret2 : β

/-- `SegmentationFrame`, protos/segmentation_metrics.proto:57-66. -/
structure SegFrame (β : Type) where
  context : String
  time : ℤ
  labels : List (SegLabel β)

/-- `get_key`, seg:140-143. -/
def segKey {β : Type} (f : SegFrame β) : String ×ₗ ℤ := toLex (f.context, f.time)

/-- `map[key] = f` for each frame of a file, seg:144-153: the last frame of a key remains. -/
def segMap {β : Type} (fs : List (SegFrame β)) (k : String ×ₗ ℤ) : Option (SegFrame β) :=
  (fs.filter fun f => decide (segKey f = k)).getLast?

/-- The set of keys, seg:139-153. -/
def segKeys {β : Type} (pd gt : List (SegFrame β)) : List (String ×ₗ ℤ) :=
  (pd.map segKey ++ gt.map segKey).foldl (fun s k => setInsert k s) []

/-- The classes that are evaluated: all but TYPE_UNDEFINED, seg:117-126, protos/segmentation.proto:21-61. -/
def segTypes : List Nat := (List.range 22).map (· + 1)

/-- The valid prediction of a frame: one laser, TOP (1), seg:170-174. -/
def validPrediction {β : Type} (f : Option (SegFrame β)) : Option (SegLabel β) :=
  match f with
  | some f => match f.labels with
    | [l] => if l.laser = 1 then some l else none
    | _ => none
  | none => none

/-- One frame, seg:155-217.  `decode` uncompresses and parses the labels of a return, `none` if that fails, which deletes
a buffer twice (seg:83-92).  The result is `none` for a failed `CHECK`, `some (.inl s)` to go on and `some (.inr ())`
for the early return. -/
def segFrame {β : Type} (decode : β → Option (List Nat)) (pd gt : List (SegFrame β)) (s : Segmentation.Iou)
    (k : String ×ₗ ℤ) : Option (Segmentation.Iou ⊕ Unit) :=
  match segMap gt k with
  | none => some (.inl s)
  | some f => match f.labels with
    | [] => some (.inl s)
    | [l] =>
      if l.laser ≠ 1 then some (.inr ())
      else do
        let valid := validPrediction (segMap pd k)
        let g1 ← decode l.ret1
        let numPoints := g1.length
        let p1 ← match valid with
          | some v => decode v.ret1
          | none => some (List.replicate numPoints 0)
        let s1 ← Segmentation.update s p1 g1
        let g2 ← decode l.ret2
        let p2 ← match valid with
          | some v => decode v.ret2
          | none => some (List.replicate numPoints 0)
        let s2 ← Segmentation.update s1 p2 g2
        pure (.inl s2)
    | _ => some (.inr ())

/-- The loop over the frames, seg:154-218. -/
def segLoop {β : Type} (decode : β → Option (List Nat)) (pd gt : List (SegFrame β)) :
    List (String ×ₗ ℤ) → Segmentation.Iou → Option (Segmentation.Iou ⊕ Unit)
  | [], s => some (.inl s)
  | k :: ks, s =>
    match segFrame decode pd gt s k with
    | none => none
    | some (.inr u) => some (.inr u)
    | some (.inl s') => segLoop decode pd gt ks s'

/-- `Compute`, seg:112-230: the metrics, or nothing after the message that only the TOP laser is supported. -/
def segmentation {β : Type} (decode : β → Option (List Nat)) (pd gt : List (SegFrame β)) : Option (Option Segmentation.Metrics) := do
  let s ← Segmentation.new segTypes
  let r ← segLoop decode pd gt (segKeys pd gt) s
  match r with
  | .inl s => pure (some (Segmentation.computeIOU s))
  | .inr _ => pure none

end Verif.Tools
