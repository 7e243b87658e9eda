import Verif.Model.Ops
import Verif.Model.Tracking

/-!
Model of the TensorFlow operation that evaluates tracking: metrics/ops/utils.cc:177-266 (objects grouped by sequence
and frame) and metrics/ops/tracking_metrics_ops.cc, with the variables of metrics/python/tracking_metrics.py.

`none` is a failed `CHECK` or an access outside a tensor.  The ids of objects are decimal numbers written out, so
they are modelled by the numbers.  The ids of sequences are strings; the code only compares them, so the model takes
any linear order `κ`.  Repeated objects are only logged (utils.cc:253-263).
-/

namespace Verif.OpsTracking

open Verif.Ops Verif.Detection

variable {κ : Type} [LinearOrder κ]

/-- `objects[sequence][frame].emplace_back(object)`, utils.cc:251. -/
def pushIn {μ α : Type} [DecidableEq μ] :
    List (κ × List (μ × List α)) → κ → μ → α → List (κ × List (μ × List α))
  | [], k, f, v => [(k, push [] f v)]
  | (k', l) :: m, k, f, v => if k' = k then (k', push l f v) :: m else (k', l) :: pushIn m k f v

/-- The arguments of `ParseObjectGroupedBySequenceFromTensors`, utils.cc:179-187. -/
structure SeqTensors (κ : Type) where
  base : Tensors
  sequence : List κ
  object : List ℤ

/-- The loop body, utils.cc:219-250: object `i` with its id, frame and sequence. -/
def seqRow (t : SeqTensors κ) (i : Nat) : Option (κ × ℤ × Obj) := do
  let o ← rowObj t.base i
  let id ← t.object[i]?
  let f ← t.base.frame[i]?
  let s ← t.sequence[i]?
  pure (s, f, { o with id := some id })

/-- `ParseObjectGroupedBySequenceFromTensors`, utils.cc:177-266. -/
def parseSequences (t : SeqTensors κ) : Option (List (κ × List (ℤ × List Obj))) := do
  let n := t.base.bbox.length
  if t.base.type.length ≠ n then none
  if t.base.frame.length ≠ n then none
  if t.sequence.length ≠ n then none
  if t.object.length ≠ n then none
  if ¬(sizeOk n t.base.score && sizeOk n t.base.nlz && sizeOk n t.base.detLevel && sizeOk n t.base.trkLevel
      && sizeOk n t.base.speed) then none
  (List.range n).foldlM (fun m i => do
    let r ← seqRow t i
    pure (pushIn m r.1 r.2.1 r.2.2)) []

/-- The sequences in ascending order of their ids, each with its frames in ascending order of theirs,
tracking_metrics_ops.cc:210-238. -/
def alignSequences (pds gts : List (κ × List (ℤ × List Obj))) : List (List (List Obj × List Obj)) :=
  (idsOf pds gts).map fun s =>
    (idsOf (lookup pds s) (lookup gts s)).map fun id => (lookup (lookup pds s) id, lookup (lookup gts s) id)

/-- The prediction tensors of the operation, tracking_metrics_ops.cc:104-111. -/
structure PdTensors (κ : Type) where
  dof : Nat
  bbox : List (List ℚ)
  type : List Nat
  score : List ℚ
  frame : List ℤ
  sequence : List κ
  object : List ℤ
  nlz : List Bool

/-- The ground truth tensors of the operation, tracking_metrics_ops.cc:113-119. -/
structure GtTensors (κ : Type) where
  dof : Nat
  bbox : List (List ℚ)
  type : List Nat
  frame : List ℤ
  sequence : List κ
  object : List ℤ
  difficulty : List Nat
  speed : List (ℚ × ℚ)

/-- The arguments of the first call, tracking_metrics_ops.cc:179-189. -/
def PdTensors.args (t : PdTensors κ) : SeqTensors κ where
  base := { dof := t.dof, bbox := t.bbox, type := t.type, frame := t.frame, score := some t.score, nlz := some t.nlz }
  sequence := t.sequence
  object := t.object

/-- The arguments of the second call, tracking_metrics_ops.cc:198-208: the difficulty is that of detection. -/
def GtTensors.args (t : GtTensors κ) : SeqTensors κ where
  base := { dof := t.dof, bbox := t.bbox, type := t.type, frame := t.frame, detLevel := some t.difficulty,
            speed := some t.speed }
  sequence := t.sequence
  object := t.object

/-- The sequences that the operation evaluates, tracking_metrics_ops.cc:175-238. -/
def opScenes (pd : PdTensors κ) (gt : GtTensors κ) : Option (List (List (List Obj × List Obj))) := do
  let p ← parseSequences pd.args
  let g ← parseSequences gt.args
  pure (alignSequences p g)

/-- What the matcher and the breakdown generators of a configuration read of the objects of a frame. -/
structure Env (O : Type) where
  core : Obj → O
  motion : Tracking.Motion O
  canMatch : List Obj → List Obj → Nat → Nat → Option Bool
  iou : List Obj → List Obj → Nat → Nat → Option ℚ
  doMatch : List Obj → List Obj → List Nat → List Nat → Option (List (Option Nat) × List (Option Nat))

variable {O : Type}

/-- An object as the evaluation reads it; fields that are not set are zero. -/
def Env.item (E : Env O) (o : Obj) : Tracking.Item O ℤ :=
  ⟨E.core o, o.id.getD 0, o.score.getD 0, o.nlz.getD false, o.trkLevel.getD 0⟩

/-- A frame with its matcher. -/
def Env.frame (E : Env O) (x : List Obj × List Obj) : Tracking.Frame O ℤ :=
  ⟨x.1.map E.item, x.2.map E.item, E.canMatch x.1 x.2, E.iou x.1 x.2, E.doMatch x.1 x.2⟩

/-- A sequence of frames with their matchers. -/
def Env.scene (E : Env O) (xs : List (List Obj × List Obj)) : List (Tracking.Frame O ℤ) := xs.map E.frame

/-- The thread pool, tracking_metrics_ops.cc:240-257: task `i` writes slot `i`; `order` is the order in which the
tasks run. -/
def runPool (M : Tracking.Motion O) (c : Config O) (H : Nat → Tracking.Orders) (scenes : List (List (Tracking.Frame O ℤ)))
    (order : List Nat) : Option (List (List (Measure.Group (Tracking.Out ℤ)))) :=
  order.foldlM (fun slots i => do
    let xs ← scenes[i]?
    let m ← Tracking.computeMeasurements M c (H i) xs
    pure (slots.set i m)) (List.replicate scenes.length [])

/-- The outputs of the operation, tracking_metrics_ops.cc:122-139. -/
structure Output where
  mota : List ℚ
  motp : List ℚ
  miss : List ℚ
  mismatch : List ℚ
  fp : List ℚ
  cutoff : List ℚ
  breakdown : List (Nat × Nat × Nat)
  deriving DecidableEq

/-- `OutputTensors::Create`, tracking_metrics_ops.cc:141-163.  The breakdown is a tensor of bytes. -/
def createOutput (ms : List (Measure.Breakdown × Measure.TrkMetrics)) : Output where
  mota := ms.map fun e => e.2.mota
  motp := ms.map fun e => e.2.motp
  miss := ms.map fun e => e.2.miss
  mismatch := ms.map fun e => e.2.mismatch
  fp := ms.map fun e => e.2.fp
  cutoff := ms.map fun e => e.2.cutoff
  breakdown := ms.map fun e => (e.1.generator % 256, e.1.shard % 256, e.1.level % 256)

/-- `TrackingMetricsOp::ComputeImpl`, tracking_metrics_ops.cc:167-263. -/
def trackingOp (E : Env O) (c : Config O) (desired : Nat) (H : Nat → Tracking.Orders) (order : List Nat) (pd : PdTensors κ)
    (gt : GtTensors κ) : Option Output := do
  let ss ← opScenes pd gt
  let scenes := ss.map E.scene
  let k ← Tracking.usedCutoffs c desired scenes
  let ms ← runPool E.motion { c with cutoffs := k } H scenes order
  let r ← Tracking.metricsOf ms
  pure (createOutput r)

/-! ### The variables in Python -/

/-- `tf.concat` of prediction tensors along the rows. -/
def PdTensors.append (a b : PdTensors κ) : PdTensors κ :=
  ⟨a.dof, a.bbox ++ b.bbox, a.type ++ b.type, a.score ++ b.score, a.frame ++ b.frame, a.sequence ++ b.sequence,
    a.object ++ b.object, a.nlz ++ b.nlz⟩

/-- `tf.concat` of ground truth tensors along the rows. -/
def GtTensors.append (a b : GtTensors κ) : GtTensors κ :=
  ⟨a.dof, a.bbox ++ b.bbox, a.type ++ b.type, a.frame ++ b.frame, a.sequence ++ b.sequence, a.object ++ b.object,
    a.difficulty ++ b.difficulty, a.speed ++ b.speed⟩

/-- The variables of `get_tracking_metric_ops`, tracking_metrics.py:24-54 and 146-165: empty at first. -/
def PdTensors.empty (dof : Nat) : PdTensors κ := ⟨dof, [], [], [], [], [], [], []⟩

/-- See `PdTensors.empty`. -/
def GtTensors.empty (dof : Nat) : GtTensors κ := ⟨dof, [], [], [], [], [], [], []⟩

/-- The variables after running the update operation on each batch in turn, tracking_metrics.py:50-53. -/
def accumulate (dof : Nat) (batches : List (PdTensors κ × GtTensors κ)) : PdTensors κ × GtTensors κ :=
  batches.foldl (fun s b => (s.1.append b.1, s.2.append b.2)) (PdTensors.empty dof, GtTensors.empty dof)

end Verif.OpsTracking
