import Verif.Model.Curve

/-!
Model of the TensorFlow operations that evaluate detection: metrics/ops/utils.cc:40-175 (reading boxes and objects
from tensors) and metrics/ops/detection_metrics_ops.cc (the metrics, their accumulable state, and the metrics of a
state), and of the classes that feed them: metrics/python/detection_metrics.py and
metrics/python/wod_detection_evaluator.py.

`none` is a failed `CHECK` (or `OP_REQUIRES`) or an access outside a tensor.  Numbers are exact: the tensors of
counters hold 32-bit floats in the code.  A thread pool is the order in which its tasks finish.
-/

namespace Verif.Ops

open Verif.Breakdown Verif.Measure Verif.Detection Verif.Curve

/-! ## Objects from tensors -/

/-- `Label::Box`, label.proto; a field that is not set is `none`. -/
structure Box where
  cx : Option ℚ := none
  cy : Option ℚ := none
  cz : Option ℚ := none
  length : Option ℚ := none
  width : Option ℚ := none
  height : Option ℚ := none
  heading : Option ℚ := none
  deriving DecidableEq

/-- `GetBoxByDimension` with `GetAABox2d`, `GetBox2d` and `GetBox3d`, utils.cc:40-99: `dof` is the second dimension
of the tensor and `row` one of its rows. -/
def boxByDimension (dof : Nat) (row : List ℚ) : Option Box :=
  if dof = 4 then
    match row with
    | [a, b, c, d] => some { cx := some a, cy := some b, length := some c, width := some d }
    | _ => none
  else if dof = 5 then
    match row with
    | [a, b, c, d, e] => some { cx := some a, cy := some b, length := some c, width := some d, heading := some e }
    | _ => none
  else if dof = 7 then
    match row with
    | [a, b, c, d, e, f, g] => some ⟨some a, some b, some c, some d, some e, some f, some g⟩
    | _ => none
  else none

/-- `GetDesiredBoxDOF`, utils.cc:103-115; the types are TYPE_UNKNOWN 0, TYPE_3D 1, TYPE_2D 2, TYPE_AA_2D 3. -/
def desiredDof (boxType : Nat) : Option Nat :=
  if boxType = 3 then some 4 else if boxType = 2 then some 5 else if boxType = 1 then some 7 else none

/-- The parts of `Object` that the operations set; `none` is a field that is not set. -/
structure Obj where
  type : Nat
  box : Box
  score : Option ℚ := none
  nlz : Option Bool := none
  /-- `detection_difficulty_level` -/
  detLevel : Option Nat := none
  /-- `tracking_difficulty_level` -/
  trkLevel : Option Nat := none
  speed : Option (ℚ × ℚ) := none
  /-- The decimal number that is the `id`. -/
  id : Option ℤ := none
  deriving DecidableEq

/-- The arguments of `ParseObjectFromTensors`, utils.cc:117-124. -/
structure Tensors where
  dof : Nat
  bbox : List (List ℚ)
  type : List Nat
  frame : List ℤ
  score : Option (List ℚ) := none
  nlz : Option (List Bool) := none
  detLevel : Option (List Nat) := none
  trkLevel : Option (List Nat) := none
  speed : Option (List (ℚ × ℚ)) := none

/-- An optional tensor has the expected number of rows, utils.cc:127-141. -/
def sizeOk {α : Type} (n : Nat) : Option (List α) → Bool
  | none => true
  | some l => l.length == n

/-- Value `i` of an optional tensor; the inner option is the field of the message. -/
def field {α : Type} (i : Nat) : Option (List α) → Option (Option α)
  | none => some none
  | some l => (l[i]?).map some

/-- The loop body of `ParseObjectFromTensors`, utils.cc:144-170: object `i`. -/
def rowObj (t : Tensors) (i : Nat) : Option Obj := do
  let type ← t.type[i]?
  let score ← field i t.score
  let row ← t.bbox[i]?
  let box ← boxByDimension t.dof row
  let nlz ← field i t.nlz
  let det ← field i t.detLevel
  let trk ← field i t.trkLevel
  let speed ← field i t.speed
  pure { type, box, score, nlz, detLevel := det, trkLevel := trk, speed }

/-- `objects[id].emplace_back(object)`: a hash map is the list of its entries in some order. -/
def push {κ α : Type} [DecidableEq κ] : List (κ × List α) → κ → α → List (κ × List α)
  | [], k, v => [(k, [v])]
  | (k', l) :: m, k, v => if k' = k then (k', l ++ [v]) :: m else (k', l) :: push m k v

/-- `map[key]` of a map of vectors: the empty vector if the key is missing. -/
def lookup {κ α : Type} [DecidableEq κ] : List (κ × List α) → κ → List α
  | [], _ => []
  | (k', l) :: m, k => if k' = k then l else lookup m k

/-- `ParseObjectFromTensors`, utils.cc:117-175. -/
def parseObjects (t : Tensors) : Option (List (ℤ × List Obj)) := do
  let n := t.bbox.length
  if t.type.length ≠ n then none
  if t.frame.length ≠ n then none
  if ¬(sizeOk n t.score && sizeOk n t.nlz && sizeOk n t.detLevel && sizeOk n t.trkLevel && sizeOk n t.speed) then none
  (List.range n).foldlM (fun m i => do
    let o ← rowObj t i
    let id ← t.frame[i]?
    pure (push m id o)) []

/-! ## Frames -/

/-- `std::set::insert` into a set listed in ascending order. -/
def setInsert {κ : Type} [LinearOrder κ] (k : κ) : List κ → List κ
  | [] => [k]
  | a :: l => if k < a then k :: a :: l else if k = a then a :: l else a :: setInsert k l

/-- The ids of two maps in ascending order, detection_metrics_ops.cc:211-217. -/
def idsOf {κ α : Type} [LinearOrder κ] (a b : List (κ × List α)) : List κ :=
  ((a.map Prod.fst) ++ (b.map Prod.fst)).foldl (fun s k => setInsert k s) []

/-- The predictions and ground truths of each frame, detection_metrics_ops.cc:218-230 and 373-385. -/
def alignFrames (pds gts : List (ℤ × List Obj)) : List (List Obj × List Obj) :=
  let fs := (idsOf pds gts).map fun id => (lookup pds id, lookup gts id)
  if fs.isEmpty then [([], [])] else fs

/-- The prediction tensors of the operations. -/
structure PdTensors where
  dof : Nat
  bbox : List (List ℚ)
  type : List Nat
  score : List ℚ
  frame : List ℤ
  nlz : List Bool

/-- The ground truth tensors of the operations. -/
structure GtTensors where
  dof : Nat
  bbox : List (List ℚ)
  type : List Nat
  frame : List ℤ
  difficulty : List Nat
  speed : List (ℚ × ℚ)

/-- The arguments of the first call of `ParseObjectFromTensors`, detection_metrics_ops.cc:195-200 and 350-355. -/
def PdTensors.args (t : PdTensors) : Tensors :=
  { dof := t.dof, bbox := t.bbox, type := t.type, frame := t.frame, score := some t.score, nlz := some t.nlz }

/-- The arguments of the second call of `ParseObjectFromTensors`, detection_metrics_ops.cc:205-210 and 360-365. -/
def GtTensors.args (t : GtTensors) : Tensors :=
  { dof := t.dof, bbox := t.bbox, type := t.type, frame := t.frame, detLevel := some t.difficulty, speed := some t.speed }

/-- The frames that an operation evaluates, detection_metrics_ops.cc:195-230 and 350-385. -/
def opFrames (pd : PdTensors) (gt : GtTensors) : Option (List (List Obj × List Obj)) := do
  let p ← parseObjects pd.args
  let g ← parseObjects gt.args
  pure (alignFrames p g)

/-- What the matcher and the breakdown generators of a configuration read of the objects of a frame. -/
structure Env (O : Type) where
  core : Obj → O
  iou : List Obj → List Obj → Nat → Nat → Option ℚ
  aff : List Obj → List Obj → Nat → Nat → Option ℚ
  ha : List Obj → List Obj → Nat → Nat → ℚ
  doMatch : List Obj → List Obj → List Nat → List Nat → Option (List (Option Nat) × List (Option Nat))

variable {O : Type}

/-- An object as the evaluation reads it; fields that are not set are zero, and no operation on detections sets ids. -/
def Env.item (E : Env O) (o : Obj) : Item O Unit :=
  ⟨E.core o, (), o.score.getD 0, o.nlz.getD false, o.detLevel.getD 0⟩

/-- A frame with its matcher. -/
def Env.frame (E : Env O) (x : List Obj × List Obj) : Frame O Unit :=
  ⟨x.1.map E.item, x.2.map E.item, E.iou x.1 x.2, E.aff x.1 x.2, E.ha x.1 x.2, E.doMatch x.1 x.2⟩

/-! ## The operations -/

/-- The parts of `Config` that the operations read. -/
structure OpConfig (O : Type) where
  base : Config O
  /-- `num_desired_score_cutoffs` -/
  desired : Nat
  minPrecision : ℚ := 0
  delta : ℚ

/-- The configuration with its cutoffs, estimated if it has none, detection_metrics_ops.cc:234-237 and 389-392. -/
def OpConfig.withCutoffs (c : OpConfig O) (xs : List (Frame O Unit)) : Option (Config O) :=
  (usedCutoffs c.base c.desired xs).map fun k => { c.base with cutoffs := k }

/-- The thread pool, detection_metrics_ops.cc:232-250: task `i` writes slot `i`; `order` is the order in which the
tasks run. -/
def runPool (c : Config O) (xs : List (Frame O Unit)) (order : List Nat) :
    Option (List (List (Measure.Group (Det (Detection.Details Unit))))) :=
  order.foldlM (fun slots i => do
    let x ← xs[i]?
    let m ← computeMeasurements c x
    pure (slots.set i m)) (List.replicate xs.length [])

/-- The outputs of the metrics operations, detection_metrics_ops.cc:106-128. -/
structure Output where
  ap : List ℚ
  apHa : List ℚ
  apLa : List ℚ
  /-- precision, recall, true positives, false positives, false negatives -/
  pr : List (List (ℚ × ℚ × ℤ × ℤ × ℤ))
  prHa : List (List (ℚ × ℚ))
  prLa : List (List (ℚ × ℚ))
  breakdown : List (Nat × Nat × Nat)
  deriving DecidableEq

/-- The metrics of each group beside its measurements, detection_metrics.cc:428-444. -/
def metricsWith {δ : Type} (minPrecision delta : ℚ) (fs : List (List (Measure.Group (Det δ)))) :
    Option (List (Measure.Group (Det δ) × DetMetrics)) := do
  let m ← mergeAllDet fs
  m.mapM fun g => (toDetectionMetrics minPrecision delta g).map fun d => (g, d)

/-- `OutputTensors::Create`, detection_metrics_ops.cc:130-184 and 456-510.  The breakdown is a tensor of bytes. -/
def createOutput {δ : Type} (numCutoffs : Nat) (ms : List (Measure.Group (Det δ) × DetMetrics)) : Option Output :=
  if ms.all fun e => e.2.points.length == numCutoffs then
    some {
      ap := ms.map fun e => e.2.map
      apHa := ms.map fun e => e.2.mapHa
      apLa := ms.map fun e => e.2.mapLa
      pr := ms.map fun e => (e.2.points.zip e.1.items).map fun p => (p.1.precision, p.1.recall, p.2.tps, p.2.fps, p.2.fns)
      prHa := ms.map fun e => e.2.points.map fun p => (p.precisionHa, p.recall)
      prLa := ms.map fun e => e.2.points.map fun p => (p.precisionLa, p.recall)
      breakdown := ms.map fun e => (e.2.breakdown.generator % 256, e.2.breakdown.shard % 256, e.2.breakdown.level % 256) }
  else none

/-- `DetectionMetricsOp::ComputeImpl`, detection_metrics_ops.cc:187-256. -/
def detectionOp (E : Env O) (c : OpConfig O) (order : List Nat) (pd : PdTensors) (gt : GtTensors) : Option Output := do
  let fs ← opFrames pd gt
  let xs := fs.map E.frame
  let c' ← c.withCutoffs xs
  let ms ← runPool c' xs order
  let r ← metricsWith c.minPrecision c.delta ms
  createOutput c'.cutoffs.length r

/-- A row of the state tensor: false positives, true positives, false negatives, sums of heading accuracies and of
longitudinal affinities. -/
abbrev Cell := ℚ × ℚ × ℚ × ℚ × ℚ

/-- detection_metrics_ops.cc:314-319. -/
def toCell {δ : Type} (m : Det δ) : Cell := (m.fps, m.tps, m.fns, m.ha, m.la)

/-- `DetectionMetricsStateOp`, detection_metrics_ops.cc:302-322 and 341-399.  The second dimension of the tensor is the number
of measurements of the first group. -/
def stateOp (E : Env O) (c : OpConfig O) (pd : PdTensors) (gt : GtTensors) : Option (List (List Cell)) := do
  let fs ← opFrames pd gt
  let xs := fs.map E.frame
  let c' ← c.withCutoffs xs
  let ms ← xs.mapM (computeMeasurements c')
  let v ← mergeAllDet ms
  let first ← v.head?
  if v.all fun g => g.items.length == first.items.length then some (v.map fun g => g.items.map toCell) else none

/-- The conversion of a float to an `int32` field. -/
def trunc (q : ℚ) : ℤ := q.num.tdiv q.den

/-- The breakdowns in the order of the loops, detection_metrics_ops.cc:519-531. -/
def breakdowns (c : Config O) : Option (List Measure.Breakdown) :=
  (c.generators.zipIdx.mapM fun g : (Nat × Gen O) × Nat => do
    let levels ← (c.levels[g.2]?).map fun l : List Nat => if l.isEmpty then [2] else l
    pure ((List.range g.1.2.numShards).flatMap fun s => levels.map fun l => (⟨g.1.1, s, l⟩ : Measure.Breakdown))).map List.flatten

/-- The measurements of a state, detection_metrics_ops.cc:517-547. -/
def ofState (c : Config O) (state : List (List Cell)) : Option (List (Measure.Group (Det (Detection.Details Unit)))) := do
  let bs ← breakdowns c
  bs.zipIdx.mapM fun b => do
    let items ← c.cutoffs.zipIdx.mapM fun k => do
      let row ← state[b.2]?
      let x ← row[k.2]?
      pure ({ fps := trunc x.1, tps := trunc x.2.1, fns := trunc x.2.2.1, ha := x.2.2.2.1, la := x.2.2.2.2,
              cutoff := some k.1 } : Det (Detection.Details Unit))
    pure ⟨b.1, items⟩

/-- `DetectionMetricsResultOp::ComputeImpl`, detection_metrics_ops.cc:513-553. -/
def resultOp (c : OpConfig O) (state : List (List Cell)) : Option Output := do
  let m ← ofState c.base state
  let r ← metricsWith c.minPrecision c.delta [m]
  createOutput c.base.cutoffs.length r

/-! ## The evaluators in Python -/

/-- `tf.concat` of prediction tensors along the rows. -/
def PdTensors.append (a b : PdTensors) : PdTensors :=
  ⟨a.dof, a.bbox ++ b.bbox, a.type ++ b.type, a.score ++ b.score, a.frame ++ b.frame, a.nlz ++ b.nlz⟩

/-- `tf.concat` of ground truth tensors along the rows. -/
def GtTensors.append (a b : GtTensors) : GtTensors :=
  ⟨a.dof, a.bbox ++ b.bbox, a.type ++ b.type, a.frame ++ b.frame, a.difficulty ++ b.difficulty, a.speed ++ b.speed⟩

/-- The variables of `get_detection_metric_ops`, detection_metrics.py:24-54 and 136-160: empty at first. -/
def PdTensors.empty (dof : Nat) : PdTensors := ⟨dof, [], [], [], [], []⟩

/-- See `PdTensors.empty`. -/
def GtTensors.empty (dof : Nat) : GtTensors := ⟨dof, [], [], [], [], []⟩

/-- The variables after running the update operation on each batch in turn, detection_metrics.py:50-53. -/
def accumulate (dof : Nat) (batches : List (PdTensors × GtTensors)) : PdTensors × GtTensors :=
  batches.foldl (fun s b => (s.1.append b.1, s.2.append b.2)) (PdTensors.empty dof, GtTensors.empty dof)

/-- `Recall@p`, detection_metrics.py:180-186: the largest recall of the operating points whose precision is above
`p`, zero for the others. -/
def recallAt (p : ℚ) (pr : List (ℚ × ℚ)) : Option ℚ :=
  ((pr.map fun e => if e.1 > p then e.2 else 0).max?)

/-- The ground truth tensors of a batch of `WODDetectionEvaluator.update_state`; the speeds are optional. -/
structure GtBatch where
  dof : Nat
  bbox : List (List ℚ)
  type : List Nat
  frame : List ℤ
  difficulty : List Nat
  speed : Option (List (ℚ × ℚ))

/-- A batch of `WODDetectionEvaluator.update_state`: `none` is a dictionary that misses a required key. -/
structure Update where
  pd : Option PdTensors
  gt : Option GtBatch

/-- The calls of an evaluator, wod_detection_evaluator.py:80-199. -/
inductive Call where
  | update (u : Update)
  | evaluate
  | result
  | reset

/-- The state of an evaluator: the batches of predictions and of ground truths. -/
structure Evaluator where
  pds : List PdTensors := []
  gts : List GtBatch := []

/-- What a call returns: `error` is a `ValueError` or a `KeyError`, `value` the tensors passed to the operation. -/
inductive Reply where
  | none
  | error
  | value (pd : PdTensors) (gt : GtTensors)

/-- `tf.concat` of the batches of predictions; a `KeyError` if there is none, wod_detection_evaluator.py:108-115. -/
def concatPd : List PdTensors → Option PdTensors
  | [] => none
  | t :: ts => some (ts.foldl PdTensors.append t)

/-- `tf.concat` of the batches of ground truths, wod_detection_evaluator.py:116-127.  Only the batches with speeds
contribute to the speeds; without any the wrapper passes zeros (py_metrics_ops.py:34-36). -/
def concatGt : List GtBatch → Option GtTensors
  | [] => none
  | t :: ts =>
    let l := t :: ts
    let bbox := l.flatMap GtBatch.bbox
    let speeds := l.filterMap GtBatch.speed
    some ⟨t.dof, bbox, l.flatMap GtBatch.type, l.flatMap GtBatch.frame, l.flatMap GtBatch.difficulty,
      if speeds.isEmpty then List.replicate bbox.length (0, 0) else speeds.flatten⟩

/-- `evaluate`, wod_detection_evaluator.py:95-130. -/
def Evaluator.evaluate (s : Evaluator) : Reply :=
  match concatPd s.pds, concatGt s.gts with
  | some p, some g => .value p g
  | _, _ => .error

/-- A call of an evaluator.  `update_state` (179-199) appends the predictions before it looks at the ground truths;
`result` (88-93) evaluates and then resets, and does not reset if the evaluation raises. -/
def Evaluator.call (s : Evaluator) : Call → Evaluator × Reply
  | .update u =>
    match u.pd with
    | none => (s, .error)
    | some p =>
      match u.gt with
      | none => ({ s with pds := s.pds ++ [p] }, .error)
      | some g => (⟨s.pds ++ [p], s.gts ++ [g]⟩, .none)
  | .evaluate => (s, s.evaluate)
  | .result =>
    match s.evaluate with
    | .error => (s, .error)
    | r => ({}, r)
  | .reset => ({}, .none)

/-- A history of calls, with the replies. -/
def Evaluator.run (s : Evaluator) : List Call → Evaluator × List Reply
  | [] => (s, [])
  | c :: cs =>
    let r := s.call c
    let q := r.1.run cs
    (q.1, r.2 :: q.2)

end Verif.Ops
