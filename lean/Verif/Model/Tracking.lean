import Verif.Model.Curve
import Verif.Model.Mot

/-!
Model of the tracking evaluation of a scene: metrics/tracking_metrics.cc:33-91 and 193-290, with
`EstimateObjectSpeed` and `HasVelocityBreakdown` of metrics/metrics_utils.cc:304-374.

`none` is a failed `CHECK` or an access outside a vector.  The matcher of a frame is its `CanMatch`, `IoU` and
`Match`; they do not read speeds, so they are the same before and after speeds are estimated.  `O` is what a
breakdown generator reads of an object and `ι` the type of object ids.
-/

namespace Verif.Tracking

open Verif.Breakdown Verif.Detection

/-- The parts of `Object` that the tracking evaluation reads. -/
structure Item (O ι : Type) where
  core : O
  id : ι
  score : ℚ := 0
  /-- `overlap_with_nlz` -/
  nlz : Bool := false
  /-- `tracking_difficulty_level` -/
  level : Nat := 0

/-- A frame with its matcher. -/
structure Frame (O ι : Type) where
  preds : List (Item O ι)
  gts : List (Item O ι)
  canMatch : Nat → Nat → Option Bool
  iou : Nat → Nat → Option ℚ
  /-- `Match` with the given prediction and ground-truth subsets. -/
  doMatch : List Nat → List Nat → Option (List (Option Nat) × List (Option Nat))

/-- How objects carry their centre and speed: `speed` is `none` if it is not set. -/
structure Motion (O : Type) where
  center : O → ℚ × ℚ × ℚ
  speed : O → Option (ℚ × ℚ)
  setSpeed : ℚ × ℚ → O → O

variable {O ι : Type}

/-! ### Speeds of predictions -/

/-- One round of `Argmin`, metrics_utils.cc:310-314: the index and the value of the least number so far. -/
def argminStep (best : Nat × ℚ) (e : ℚ × Nat) : Nat × ℚ := if e.1 < best.2 then (e.2, e.1) else best

/-- `Argmin`, metrics_utils.cc:307-316. -/
def argmin : List ℚ → Option Nat
  | [] => none
  | a :: l => some ((l.zipIdx 1).foldl argminStep (0, a)).1

/-- The distance of two centres, metrics_utils.cc:325-330, squared: the square root does not change which is
least. -/
def distance2 (a b : ℚ × ℚ × ℚ) : ℚ :=
  (a.1 - b.1) * (a.1 - b.1) + (a.2.1 - b.2.1) * (a.2.1 - b.2.1) + (a.2.2 - b.2.2) * (a.2.2 - b.2.2)

/-- `EstimateObjectSpeed` of a frame, metrics_utils.cc:321-354. -/
def estimateSpeed (M : Motion O) (pds gts : List (Item O ι)) : Option (List (Item O ι)) :=
  if gts.isEmpty then some (pds.map fun p => { p with core := M.setSpeed (0, 0) p.core })
  else pds.mapM fun p => do
    let j ← argmin (gts.map fun g => distance2 (M.center p.core) (M.center g.core))
    let g ← gts[j]?
    pure { p with core := M.setSpeed ((M.speed g.core).getD (0, 0)) p.core }

/-- `HasVelocityBreakdown`, metrics_utils.cc:367-374; `VELOCITY` is 7 in breakdown.proto. -/
def hasVelocity (c : Config O) : Bool := c.generators.any fun g => g.1 == 7

/-- `need_to_estimate_speed`, tracking_metrics.cc:205-207: looks at the first prediction of the first frame. -/
def needSpeed (M : Motion O) (c : Config O) (xs : List (Frame O ι)) : Bool :=
  hasVelocity c && match xs with
    | [] => false
    | x :: _ => match x.preds with
      | [] => false
      | p :: _ => (M.speed p.core).isNone

/-- The frames that are evaluated, tracking_metrics.cc:205-216, with metrics_utils.cc:356-365. -/
def prepared (M : Motion O) (c : Config O) (xs : List (Frame O ι)) : Option (List (Frame O ι)) :=
  if needSpeed M c xs then
    xs.mapM fun x => (estimateSpeed M x.preds x.gts).map fun ps => { x with preds := ps }
  else some xs

/-! ### Measurements -/

/-- The matcher of a frame after `SetPredictionSubset` and `SetGroundTruthSubset`, as `MOT::Eval` reads it. -/
def Frame.input (x : Frame O ι) (ps gs : List Nat) : Mot.Input ι :=
  ⟨x.preds.map fun p => ⟨p.id, p.nlz⟩, x.gts.map fun g => ⟨g.id, g.level⟩, ps, gs, x.canMatch, x.iou, x.doMatch⟩

/-- A tracking measurement with its details. -/
abbrev Out (ι : Type) := Measure.Trk × List (Mot.Details ι)

/-- `mot.measurement()` with its cutoff, tracking_metrics.cc:85-87. -/
def toOut (m : Mot.Measurement ι) (cutoff : ℚ) : Out ι :=
  (⟨m.misses, m.fps, m.mismatches, m.cost, m.matches_, m.objectsGt, cutoff⟩, m.details)

/-- The order in which a hash container is iterated, for a shard, cutoff, level and frame. -/
abbrev Orders := Nat → Nat → Nat → Nat → Mot.HashOrder

/-- The inputs of `MOT` for a shard and a cutoff, tracking_metrics.cc:75-81: `subs` are the subsets of predictions
and ground truths of each frame and breakdown shard. -/
def inputs (xs : List (Frame O ι)) (subs : List (List Subset × List Subset)) (i k : Nat) :
    Option (List (Mot.Input ι)) :=
  (xs.zip subs).mapM fun e => do
    let p ← e.2.1[i]?
    let ps ← p.indices[k]?
    let g ← e.2.2[i]?
    let gs ← g.indices[0]?
    pure (e.1.input ps gs)

variable [DecidableEq ι]

/-- The measurement of one shard, cutoff and level, tracking_metrics.cc:74-87: a fresh `MOT` over all frames. -/
def measureOne (c : Config O) (H : Orders) (xs : List (Frame O ι)) (subs : List (List Subset × List Subset))
    (i : Nat) (e : ℚ × Nat) (l : Nat × Nat) : Option (Out ι) := do
  let ins ← inputs xs subs i e.2
  let s ← Mot.run l.1 c.details (ins.zipIdx.map fun f => (H i e.2 l.2 f.2, f.1)) {}
  pure (toOut s.meas e.1)

/-- `ComputeTrackingMeasurementPerBreakdownShard`, tracking_metrics.cc:42-91: one group per level, one measurement
per cutoff. -/
def perShard (c : Config O) (H : Orders) (xs : List (Frame O ι)) (subs : List (List Subset × List Subset)) (i : Nat) :
    Option (List (Measure.Group (Out ι))) :=
  match subs with
  | [] => some []
  | first :: _ => do
    let pd ← first.1[i]?
    let g ← c.generators[pd.generatorIndex]?
    let levels ← (c.levels[pd.generatorIndex]?).map fun l => if l.isEmpty then [2] else l
    let columns ← c.cutoffs.zipIdx.mapM fun e : ℚ × Nat => levels.zipIdx.mapM (measureOne c H xs subs i e)
    levels.zipIdx.mapM fun l : Nat × Nat => do
      let row ← columns.mapM fun col => col[l.2]?
      pure ⟨⟨g.1, pd.shard, l.1⟩, row⟩

/-- A generator looks at the object of an item, breakdown_generator.h. -/
def onItems (g : Gen O) : Gen (Item O ι) := ⟨g.numShards, fun p => g.shard p.core, fun p => g.matching p.core, g.gtOnly⟩

/-- The subsets of a frame, tracking_metrics.cc:223-228. -/
def subsetsOf (c : Config O) (x : Frame O ι) : Option (List Subset × List Subset) := do
  let gens := c.generators.map Prod.snd
  let pds ← buildSubsets (gens.map onItems) c.cutoffs Item.score x.preds false false
  let gts ← buildSubsets (gens.map onItems) c.cutoffs Item.score x.gts true false
  pure (pds, gts)

/-- `num_breakdown_shards`, tracking_metrics.cc:222 and 230-232, as the number of rounds of the loop at 240. -/
def numShardsOf (subs : List (List Subset × List Subset)) : Nat :=
  match subs with
  | [] => 0
  | s :: _ => s.1.length

/-- `ComputeTrackingMeasurements`, tracking_metrics.cc:193-249.  A frame holds its predictions and its ground truths,
so there are as many frames of each (199). -/
def computeMeasurements (M : Motion O) (c : Config O) (H : Orders) (xs : List (Frame O ι)) :
    Option (List (Measure.Group (Out ι))) := do
  let xs ← prepared M c xs
  let subs ← xs.mapM (subsetsOf c)
  let n := numShardsOf subs
  if subs.all fun s => s.1.length == n && s.2.length == n then
    let per ← (List.range n).mapM (perShard c H xs subs)
    pure per.flatten
  else none

/-! ### Metrics -/

/-- Measurements without details: merging drops them, tracking_metrics.cc:94-109. -/
def strip (g : Measure.Group (Out ι)) : Measure.Group Measure.Trk := ⟨g.breakdown, g.items.map Prod.fst⟩

/-- `ComputeTrackingMetrics(config, measurements)`, tracking_metrics.cc:251-266: the metrics of each breakdown. -/
def metricsOf (fs : List (List (Measure.Group (Out ι)))) : Option (List (Measure.Breakdown × Measure.TrkMetrics)) :=
  (Measure.mergeAllTrk (fs.map fun f => f.map strip)).map fun v =>
    v.map fun g => (g.breakdown, Measure.toTrkMetrics g.items)

/-- The cutoffs of the configuration, estimated if it has none, tracking_metrics.cc:273-275 and 292-320. -/
def usedCutoffs (c : Config O) (desired : Nat) (scenes : List (List (Frame O ι))) : Option (List ℚ) :=
  if c.cutoffs.isEmpty then
    Curve.estimateTracking desired (scenes.map fun xs => xs.map fun x => x.preds.map Item.score)
  else some c.cutoffs

/-- `ComputeTrackingMetrics(config, pds, gts)`, tracking_metrics.cc:268-290: merging each scene as it is computed is
merging them all afterwards.  `H` are the iteration orders of each scene. -/
def computeMetrics (M : Motion O) (c : Config O) (desired : Nat) (H : Nat → Orders) (scenes : List (List (Frame O ι))) :
    Option (List (Measure.Breakdown × Measure.TrkMetrics)) := do
  let cutoffs ← usedCutoffs c desired scenes
  let fs ← scenes.zipIdx.mapM fun e => computeMeasurements M { c with cutoffs := cutoffs } (H e.2) e.1
  metricsOf fs

end Verif.Tracking
