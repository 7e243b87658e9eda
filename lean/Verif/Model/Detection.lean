import Verif.Model.Breakdown
import Verif.Model.Measure

/-!
Model of the detection evaluation of a frame: metrics/detection_metrics.cc:40-192 and 355-396, with `IsTP`, `IsFP`,
`IsDetectionFN`, `FindGTWithLargestIoU` and `IsInBreakdown` of metrics/metrics_utils.cc.

`none` is a failed `CHECK` or an access outside a vector.  The matcher is its `Match`, `IoU` and
`LongitudinalAffinity`; heading accuracies are a function of the pair.  `O` is what a breakdown generator reads of an
object and `ι` the type of object ids.
-/

namespace Verif.Detection

open Verif.Breakdown Verif.Measure

/-- The parts of `Object` that the detection evaluation reads. -/
structure Item (O ι : Type) where
  core : O
  id : ι
  score : ℚ := 0
  /-- `overlap_with_nlz` -/
  nlz : Bool := false
  /-- `detection_difficulty_level` -/
  level : Nat := 0

/-- `DetectionMeasurement::Details`, protos/metrics.proto:204-221. -/
structure Details (ι : Type) where
  fp : List ι := []
  fn : List ι := []
  tpGt : List ι := []
  tpPr : List ι := []
  tpIou : List ℚ := []
  tpHa : List ℚ := []
  tpLa : List ℚ := []
  deriving DecidableEq

/-- A frame with its matcher. -/
structure Frame (O ι : Type) where
  preds : List (Item O ι)
  gts : List (Item O ι)
  iou : Nat → Nat → Option ℚ
  /-- `LongitudinalAffinity` -/
  aff : Nat → Nat → Option ℚ
  /-- `ComputeHeadingAccuracy` -/
  ha : Nat → Nat → ℚ
  /-- `Match` with the given prediction and ground-truth subsets. -/
  doMatch : List Nat → List Nat → Option (List (Option Nat) × List (Option Nat))

/-- The parts of `Config` that the detection evaluation reads. -/
structure Config (O : Type) where
  /-- `breakdown_generator_ids` with the generators they create -/
  generators : List (Nat × Gen O)
  /-- `difficulties(i).levels` -/
  levels : List (List Nat)
  cutoffs : List ℚ
  minHeadingAccuracy : ℚ := -1
  letEnabled : Bool := false
  details : Bool := false

variable {O ι : Type}

/-- `is_in_breakdown`, detection_metrics.cc:56-60, with `IsInBreakdown`, metrics_utils.cc:393-397. -/
def inBreakdown (x : Frame O ι) (g : Gen O) (shard : Nat) (gtSubset : List Nat) (j : Nat) : Option Bool := do
  let b ← gtSubset[j]?
  let o ← x.gts[b]?
  let s ← g.shard o.core
  pure (decide (s = (shard : ℤ)))

/-- One round of `FindGTWithLargestIoU`, metrics_utils.cc:382-389. -/
def largestStep (x : Frame O ι) (a : Nat) (best : Option Nat × ℚ) (e : Nat × Nat) : Option (Option Nat × ℚ) := do
  let v ← x.iou a e.1
  if best.2 ≤ v then some (some e.2, v) else some best

/-- `FindGTWithLargestIoU`, metrics_utils.cc:376-391: a position in the ground-truth subset. -/
def largestIou (x : Frame O ι) (gtSubset : List Nat) (a : Nat) (threshold : ℚ) : Option (Option Nat) :=
  (gtSubset.zipIdx.foldlM (largestStep x a) (none, threshold)).map Prod.fst

/-- Whether a matched or missed ground truth counts for the shard, detection_metrics.cc:67-69 and 122-124. -/
def counted (x : Frame O ι) (g : Gen O) (shard : Nat) (gtSubset : List Nat) (j : Nat) : Option Bool :=
  if g.gtOnly then inBreakdown x g shard gtSubset j else some true

/-- Whether an unmatched prediction overlaps most with a ground truth of another shard,
detection_metrics.cc:97-109. -/
def elsewhere (x : Frame O ι) (g : Gen O) (shard : Nat) (gtSubset : List Nat) (a : Nat) : Option Bool :=
  if g.gtOnly then
    (largestIou x gtSubset a (1 / 100)).bind fun q => match q with
      | none => some false
      | some j => (inBreakdown x g shard gtSubset j).map fun b => !b
  else some false

/-- Longitudinal affinity of a true positive, detection_metrics.cc:77-80. -/
def affinity (c : Config O) (x : Frame O ι) (a b : Nat) : Option ℚ := if c.letEnabled then x.aff a b else some 1

/-- Running counters of `ComputeDetectionMeasurementFromMatchingResult`, detection_metrics.cc:44-55. -/
structure Acc (ι : Type) where
  tp : ℤ := 0
  fp : ℤ := 0
  fn : ℤ := 0
  ha : ℚ := 0
  la : ℚ := 0
  det : Details ι := {}

/-- The loop body for a prediction, detection_metrics.cc:61-117.  `e` is its match and its position. -/
def predStep (c : Config O) (x : Frame O ι) (g : Gen O) (shard : Nat) (pdSubset gtSubset : List Nat) (r : Acc ι)
    (e : Option Nat × Nat) : Option (Acc ι) := do
  let a ← pdSubset[e.2]?
  let p ← x.preds[a]?
  match e.1 with
  | some j =>
    let inside ← counted x g shard gtSubset j
    if inside then
      let b ← gtSubset[j]?
      let o ← x.gts[b]?
      if x.ha a b ≤ c.minHeadingAccuracy then some r
      else
        let la ← affinity c x a b
        let v ← x.iou a b
        some { r with
          tp := r.tp + 1, ha := r.ha + x.ha a b, la := r.la + la,
          det := { r.det with
            tpPr := r.det.tpPr ++ [p.id], tpGt := r.det.tpGt ++ [o.id], tpIou := r.det.tpIou ++ [v],
            tpHa := r.det.tpHa ++ [x.ha a b], tpLa := r.det.tpLa ++ [la] } }
    else some r
  | none =>
    if p.nlz then some r
    else do
      let other ← elsewhere x g shard gtSubset a
      if other then some r
      else some { r with fp := r.fp + 1, det := { r.det with fp := r.det.fp ++ [p.id] } }

/-- The loop body for a ground truth, detection_metrics.cc:118-132. -/
def gtStep (x : Frame O ι) (g : Gen O) (shard : Nat) (gtSubset : List Nat) (level : Nat) (r : Acc ι)
    (e : Option Nat × Nat) : Option (Acc ι) := do
  match e.1 with
  | some _ => some r
  | none =>
    let b ← gtSubset[e.2]?
    let o ← x.gts[b]?
    if o.level ≤ level then
      let inside ← counted x g shard gtSubset e.2
      if inside then some { r with fn := r.fn + 1, det := { r.det with fn := r.det.fn ++ [o.id] } }
      else some r
    else some r

/-- `ComputeDetectionMeasurementFromMatchingResult`, detection_metrics.cc:40-144, with the cutoff set at 186-187. -/
def measure (c : Config O) (x : Frame O ι) (g : Gen O) (shard : Nat) (pdSubset gtSubset : List Nat) (level : Nat)
    (cutoff : ℚ) (pm gm : List (Option Nat)) : Option (Det (Details ι)) := do
  let r ← pm.zipIdx.foldlM (predStep c x g shard pdSubset gtSubset) {}
  let r ← gm.zipIdx.foldlM (gtStep x g shard gtSubset level) r
  pure ⟨r.fp, r.tp, r.fn, r.ha, r.la, some cutoff, if c.details then [r.det] else []⟩

/-- `ComputeDetectionMeasurementsPerBreakdownShard`, detection_metrics.cc:150-192: one group per level, one
measurement per cutoff. -/
def perShard (c : Config O) (x : Frame O ι) (pd gt : Subset) : Option (List (Measure.Group (Det (Details ι)))) := do
  let gtSubset ← gt.indices[0]?
  let g ← c.generators[pd.generatorIndex]?
  let levels ← (c.levels[pd.generatorIndex]?).map fun l => if l.isEmpty then [2] else l
  let columns ← c.cutoffs.zipIdx.mapM fun e : ℚ × Nat => do
    let pdSubset ← pd.indices[e.2]?
    let (pm, gm) ← x.doMatch pdSubset gtSubset
    levels.mapM fun l => measure c x g.2 pd.shard pdSubset gtSubset l e.1 pm gm
  levels.zipIdx.mapM fun l : Nat × Nat => do
    let row ← columns.mapM fun col => col[l.2]?
    pure ⟨⟨g.1, pd.shard, l.1⟩, row⟩

/-- A generator looks at the object of an item, breakdown_generator.h. -/
def onItems (g : Gen O) : Gen (Item O ι) := ⟨g.numShards, fun p => g.shard p.core, fun p => g.matching p.core, g.gtOnly⟩

/-- `ComputeDetectionMeasurements`, detection_metrics.cc:355-396.  `EstimateObjectSpeed` (370-373) only changes the
speed of predictions, which no subset of a detection evaluation depends on; it is left out. -/
def computeMeasurements (c : Config O) (x : Frame O ι) : Option (List (Measure.Group (Det (Details ι)))) := do
  if c.cutoffs.isEmpty then none
  let gens := c.generators.map Prod.snd
  let pds ← buildSubsets (gens.map onItems) c.cutoffs Item.score x.preds false true
  let gts ← buildSubsets (gens.map onItems) c.cutoffs Item.score x.gts true true
  if pds.length ≠ gts.length then none
  let per ← (pds.zip gts).mapM fun e => perShard c x e.1 e.2
  pure per.flatten

end Verif.Detection
