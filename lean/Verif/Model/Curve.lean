import Verif.Model.Detection
import Mathlib.Algebra.Order.Floor.Semiring
import Mathlib.Data.Rat.Floor
import Mathlib.Data.List.Sort

/-!
Model of score cutoffs, precision/recall curves and average precision: metrics/metrics_utils.cc:190-302,
`ToDetectionMetrics`, `ComputeDetectionMetrics` and `EstimateScoreCutoffs` of metrics/detection_metrics.cc:258-479
and `EstimateScoreCutoffs` of metrics/tracking_metrics.cc:292-320.  Floats are exact rationals; `none` is a failed
`CHECK` or an access outside a vector.
-/

namespace Verif.Curve

open Verif.Measure Verif.Detection

/-! ### Score cutoffs -/

/-- The loop of `Sequence`, metrics_utils.cc:196-199; `fuel` bounds the number of rounds. -/
def sequenceLoop (stop delta : ℚ) : Nat → ℚ → List ℚ
  | 0, _ => []
  | n + 1, start => if start < stop then start :: sequenceLoop stop delta n (start + delta) else []

/-- `Sequence`, metrics_utils.cc:194-206. -/
def sequence (start stop delta : ℚ) : List ℚ :=
  let ret := sequenceLoop stop delta ⌈(stop - start) / delta⌉₊ start
  match ret.getLast? with
  | none => ret
  | some last => if delta * (1 / 2) < stop - last then ret ++ [stop] else ret

/-- The bucket sizes of `DecideScoreCutoffs`, metrics_utils.cc:222-229: `k` buckets for `remaining` scores. -/
def bucketSizes (remaining : Nat) : Nat → List Nat
  | 0 => []
  | k + 1 => remaining / (k + 1) :: bucketSizes (remaining - remaining / (k + 1)) k

/-- The loop of `DecideScoreCutoffs`, metrics_utils.cc:235-239. -/
def cutoffLoop (scores : List ℚ) : List Nat → Nat → Option (List ℚ)
  | [], _ => some []
  | b :: rest, last => do
    let s ← scores[last + b]?
    let l ← cutoffLoop scores rest (last + b)
    pure (max 0 (min 1 s) :: l)

/-- `DecideScoreCutoffs`, metrics_utils.cc:209-243. -/
def decideScoreCutoffs (scores : List ℚ) (n : Nat) : Option (List ℚ) :=
  if n = 0 then none
  else if n = 1 then some [0]
  else if scores.length ≤ n then some (sequence 0 1 (1 / ((n : ℚ) - 1)))
  else do
    let s0 ← scores[0]?
    let mid ← cutoffLoop scores ((bucketSizes scores.length (n - 1)).take (n - 2)) 0
    let cutoffs := s0 :: mid ++ [1]
    if cutoffs.length = n then some cutoffs else none

/-- The scores that `EstimateScoreCutoffs` for detection collects, detection_metrics.cc:463-471, sorted (472). -/
def detectionScores (pds : List (List ℚ)) : List ℚ := pds.flatten.insertionSort (· ≤ ·)

/-- `EstimateScoreCutoffs`, detection_metrics.cc:458-479, for frames given by their prediction scores; the result is
the list of cutoffs that is added to the configuration. -/
def estimateDetection (n : Nat) (pds : List (List ℚ)) : Option (List ℚ) := decideScoreCutoffs (detectionScores pds) n

/-- The collecting loops of `EstimateScoreCutoffs` for tracking, tracking_metrics.cc:303-311: the number of
predictions is read from `pds[frame_idx]`, which is a scene. -/
def trackingScores (pds : List (List (List ℚ))) : Option (List ℚ) := do
  let per ← pds.mapM fun scene => do
    let frames ← scene.zipIdx.mapM fun e : List ℚ × Nat => do
      let other ← pds[e.2]?
      (List.range other.length).mapM fun i => e.1[i]?
    pure frames.flatten
  pure per.flatten

/-- `EstimateScoreCutoffs`, tracking_metrics.cc:292-320, for a configuration without cutoffs: the cutoffs of the
returned configuration.  Without scenes the returned configuration is empty. -/
def estimateTracking (n : Nat) (pds : List (List (List ℚ))) : Option (List ℚ) :=
  if pds.length = 0 then some []
  else if n = 0 then none
  else do
    let s ← trackingScores pds
    decideScoreCutoffs (s.insertionSort (· ≤ ·)) n

/-! ### Average precision -/

/-- `recall_precision[r] = max(recall_precision[r], p)` on a `std::map` given by its entries in ascending order;
a new entry starts at `0.0`; metrics_utils.cc:257-258. -/
def insertMax (r p : ℚ) : List (ℚ × ℚ) → List (ℚ × ℚ)
  | [] => [(r, max 0 p)]
  | (k, v) :: t => if r < k then (r, max 0 p) :: (k, v) :: t else if r = k then (k, max v p) :: t
    else (k, v) :: insertMax r p t

/-- The map from recalls to precisions, metrics_utils.cc:253-259, for (precision, recall) pairs. -/
def recallPrecision (pts : List (ℚ × ℚ)) : List (ℚ × ℚ) := pts.foldl (fun m e => insertMax e.2 e.1 m) [(0, 1)]

/-- `kError`, metrics_utils.cc:277. -/
def kError : ℚ := 1 / 1000000

/-- The `while` loop that fills gaps, metrics_utils.cc:278-281; the result are the added (precision, recall) pairs.
`fuel` bounds the number of rounds. -/
def fill (delta p r : ℚ) : Nat → ℚ → List (ℚ × ℚ)
  | 0, _ => []
  | n + 1, last => if delta + kError < last - r then (p, last - delta) :: fill delta p r n (last - delta) else []

/-- The loop over the map from high recall to low recall, metrics_utils.cc:275-286; the arguments are
`last_recall`, `max_precision` and the remaining entries. -/
def curve (delta : ℚ) (last maxp : ℚ) : List (ℚ × ℚ) → List (ℚ × ℚ)
  | [] => []
  | e :: rest => fill delta maxp e.1 ⌈(last - e.1) / delta⌉₊ last ++
      (max e.2 maxp, e.1) :: curve delta e.1 (max e.2 maxp) rest

/-- Overriding the last entry, metrics_utils.cc:289-292. -/
def overrideLast : List (ℚ × ℚ) → List (ℚ × ℚ)
  | [] => []
  | [a] => [a]
  | [a, b] => [a, (a.1, b.2)]
  | a :: b :: c :: t => a :: overrideLast (b :: c :: t)

/-- The integration, metrics_utils.cc:295-300. -/
def area : List (ℚ × ℚ) → ℚ
  | a :: b :: t => 1 / 2 * (a.2 - b.2) * (a.1 + b.1) + area (b :: t)
  | _ => 0

/-- `ComputeMeanAveragePrecision`, metrics_utils.cc:245-302. -/
def meanAveragePrecision (precisions recalls : List ℚ) (delta : ℚ) : Option ℚ :=
  if precisions.length ≠ recalls.length then none
  else if ¬0 < delta then none
  else if ¬delta ≤ 1 then none
  else if precisions.isEmpty then some 0
  else
    let m := recallPrecision (precisions.zip recalls)
    (m.head?).map fun first => area (overrideLast (curve delta first.1 0 m.reverse))

/-- One operating point of `DetectionMetrics`: recall, precision and the two weighted precisions. -/
structure Point where
  cutoff : ℚ
  recall : ℚ
  precision : ℚ
  precisionHa : ℚ
  precisionLa : ℚ
  deriving DecidableEq

/-- The loop body of `ToDetectionMetrics`, detection_metrics.cc:266-316.  The three recalls are equal. -/
def toPoint {δ : Type} (minPrecision : ℚ) (m : Det δ) : Point :=
  let s := m.tps + m.fps
  let cut (p : ℚ) : ℚ := if s ≤ 0 then 0 else if p < minPrecision then 0 else p
  let t := m.tps + m.fns
  let r : ℚ := if t ≤ 0 then 0 else m.tps / t
  let fix (p : ℚ) : ℚ := if r = 0 then 1 else p
  ⟨m.cutoff.getD 0, r, fix (cut (m.tps / s)), fix (cut (m.ha / s)), fix (cut (m.la / s))⟩

/-- `DetectionMetrics`, protos/metrics.proto:248-267, without the raw measurements. -/
structure DetMetrics where
  breakdown : Measure.Breakdown
  points : List Point
  map : ℚ
  mapHa : ℚ
  mapLa : ℚ
  deriving DecidableEq

/-- `ToDetectionMetrics`, detection_metrics.cc:258-352. -/
def toDetectionMetrics {δ : Type} (minPrecision delta : ℚ) (g : Measure.Group (Det δ)) : Option DetMetrics := do
  let pts := g.items.map (toPoint minPrecision)
  let rs := pts.map Point.recall
  let a ← meanAveragePrecision (pts.map Point.precision) rs delta
  let b ← meanAveragePrecision (pts.map Point.precisionHa) rs delta
  let c ← meanAveragePrecision (pts.map Point.precisionLa) rs delta
  pure ⟨g.breakdown, pts, a, b, c⟩

/-- `ComputeDetectionMetrics(config, measurements)`, detection_metrics.cc:428-444. -/
def metricsOfMeasurements {δ : Type} (minPrecision delta : ℚ) (fs : List (List (Measure.Group (Det δ)))) :
    Option (List DetMetrics) := do
  let m ← mergeAllDet fs
  m.mapM (toDetectionMetrics minPrecision delta)

/-- The cutoffs of a configuration, estimated if there are none, detection_metrics.cc:407-410. -/
def usedCutoffs {O ι : Type} (c : Config O) (desired : Nat) (xs : List (Frame O ι)) : Option (List ℚ) :=
  if c.cutoffs.isEmpty then estimateDetection desired (xs.map fun x => x.preds.map Item.score) else some c.cutoffs

/-- `ComputeDetectionMetrics(config, pds, gts)`, detection_metrics.cc:398-426, with the score cutoffs estimated if
the configuration has none. -/
def computeMetrics {O ι : Type} (c : Config O) (desired : Nat) (minPrecision delta : ℚ) (xs : List (Frame O ι)) :
    Option (List DetMetrics) := do
  let cutoffs ← usedCutoffs c desired xs
  let fs ← xs.mapM (computeMeasurements { c with cutoffs := cutoffs })
  metricsOfMeasurements minPrecision delta fs

end Verif.Curve
