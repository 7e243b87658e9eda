import Verif.Model.Mot
import Mathlib.Algebra.Field.Rat

/-!
Model of the measurement messages, of merging them, and of `ToTrackingMetrics`
(metrics/detection_metrics.cc:195-256 and 428-456, metrics/tracking_metrics.cc:94-190 and 248-264).
`none` is a failed `CHECK`.
-/

namespace Verif.Measure

/-- `Breakdown`, protos/breakdown.proto:62-69. -/
structure Breakdown where
  generator : Nat
  shard : Nat
  level : Nat
  deriving DecidableEq

/-- `DetectionMeasurement`, protos/metrics.proto:202-240.  `score_cutoff` is optional; `δ` is the type of
the entries of `details`. -/
structure Det (δ : Type) where
  fps : ℤ := 0
  tps : ℤ := 0
  fns : ℤ := 0
  ha : ℚ := 0
  la : ℚ := 0
  cutoff : Option ℚ := none
  details : List δ := []
  deriving DecidableEq

/-- `TrackingMeasurement`, protos/metrics.proto:269-301. -/
structure Trk where
  misses : ℤ := 0
  fps : ℤ := 0
  mismatches : ℤ := 0
  cost : ℚ := 0
  matches_ : ℤ := 0
  objects : ℤ := 0
  cutoff : ℚ := 0
  deriving DecidableEq

/-- `DetectionMeasurements` and `TrackingMeasurements`, protos/metrics.proto:242-246 and 303-307. -/
structure Group (M : Type) where
  breakdown : Breakdown
  items : List M
  deriving DecidableEq

/-- `MergeDetectionMeasurement`, detection_metrics.cc:195-220. -/
def mergeDet {δ : Type} (m1 m2 : Det δ) : Option (Det δ) :=
  match m1.cutoff, m2.cutoff with
  | none, _ => some m2
  | some _, none => some m1
  | some a, some b =>
    if a = b then
      some ⟨m1.fps + m2.fps, m1.tps + m2.tps, m1.fns + m2.fns, m1.ha + m2.ha, m1.la + m2.la, some a,
        if m1.details.length = 1 ∨ m2.details.length = 1 then m1.details ++ m2.details else []⟩
    else none

/-- `MergeTrackingMeasurement`, tracking_metrics.cc:94-110; details are not merged. -/
def mergeTrk (m1 m2 : Trk) : Option Trk :=
  if m1.cutoff = m2.cutoff then
    some ⟨m1.misses + m2.misses, m1.fps + m2.fps, m1.mismatches + m2.mismatches, m1.cost + m2.cost,
      m1.matches_ + m2.matches_, m1.objects + m2.objects, m1.cutoff⟩
  else none

/-- `zip` two lists of equal length with a merge that may fail. -/
def zipMerge {M : Type} (f : M → M → Option M) : List M → List M → Option (List M)
  | [], [] => some []
  | a :: l, b :: k =>
    match f a b, zipMerge f l k with
    | some c, some r => some (c :: r)
    | _, _ => none
  | _, _ => none

/-- `MergeDetectionMeasurements`, detection_metrics.cc:223-239, and `MergeTrackingMeasurements`,
tracking_metrics.cc:113-131. -/
def mergeGroup {M : Type} (f : M → M → Option M) (new m : Group M) : Option (Group M) :=
  if m.items.length = 0 then some new
  else if m.items.length ≠ new.items.length then none
  else if m.breakdown ≠ new.breakdown then none
  else (zipMerge f m.items new.items).map fun l => ⟨m.breakdown, l⟩

/-- `MergeDetectionMeasurementsVector`, detection_metrics.cc:242-256. -/
def mergeVecDet {δ : Type} (new m : List (Group (Det δ))) : Option (List (Group (Det δ))) :=
  if m.isEmpty then some new
  else zipMerge (fun m new => mergeGroup mergeDet new m) m new

/-- `MergeTrackingMeasurementsVector`, tracking_metrics.cc:134-148. -/
def mergeVecTrk (new m : List (Group Trk)) : Option (List (Group Trk)) :=
  if m.isEmpty then some new
  else if new.isEmpty then some m
  else zipMerge (fun m new => mergeGroup mergeTrk new m) m new

/-- `MergeDetectionMeasurements(config, measurements)`, detection_metrics.cc:446-456 (also the loop of
`ComputeDetectionMetrics`, 428-444). -/
def mergeAllDet {δ : Type} : List (List (Group (Det δ))) → Option (List (Group (Det δ)))
  | [] => some []
  | f :: fs => fs.foldlM (fun m new => mergeVecDet new m) f

/-- The loop of `ComputeTrackingMetrics`, tracking_metrics.cc:248-257. -/
def mergeAllTrk (fs : List (List (Group Trk))) : Option (List (Group Trk)) :=
  fs.foldlM (fun m new => mergeVecTrk new m) []

/-- `TrackingMetrics`, protos/metrics.proto:309-329, without the raw measurements; unset fields are 0. -/
structure TrkMetrics where
  mota : ℚ := 0
  motp : ℚ := 0
  miss : ℚ := 0
  mismatch : ℚ := 0
  fp : ℚ := 0
  cutoff : ℚ := 0
  objects : ℤ := 0
  deriving DecidableEq

/-- One round of the loop of `ToTrackingMetrics`, tracking_metrics.cc:165-188. -/
def trkMetricsStep (r : TrkMetrics) (m : Trk) : TrkMetrics :=
  if m.objects = 0 then r
  else
    let n : ℚ := m.objects
    let miss := m.misses / n
    let fp := m.fps / n
    let mismatch := m.mismatches / n
    let mota := 1 - (miss + fp + mismatch)
    if r.mota < mota then
      ⟨mota, if 0 < m.matches_ then m.cost / m.matches_ else 0, miss, mismatch, fp, m.cutoff, m.objects⟩
    else { r with objects := m.objects }

/-- `ToTrackingMetrics`, tracking_metrics.cc:152-190. -/
def toTrkMetrics (ms : List Trk) : TrkMetrics := ms.foldl trkMetricsStep {}

end Verif.Measure
