import Mathlib.Data.Rat.Defs
import Mathlib.Algebra.Order.Field.Rat
import Mathlib.Tactic.NormNum

/-!
Model of metrics/segmentation_metrics.{h,cc}: the mean intersection over union of 3D semantic segmentation.

Floats are rational numbers.  The confusion matrix is a function of two indices; its entries, `int` in the code, are
unbounded, but the narrowing of the merged 64 bit counts to `int` (segmentation_metrics.cc:128-129) is modelled.
`none` is a failed `CHECK`.
-/

namespace Verif.Segmentation

/-- `SegmentationMetricsIOU`: the types to evaluate and the confusion matrix (rows: ground truth), index
`types.length` standing for all other types.  `segmentation_type_mapper_` maps a type to its position in the list. -/
structure Iou where
  types : List Nat
  confusion : Nat → Nat → Int

/-- `SegmentationMeasurements`, segmentation_metrics.proto:40-48. -/
structure Measurements where
  intersections : List Int
  unions : List Int
  deriving DecidableEq

/-- `SegmentationMetrics`, segmentation_metrics.proto:50-55.  `miou` is `none` for NaN. -/
structure Metrics where
  perClass : List (Nat × ℚ)
  miou : Option ℚ
  measurements : Measurements
  deriving DecidableEq

/-- The constructor, segmentation_metrics.cc:31-49: duplicate types are a failed check. -/
def new (types : List Nat) : Option Iou :=
  if types.Nodup then some ⟨types, fun _ _ => 0⟩ else none

/-- The row or column of a type, segmentation_metrics.cc:61-68. -/
def index (types : List Nat) (t : Nat) : Nat := types.idxOf t

/-- `++confusion_matrix_[gt_idx][pd_idx]`, segmentation_metrics.cc:69. -/
def bump (m : Nat → Nat → Int) (g p : Nat) : Nat → Nat → Int :=
  fun i j => if i = g ∧ j = p then m i j + 1 else m i j

/-- `Update`, segmentation_metrics.cc:51-72; `none` is the status InvalidArgument, which leaves the object unchanged. -/
def update (s : Iou) (prediction groundTruth : List Nat) : Option Iou :=
  if prediction.length ≠ groundTruth.length then none
  else some ⟨s.types, (prediction.zip groundTruth).foldl
    (fun m e => bump m (index s.types e.2) (index s.types e.1)) s.confusion⟩

/-- `Reset`, segmentation_metrics.cc:74-80. -/
def reset (s : Iou) : Iou :=
  ⟨s.types, fun i j => if i < s.types.length + 1 ∧ j < s.types.length + 1 then 0 else s.confusion i j⟩

/-- The IoU of one class, segmentation_metrics.cc:84, 95-97 and 126, 130-132. -/
def ratio (inter union : Int) : ℚ := if union > 0 then inter / union else 1

/-- The mean, segmentation_metrics.cc:104-109 and 139-144: NaN without classes. -/
def mean (ious : List ℚ) : Option ℚ := if ious.length = 0 then none else some (ious.foldl (· + ·) 0 / ious.length)

/-- The number of points in the union of a class, segmentation_metrics.cc:87-94. -/
def unionOf (s : Iou) (i : Nat) : Int :=
  (List.range s.types.length).foldl (fun u j => u + s.confusion i j + s.confusion j i) (-(s.confusion i i))
    + s.confusion i s.types.length

/-- The results from counts per class. -/
def results (types : List Nat) (inters unions : List Int) : Metrics :=
  ⟨types.zip (inters.zipWith ratio unions), mean (inters.zipWith ratio unions), ⟨inters, unions⟩⟩

/-- `ComputeIOU`, segmentation_metrics.cc:82-111. -/
def computeIOU (s : Iou) : Metrics :=
  results s.types ((List.range s.types.length).map (fun i => s.confusion i i))
    ((List.range s.types.length).map (unionOf s))

/-- Conversion of `int64_t` to `int`: modulo 2³². -/
def toInt32 (n : Int) : Int := Int.bmod n 4294967296

/-- The accumulation loop, segmentation_metrics.cc:116-125. -/
def accumulate (n : Nat) (rs : List Measurements) : Option Measurements :=
  rs.foldlM (fun (acc : Measurements) r =>
    if r.unions.length = n ∧ r.intersections.length = n then
      some ⟨acc.intersections.zipWith (· + ·) r.intersections, acc.unions.zipWith (· + ·) r.unions⟩
    else none) ⟨List.replicate n 0, List.replicate n 0⟩

/-- `MergeResults`, segmentation_metrics.cc:113-146. -/
def mergeResults (s : Iou) (rs : List Measurements) : Option Metrics :=
  (accumulate s.types.length rs).map (fun acc =>
    results s.types (acc.intersections.map toInt32) (acc.unions.map toInt32))

end Verif.Segmentation
