import Verif.Model.OpsMatch

/-!
Model of `CppMatcher`, metrics/python/keypoint_metrics.py:1066-1092, 1271-1292 and 1626-1633 (paths relative to /repo/src/waymo_open_dataset): the boxes of
objects with key points are given to the operation of `Verif.OpsMatch`.

Numbers are exact, as there.  `none` is an exception or a failed check.
-/

namespace Verif.BoxMatcher

open Verif.OpsMatch
open Verif.Ops (Box)

/-- A row of `BoundingBoxTensors`, keypoint_data.py:424-452: center, size and heading. -/
structure Item where
  center : Fin 3 → ℚ
  size : Fin 3 → ℚ
  heading : ℚ

/-- `BoundingBoxTensors`: the headings of all boxes may be missing. -/
structure Items where
  rows : List Item
  headed : Bool

/-- Column `c` of a row of the concatenation, keypoint_metrics.py:1090-1092. -/
def column (b : Item) (c : ℕ) : ℚ :=
  match c with
  | 0 => b.center 0
  | 1 => b.center 1
  | 2 => b.center 2
  | 3 => b.size 0
  | 4 => b.size 1
  | 5 => b.size 2
  | _ => b.heading

/-- `_box_to_tensor`, keypoint_metrics.py:1090-1092: `tf.expand_dims` of missing headings raises. -/
def boxToTensor (b : Items) : Option Tensor :=
  if b.headed then some ⟨[b.rows.length, 7], fun k => column (b.rows.getD (k / 7) ⟨0, 0, 0⟩) (k % 7)⟩ else none

/-- `CppMatcher.matching_ids`, keypoint_metrics.py:1277-1292: pairs of the positions of ground truth and prediction. -/
def matchingIds (iouOf : ℕ → Box → Box → ℚ) (kind : Kind) (threshold : ℚ) (gt pr : Items) : Option (List (ℕ × ℕ)) := do
  let g ← boxToTensor gt
  let p ← boxToTensor pr
  let out ← pyMatch iouOf p g threshold 1 kind none
  pure (out.map fun r => (r.truth, r.prediction))

/-- A `MatcherConfig`: that of the C++ matcher, that of `MeanErrorMatcher`, or another. -/
inductive MatcherConfig where
  | cpp (kind : Kind) (threshold : ℚ)
  | meanError (distance : ℚ)
  | other

/-- A matcher. -/
inductive Matcher where
  | cpp (kind : Kind) (threshold : ℚ)
  | meanError (distance : ℚ)
  deriving DecidableEq

/-- `create_matcher`, keypoint_metrics.py:1626-1633. -/
def createMatcher : MatcherConfig → Option Matcher
  | .cpp k t => some (.cpp k t)
  | .meanError d => some (.meanError d)
  | .other => none

end Verif.BoxMatcher
