import Mathlib.Data.Rat.Defs
import Mathlib.Algebra.Order.Field.Rat

/-!
Model of wdl_limited/camera_segmentation/camera_segmentation_metrics.py.  The metric object is the class `STQuality` of
the library deeplab2, which is not in the repository: it is a parameter with the operations that the code calls.  Labels
are integers and weights exact rationals; arrays are given by their elements, and arrays of one frame have to have the
same size (the code would raise an error or broadcast).  `none` is an exception.
-/

namespace Verif.CamSeg

/-- The operations of `STQuality` that the code uses: a new object for the label divisor and the offset, `update_state`
with truth, prediction, sequence and weights, `reset_states`, `merge_state` and `result`. -/
structure Quality (S R : Type) where
  new : (divisor offset : ℤ) → S
  update : S → List ℤ → List ℤ → ℤ → List ℚ → S
  reset : S → S
  merge : S → List S → S
  result : S → R

/-- camera_segmentation_metrics.py:92-96 for a pixel: untracked instances become instance 0.  `//` rounds down. -/
def augment (divisor truth : ℤ) (tracked : Bool) : ℤ := if tracked then truth else truth.fdiv divisor * divisor

/-- camera_segmentation_metrics.py:97-99 for a pixel: the weight. -/
def weight (coverage : ℤ) : ℚ := 1 / max (coverage : ℚ) (1 / 100000000)

/-- The arrays of a frame. -/
structure Inputs where
  truth : List ℤ
  pred : List ℤ
  coverage : List ℤ
  tracked : List Bool

/-- Arrays of different sizes are an error. -/
def Inputs.ok (f : Inputs) : Bool :=
  decide (f.pred.length = f.truth.length) && decide (f.coverage.length = f.truth.length) &&
    decide (f.tracked.length = f.truth.length)

variable {S R : Type}

/-- The body of the loop, camera_segmentation_metrics.py:92-100. -/
def step (Q : Quality S R) (divisor sequence : ℤ) (s : S) (f : Inputs) : Option S :=
  if f.ok then
    some (Q.update s (f.truth.zipWith (augment divisor) f.tracked) f.pred sequence (f.coverage.map weight))
  else none

/-- `zip` of the four sequences, camera_segmentation_metrics.py:86-91: it ends with the shortest. -/
def frames (truths preds coverages : List (List ℤ)) (trackeds : List (List Bool)) : List Inputs :=
  (truths.zip (preds.zip (coverages.zip trackeds))).map fun p => ⟨p.1, p.2.1, p.2.2.1, p.2.2.2⟩

/-- `get_metric_object_by_sequence`, camera_segmentation_metrics.py:31-101. -/
def bySequence (Q : Quality S R) (divisor : ℤ) (truths preds coverages : List (List ℤ)) (trackeds : List (List Bool))
    (sequence offset : ℤ) : Option S :=
  if truths.length ≠ preds.length then none
  else if truths.length ≠ coverages.length then none
  else if truths.length ≠ trackeds.length then none
  else (frames truths preds coverages trackeds).foldlM (step Q divisor sequence) (Q.new divisor offset)

/-- `aggregate_metrics`, camera_segmentation_metrics.py:104-128. -/
def aggregate (Q : Quality S R) (objects : List S) : Option R :=
  match objects with
  | [] => none
  | s :: _ => some (Q.result (Q.merge (Q.reset s) objects))

end Verif.CamSeg
