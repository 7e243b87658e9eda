import Verif.Model.Matcher
import Verif.Model.Ops

/-!
Model of the TensorFlow operation that matches boxes: metrics/ops/matcher_ops.cc, and of metrics/python/matcher.py.

A tensor is its shape and its numbers in row-major order (a function of the position).  `none` stands for a failed `CHECK`,
a failed `OP_REQUIRES` or a read outside a vector.  Numbers are exact; the element type of the tensors is not modelled.
The IoU of each box type and the two functions of a longitudinal-error-tolerant configuration are parameters.
-/

namespace Verif.OpsMatch

open Verif.Matcher
open Verif.Ops (Box)

/-- A tensor of numbers. -/
structure Tensor where
  shape : List ℕ
  /-- `flat<float>()` -/
  data : ℕ → ℚ

/-- `MatcherProto::Type`, protos/metrics.proto. -/
inductive Kind where
  | unknown
  | hungarian
  | scoreFirst
  | hungarianTestOnly
  deriving DecidableEq

/-- The fields of `Config` that the operation reads; the box types are TYPE_UNKNOWN 0, TYPE_3D 1, TYPE_2D 2, TYPE_AA_2D 3.
`tolerant` is `none` if `let_metric_config` is not enabled, and the two functions derived from it otherwise. -/
structure Config where
  kind : Kind
  thresholds : List ℚ
  boxType : ℕ
  tolerant : Option ((Box → Box → ℚ) × (Box → Box → ℚ)) := none

/-- An extent is positive; a field that is not set is zero. -/
def positive (x : Option ℚ) : Bool := decide (0 < x.getD 0)

/-- `IsValidBox`, matcher_ops.cc:44-56. -/
def isValidBox (b : Box) (boxType : ℕ) : Option Bool :=
  if boxType = 1 then some (positive b.width && positive b.length && positive b.height)
  else if boxType = 2 ∨ boxType = 3 then some (positive b.width && positive b.length)
  else none

/-- `ParseBoxTensor`, matcher_ops.cc:58-90: `row` is the slice of a box.  The type is TYPE_VEHICLE, the score 1. -/
def parseBoxTensor (n : ℕ) (row : ℕ → ℚ) : Option (Obj Box) :=
  if n = 7 then
    some ⟨1, ⟨some (row 0), some (row 1), some (row 2 + row 5 / 2), some (row 3), some (row 4), some (row 5), some (row 6)⟩, 1⟩
  else if n = 5 then
    some ⟨1, { cx := some (row 0), cy := some (row 1), length := some (row 2), width := some (row 3),
               heading := some (row 4) }, 1⟩
  else if n = 4 then
    some ⟨1, { cx := some (row 0), cy := some (row 1), length := some (row 2), width := some (row 3) }, 1⟩
  else none

/-- `ParseBoxesTensor`, matcher_ops.cc:141-157, with `SubSlice` on the shape `[batch, boxes, n]`. -/
def parseBoxesTensor (batch boxes n : ℕ) (data : ℕ → ℚ) : Option (List (List (Obj Box))) :=
  (List.range batch).mapM fun b =>
    (List.range boxes).mapM fun i => parseBoxTensor n fun c => data ((b * boxes + i) * n + c)

/-- `struct MatchResult`, matcher_ops.cc:92-97. -/
structure MatchResult where
  prediction : ℕ
  truth : ℕ
  iou : ℚ
  affinity : ℚ
  deriving DecidableEq

/-- `Matcher::Create(config)`, matcher.h:87-95 and matcher.cc:35-89: five thresholds and a known type are required. -/
def create (iouOf : ℕ → Box → Box → ℚ) (c : Config) : Option (Matcher Box) :=
  if c.thresholds.length = 5 then
    if c.kind = .unknown then none
    else
      match c.tolerant with
      | none => some { frame := { thresholds := c.thresholds, defaultIou := iouOf c.boxType } }
      | some (iou, aff) =>
        some { frame := { thresholds := c.thresholds, defaultIou := iouOf c.boxType, customIou := some iou,
                          customAff := some aff, letFns := true } }
  else none

/-- The positions of the valid boxes, matcher_ops.cc:107-121. -/
def validIndex (boxType : ℕ) (l : List (Obj Box)) : Option (List ℕ) :=
  l.zipIdx.foldlM (fun (acc : List ℕ) (x : Obj Box × ℕ) => do
    if ← isValidBox x.1.box boxType then return acc ++ [x.2] else return acc) []

/-- `matcher->Match(&prediction_index, nullptr)`, matcher_ops.cc:124.  `ScoreFirstMatcher::Match` starts with
`CHECK(ground_truth_matches)` (matcher.cc:255).  `TEST_HungarianMatcher` reads its empty table of IoUs as soon as there is a
pair (matcher.h:318-320). -/
def matchPredictions (kind : Kind) : StateT (Matcher Box) Option (List (Option ℕ)) := do
  let s ← get
  match kind with
  | .unknown => failure
  | .hungarian => do
    let r ← hungarianMatch (cachedPrims Box) s.frame
    return r.1
  | .scoreFirst => failure
  | .hungarianTestOnly =>
    if s.frame.predSubset.length = 0 ∨ s.frame.gtSubset.length = 0 then
      return List.replicate s.frame.predSubset.length none
    else failure

/-- One round of the loop over the matches, matcher_ops.cc:127-138. -/
def reportMatch (ps gs : List ℕ) (out : List MatchResult) (x : Option ℕ × ℕ) :
    StateT (Matcher Box) Option (List MatchResult) :=
  match x.1 with
  | none => return out
  | some j =>
    match ps[x.2]?, gs[j]? with
    | some p, some g => do
      let v ← iouCached p g
      let a ← affCached p g
      return out ++ [⟨p, g, v, a⟩]
    | _, _ => failure

/-- `MatchBoxes`, matcher_ops.cc:99-139. -/
def matchBoxes (iouOf : ℕ → Box → Box → ℚ) (c : Config) (preds gts : List (Obj Box)) : Option (List MatchResult) := do
  let m ← create iouOf c
  let ps ← validIndex c.boxType preds
  let gs ← validIndex c.boxType gts
  let m := ((m.setPredictions preds).setGroundTruths gts).setPredictionSubset ps |>.setGroundTruthSubset gs
  let (index, m) ← matchPredictions c.kind m
  if ps.length = index.length then
    let (out, _) ← (index.zipIdx.foldlM (reportMatch ps gs) []) m
    return out
  else none

/-- The combinations of box type and size of a box, matcher_ops.cc:187-199. -/
def dimensionFits (boxType d : ℕ) : Bool :=
  (boxType == 3 && d == 4) || (boxType == 2 && (d == 5 || d == 7)) || (boxType == 1 && d == 7)

/-- `OpenDatasetMatcherOp::Compute`, matcher_ops.cc:170-250: one list stands for the four outputs. -/
def matchOp (iouOf : ℕ → Box → Box → ℚ) (c : Config) (pred gt : Tensor) : Option (List MatchResult) :=
  match pred.shape, gt.shape with
  | [b, n, d], [b', m, d'] =>
    if d = d' ∧ b' = b ∧ dimensionFits c.boxType d then do
      let pd ← parseBoxesTensor b n d pred.data
      let gd ← parseBoxesTensor b m d gt.data
      let all ← (pd.zip gd).mapM fun (x : List (Obj Box) × List (Obj Box)) => matchBoxes iouOf c x.1 x.2
      return all.zipIdx.flatMap fun (x : List MatchResult × ℕ) =>
        x.1.map fun (r : MatchResult) => { r with prediction := r.prediction + x.2 * n, truth := r.truth + x.2 * m }
    else none
  | _, _ => none

/-- `_create_config`, python/matcher.py:104-119. -/
def pyConfig (iou : ℚ) (boxType : ℕ) (kind : Kind) (tolerant : Option ((Box → Box → ℚ) × (Box → Box → ℚ))) : Config :=
  ⟨kind, [0, iou, iou, iou, iou], boxType, tolerant⟩

/-- `tf.expand_dims(x, 0)` for tensors of rank two, python/matcher.py:84-87. -/
def batched (t : Tensor) : Tensor := if t.shape.length = 2 then { t with shape := 1 :: t.shape } else t

/-- `match`, python/matcher.py:54-101; the assertion on the shapes asks for rank three and equal first and last sizes. -/
def pyMatch (iouOf : ℕ → Box → Box → ℚ) (pred gt : Tensor) (iou : ℚ) (boxType : ℕ) (kind : Kind)
    (tolerant : Option ((Box → Box → ℚ) × (Box → Box → ℚ))) : Option (List MatchResult) :=
  let p := batched pred
  let g := batched gt
  match p.shape, g.shape with
  | [b, _, d], [b', _, d'] =>
    if b' = b ∧ d' = d then matchOp iouOf (pyConfig iou boxType kind tolerant) p g else none
  | _, _ => none

end Verif.OpsMatch
