import Verif.Model.AABox
import Mathlib.Data.Real.Sqrt
import Mathlib.Analysis.SpecialFunctions.Trigonometric.Basic

/-!
Model of metrics/iou.cc: intersection over union of boxes and the longitudinal error tolerant (LET) variants.

Numbers are real numbers.  The area of the intersection of two rotated rectangles, computed by math/polygon2d.cc, is a
parameter `area` of the definitions that use it.  `none` is a failed `CHECK` or `LOG(FATAL)`.
-/

namespace Verif.Iou

noncomputable section

/-- `Label::Box`, label.proto:29-57. -/
structure Box where
  cx : ℝ
  cy : ℝ
  cz : ℝ
  length : ℝ
  width : ℝ
  height : ℝ
  heading : ℝ

/-- `Label::Box::Type`, label.proto:44-56. -/
inductive BoxType where
  | unknown
  | b3d
  | b2d
  | aa2d
  deriving DecidableEq

/-- iou.cc:35. -/
def kEpsilon : ℝ := 1 / 1000000

/-- iou.cc:37. -/
def kMinBoxDim : ℝ := 1 / 100

/-- iou.cc:38. -/
def kMaxBoxDim : ℝ := 1000000

/-- `Clamp`, iou.cc:41-44. -/
def clamp (v lo hi : ℝ) : ℝ := max lo (min v hi)

/-- `ToAABox2d`, iou.cc:73-76. -/
def Box.toAABox (b : Box) : AABox.Box ℝ := ⟨b.cx, b.cy, b.length * (1 / 2), b.width * (1 / 2)⟩

/-- The end of the three IoU functions, iou.cc:126-137, 154-165 and 194-205. -/
def ratio (inter union : ℝ) : Option ℝ :=
  if union ≤ kEpsilon then some 0
  else
    let iou := inter / union
    if iou < -kEpsilon ∨ iou > 1 + kEpsilon then none else some (max (min iou 1) 0)

/-- `ComputeIoU2d`, iou.cc:111-138. -/
def iou2d (area : Box → Box → ℝ) (b1 b2 : Box) : Option ℝ :=
  if b1.length ≤ kMinBoxDim ∨ b1.width ≤ kMinBoxDim ∨ b2.length ≤ kMinBoxDim ∨ b2.width ≤ kMinBoxDim then some 0
  else
    let inter := area b1 b2
    ratio inter (b1.length * b1.width + b2.length * b2.width - inter)

/-- `ComputeIoUAA2d`, iou.cc:140-166. -/
def iouAA2d (b1 b2 : Box) : Option ℝ :=
  if b1.length ≤ kMinBoxDim ∨ b1.width ≤ kMinBoxDim ∨ b2.length ≤ kMinBoxDim ∨ b2.width ≤ kMinBoxDim then some 0
  else
    let inter := b1.toAABox.intersectionArea b2.toAABox
    ratio inter (b1.length * b1.width + b2.length * b2.width - inter)

/-- `ClosedRangesOverlap`, iou.cc:50-64: the overlap of two ranges, if any. -/
def rangesOverlap (min1 max1 min2 max2 : ℝ) : Option (Option (ℝ × ℝ)) :=
  if min1 ≤ max1 ∧ min2 ≤ max2 then
    if max min1 min2 ≤ min max1 max2 then some (some (max min1 min2, min max1 max2)) else some none
  else none

/-- `ComputeIoU3d`, iou.cc:168-206. -/
def iou3d (area : Box → Box → ℝ) (b1 b2 : Box) : Option ℝ :=
  if b1.length ≤ kMinBoxDim ∨ b1.width ≤ kMinBoxDim ∨ b1.height ≤ kMinBoxDim ∨ b2.length ≤ kMinBoxDim ∨
      b2.width ≤ kMinBoxDim ∨ b2.height ≤ kMinBoxDim then some 0
  else
    match rangesOverlap (b1.cz - b1.height * (1 / 2)) (b1.cz + b1.height * (1 / 2))
        (b2.cz - b2.height * (1 / 2)) (b2.cz + b2.height * (1 / 2)) with
    | none => none
    | some none => some 0
    | some (some (lo, hi)) =>
      let inter := area b1 b2 * (hi - lo)
      ratio inter (b1.length * b1.width * b1.height + b2.length * b2.width * b2.height - inter)

/-- `ComputeIoU`, iou.cc:211-234. -/
def computeIoU (area : Box → Box → ℝ) (b1 b2 : Box) (t : BoxType) : Option ℝ :=
  if b1.length ≥ kMaxBoxDim ∨ b1.width ≥ kMaxBoxDim ∨ b1.height ≥ kMaxBoxDim ∨ b2.length ≥ kMaxBoxDim ∨
      b2.width ≥ kMaxBoxDim ∨ b2.height ≥ kMaxBoxDim then some 0
  else
    match t with
    | .b3d => iou3d area b1 b2
    | .b2d => iou2d area b1 b2
    | .aa2d => iouAA2d b1 b2
    | .unknown => none

/-- `BatchComputeIoU`, iou.cc:236-245. -/
def batchComputeIoU (area : Box → Box → ℝ) (b1 : Box) (b2s : List Box) (t : BoxType) : Option (List ℝ) :=
  b2s.mapM (fun b2 => computeIoU area b1 b2 t)

/-! ## Longitudinal error tolerant metrics -/

/-- `TranslateBox`, iou.cc:100-108. -/
def Box.translate (b : Box) (x y z : ℝ) : Box := { b with cx := b.cx + x, cy := b.cy + y, cz := b.cz + z }

/-- `CenterDotProduct`, iou.cc:79-83. -/
def dot (a b : Box) : ℝ := a.cx * b.cx + a.cy * b.cy + a.cz * b.cz

/-- `CenterVectorLength`, iou.cc:86-94. -/
def range (b : Box) : ℝ := √(dot b b)

/-- `Config::LongitudinalErrorTolerantConfig`, metrics.proto:119-186. -/
structure LetConfig where
  x : ℝ
  y : ℝ
  z : ℝ
  tolerancePercentage : ℝ
  minToleranceMeter : ℝ

/-- `ComputeLongitudinalAffinity`, iou.cc:247-283.  The rounding of the tolerance to `float` is not modelled.  A zero
tolerance gives an infinite or NaN error, which `Clamp` turns into 0. -/
def longitudinalAffinity (prediction groundTruth : Box) (c : LetConfig) : ℝ :=
  let pd := prediction.translate (-c.x) (-c.y) (-c.z)
  let gt := groundTruth.translate (-c.x) (-c.y) (-c.z)
  let gtRange := max (range gt) kEpsilon
  let pdRange := max (range pd) kEpsilon
  let cos := dot pd gt / gtRange / pdRange
  let tolerance := max (c.tolerancePercentage * gtRange) c.minToleranceMeter
  if tolerance = 0 then 0
  else clamp (1 - |(pdRange * cos - gtRange) / tolerance|) 0 1

/-- `AlignType`, metrics.proto:152-184. -/
inductive AlignType where
  | unknown
  | notAligned
  | rangeAligned
  | centerAligned
  | furtherOnly
  | anyCloserOnly
  | betweenOnly
  deriving DecidableEq

/-- `clamped_multiplier`, iou.cc:328-345. -/
def clampMultiplier (t : AlignType) (k : ℝ) : ℝ :=
  if t = .furtherOnly then (if k < 1 ∧ k ≥ 0 then k else 1)
  else if t = .anyCloserOnly then (if k < 1 ∧ k ≥ 0 then 1 else k)
  else if t = .betweenOnly then max k 1
  else k

/-- The range aligned cases of `AlignedPredictionBox`, iou.cc:322-354. -/
def alignRange (prediction groundTruth : Box) (t : AlignType) : Box :=
  let k := clampMultiplier t (dot prediction groundTruth / max (dot prediction prediction) kEpsilon)
  { prediction with cx := prediction.cx * k, cy := prediction.cy * k, cz := prediction.cz * k }

/-- `AlignedPredictionBox`, iou.cc:296-359. -/
def alignedPredictionBox (prediction groundTruth : Box) (t : AlignType) : Option Box :=
  match t with
  | .notAligned => some prediction
  | .centerAligned => some { prediction with cx := groundTruth.cx, cy := groundTruth.cy }
  | .unknown => none
  | t => some (alignRange prediction groundTruth t)

/-- `ComputeLetIoU`, iou.cc:361-382; the sensor location is the first argument. -/
def computeLetIoU (area : Box → Box → ℝ) (x y z : ℝ) (prediction groundTruth : Box) (t : AlignType) (bt : BoxType) :
    Option ℝ :=
  if bt = .b3d ∨ bt = .b2d then
    (alignedPredictionBox (prediction.translate (-x) (-y) (-z)) (groundTruth.translate (-x) (-y) (-z)) t).bind
      (fun aligned => computeIoU area aligned (groundTruth.translate (-x) (-y) (-z)) bt)
  else none

end

end Verif.Iou
