import Mathlib.Analysis.SpecialFunctions.Log.Basic
import Mathlib.Analysis.SpecialFunctions.Exp

/-!
Model of the code of tutorial/tutorial_occupancy_flow.ipynb that users start from: the cutting of
the output of a network into way points (cell 42), the losses (cell 45), the training step
(cell 48), the conversion to probabilities (cell 50) and the submission (cells 75, 76).

Numbers are real; a tensor `[batch, height, width, c]` is the list of its cells in row major
order, each cell being the list (or the pair) of its channels.  The network itself is an arbitrary
function.  `zlib.compress` and the protocol buffers are the identity.
-/

namespace Verif.OccTutorial

/-! ### Cutting the channels -/

/-- `occupancy_flow_grids.WaypointGrids().vehicles`: three lists with one tensor per way point. -/
structure Vehicles (α : Type) where
  observed : List (List α)
  occluded : List (List α)
  flow : List (List α)
deriving DecidableEq, Repr

/-- Cell 34: NUM_PRED_CHANNELS. -/
def numChannels : ℕ := 4

/-- `model_outputs[:, :, :, a:b]`: slices beyond the last channel are cut short, as in TensorFlow. -/
def slice {α : Type} (a b : ℕ) (cells : List (List α)) : List (List α) :=
  cells.map fun c => (c.drop a).take (b - a)

/-- Cell 42: _get_pred_waypoint_logits. -/
def waypointLogits {α : Type} (numWaypoints : ℕ) (out : List (List α)) :
    Vehicles (List α) :=
  let chans := (List.range numWaypoints).map fun k =>
    slice (k * numChannels) (k * numChannels + numChannels) out
  { observed := chans.map (slice 0 1)
    occluded := chans.map (slice 1 2)
    flow := chans.map (slice 2 numChannels) }

/-! ### Losses -/

/-- `tf.nn.sigmoid_cross_entropy_with_logits` of one cell, in the numerically stable form that
TensorFlow documents. -/
noncomputable def xe (label logit : ℝ) : ℝ :=
  max logit 0 - logit * label + Real.log (1 + Real.exp (-|logit|))

/-- Cell 45: _sigmoid_xe_loss.  Tensors of different sizes raise; the mean of no cells is not a
number, which `none` stands for as well. -/
noncomputable def sigmoidXe (true_ pred : List ℝ) (weight : ℝ := 1000) : Option ℝ :=
  if true_.length ≠ pred.length ∨ pred = [] then none
  else some (weight * (List.zipWith xe true_ pred).sum / pred.length)

/-- `tf.math.divide_no_nan`. -/
noncomputable def divNoNan (a b : ℝ) : ℝ := if b = 0 then 0 else a / b

open Classical in
/-- Cell 45: `flow_exists` of one cell. -/
noncomputable def flowExists (f : ℝ × ℝ) : ℝ := if f.1 ≠ 0 ∨ f.2 ≠ 0 then 1 else 0

/-- Cell 45: _flow_loss, with the parameters in the order of the definition. -/
noncomputable def flowLoss (trueFlow predFlow : List (ℝ × ℝ)) (weight : ℝ := 1) : Option ℝ :=
  if trueFlow.length ≠ predFlow.length then none
  else
    let diff := List.zipWith (fun t p => (t.1 - p.1, t.2 - p.2)) trueFlow predFlow
    let ex := trueFlow.map flowExists
    let masked := List.zipWith (fun (d : ℝ × ℝ) e => (d.1 * e, d.2 * e)) diff ex
    let norms := masked.map fun d => |d.1| + |d.2|
    some (weight * divNoNan norms.sum (ex.sum / 2))

/-- Occupancy and flow of the vehicles at the way points, one channel of occupancy per cell. -/
structure Grids where
  observed : List (List ℝ)
  occluded : List (List ℝ)
  flow : List (List (ℝ × ℝ))

/-- The three losses of cell 45. -/
structure Losses where
  observed : ℝ
  occluded : ℝ
  flow : ℝ

/-- `tf.math.add_n(l) / n`: no summands raise. -/
noncomputable def meanOf (l : List ℝ) (n : ℕ) : Option ℝ :=
  if l = [] then none else some (l.sum / n)

/-- Cell 45: _occupancy_flow_loss.  The call `_flow_loss(pred_flow, true_flow)` hands over its
arguments by position. -/
noncomputable def occupancyFlowLoss (numWaypoints : ℕ) (true_ logits : Grids) : Option Losses := do
  let obs ← (List.range numWaypoints).mapM fun k => do
    let p ← logits.observed[k]?
    let t ← true_.observed[k]?
    sigmoidXe t p
  let occ ← (List.range numWaypoints).mapM fun k => do
    let p ← logits.occluded[k]?
    let t ← true_.occluded[k]?
    sigmoidXe t p
  let fl ← (List.range numWaypoints).mapM fun k => do
    let p ← logits.flow[k]?
    let t ← true_.flow[k]?
    flowLoss p t
  let a ← meanOf obs numWaypoints
  let b ← meanOf occ numWaypoints
  let c ← meanOf fl numWaypoints
  return { observed := a, occluded := b, flow := c }

/-! ### The training step -/

/-- Cells 47, 48: one training step.  `rasterize` makes the ground truth way points of a batch,
`run` the logits; `global` is the variable `true_waypoints` of an earlier cell, which the step
compares with (the way points that `_run_model_on_inputs` makes are not returned). -/
noncomputable def trainLoss {I : Type} (numWaypoints : ℕ) (_rasterize : I → Grids)
    (run : I → Grids) (global : Grids) (inputs : I) : Option ℝ := do
  let l ← occupancyFlowLoss numWaypoints global (run inputs)
  return l.observed + l.occluded + l.flow

/-! ### Probabilities and submission -/

/-- `tf.sigmoid`. -/
noncomputable def sigmoid (x : ℝ) : ℝ := 1 / (1 + Real.exp (-x))

/-- Cell 50: _apply_sigmoid_to_occupancy_logits. -/
noncomputable def applySigmoid (g : Grids) : Grids where
  observed := g.observed.map (·.map sigmoid)
  occluded := g.occluded.map (·.map sigmoid)
  flow := g.flow

/-- `np.round`: to the nearest integer, halves to even. -/
noncomputable def roundHalfEvenR (x : ℝ) : ℤ :=
  if Int.fract x < 1 / 2 then ⌊x⌋
  else if 1 / 2 < Int.fract x then ⌊x⌋ + 1
  else if ⌊x⌋ % 2 = 0 then ⌊x⌋ else ⌊x⌋ + 1

/-- `np.round(x * 255).astype(np.uint8)`: numpy rounds halves to even; the cast keeps the low
byte. -/
noncomputable def quantOcc (x : ℝ) : ℕ := (roundHalfEvenR (x * 255) % 256).toNat

/-- `np.clip(np.round(x), -128, 127).astype(np.int8)`. -/
noncomputable def quantFlow (x : ℝ) : ℤ := max (-128) (min 127 (roundHalfEvenR x))

/-- A way point of the submission, with its bytes. -/
structure WaypointMessage where
  observed : List ℕ
  occluded : List ℕ
  flow : List (ℤ × ℤ)
deriving DecidableEq

/-- Cell 75: _add_waypoints_to_scenario_prediction. -/
noncomputable def addWaypoints (numWaypoints : ℕ) (g : Grids) : Option (List WaypointMessage) :=
  (List.range numWaypoints).mapM fun k => do
    let obs ← g.observed[k]?
    let occ ← g.occluded[k]?
    let fl ← g.flow[k]?
    return { observed := obs.map quantOcc, occluded := occ.map quantOcc,
             flow := fl.map fun p => (quantFlow p.1, quantFlow p.2) }

/-- Cell 76: _generate_predictions_for_one_test_shard: the predictions added to a submission. -/
noncomputable def predictShard {I : Type} (numWaypoints : ℕ) (idOf : I → String)
    (run : I → Grids) (testIds : List String) (submission : List (String × List WaypointMessage)) :
    List I → Option (List (String × List WaypointMessage))
  | [] => some submission
  | x :: rest => do
    if testIds.contains (idOf x) then
      let ws ← addWaypoints numWaypoints (applySigmoid (run x))
      predictShard numWaypoints idOf run testIds (submission ++ [(idOf x, ws)]) rest
    else predictShard numWaypoints idOf run testIds submission rest

end Verif.OccTutorial
