import Mathlib.Data.Real.Basic

/-!
Model of the code of tutorial/tutorial_motion.ipynb (in /repo): cells 10, 12 and 14.  Floating point numbers are real numbers; the regressor
is not modelled, its output is a parameter.  `none` is an exception.
-/

namespace Verif.MotionTutorial

noncomputable section

/-! ## Pictures -/

/-- The states of an agent, each with whether it is valid. -/
structure Agent where
  past : List ((ℝ × ℝ) × Bool)
  current : List ((ℝ × ℝ) × Bool)
  future : List ((ℝ × ℝ) × Bool)

/-- All states of an agent, `all_states` and `all_states_mask`, cell 10. -/
def Agent.all (a : Agent) : List ((ℝ × ℝ) × Bool) := a.past ++ a.current ++ a.future

/-- The minimum and maximum of an array; an empty one is an error. -/
def minOf : List ℝ → Option ℝ
  | [] => none
  | a :: l => some (l.foldl min a)

def maxOf : List ℝ → Option ℝ
  | [] => none
  | a :: l => some (l.foldl max a)

/-- `get_viewport`, cell 10: center y, center x and width. -/
def viewport (agents : List Agent) : Option (ℝ × ℝ × ℝ) := do
  let valid := ((agents.map Agent.all).flatten.filter fun s => s.2).map Prod.fst
  let ys := valid.map Prod.snd
  let xs := valid.map Prod.fst
  let maxY ← maxOf ys
  let minY ← minOf ys
  let maxX ← maxOf xs
  let minX ← minOf xs
  pure ((maxY + minY) / 2, (maxX + minX) / 2, max (maxY - minY) (maxX - minX))

/-- The limits of the axes, `visualize_one_step`, cell 10: x from, x to, y from, y to. -/
def limits (centerY centerX width : ℝ) : ℝ × ℝ × ℝ × ℝ :=
  let size := max 10 (width * 1)
  (-size / 2 + centerX, size / 2 + centerX, -size / 2 + centerY, size / 2 + centerY)

/-- What is told by the title of a picture. -/
inductive Title where
  | past (k : ℕ)
  | current
  | future (k : ℕ)
deriving DecidableEq

/-- A picture: its title, the points of the road, and the agents with their numbers, which give the colors. -/
structure Picture where
  title : Title
  road : List (ℝ × ℝ)
  agents : List (ℕ × ℝ × ℝ)

/-- `visualize_one_step`, cell 10: the states of all agents at one step; the road is drawn whether or not its samples are valid. -/
def picture (title : Title) (road : List ((ℝ × ℝ) × Bool)) (states : List ((ℝ × ℝ) × Bool)) : Picture :=
  ⟨title, road.map Prod.fst, states.zipIdx.filterMap fun p => if p.1.2 then some (p.2, p.1.1) else none⟩

/-- `visualize_all_agents_smooth`, cell 10, for `p` past and `f` future steps. -/
def pictures (p f : ℕ) (agents : List Agent) (road : List ((ℝ × ℝ) × Bool)) : Option (List Picture) := do
  let past ← (List.range p).mapM fun (k : ℕ) => do
    let s ← agents.mapM fun a => a.past[k]?
    pure (picture (.past (p - k)) road s)
  let s ← agents.mapM fun a => a.current[0]?
  let future ← (List.range f).mapM fun (k : ℕ) => do
    let s ← agents.mapM fun a => a.future[k]?
    pure (picture (.future (k + 1)) road s)
  pure (past ++ [picture .current road s] ++ future)

/-- `images[::5]`, cell 12. -/
def everyFifth {A : Type} (l : List A) : List A := (List.range ((l.length + 4) / 5)).filterMap fun k => l[5 * k]?

/-- `create_animation`, cell 12: the pictures that are shown. -/
def animated {A : Type} (images : List A) : List A := (List.range (images.length / 2)).filterMap fun k => images[k]?

/-! ## Training -/

/-- A state: x, y, length, width, yaw and velocity. -/
structure State where
  x : ℝ
  y : ℝ
  length : ℝ
  width : ℝ
  yaw : ℝ
  vx : ℝ
  vy : ℝ

/-- An object of a parsed example. -/
structure Track where
  past : List (State × Bool)
  current : List (State × Bool)
  future : List (State × Bool)
  toPredict : Bool

/-- `_parse`, cell 14: `input_states`. -/
def Track.input (t : Track) : List (ℝ × ℝ) := (t.past ++ t.current).map fun s => (s.1.x, s.1.y)

/-- `_parse`, cell 14: `gt_future_states` and `gt_future_is_valid`. -/
def Track.truth (t : Track) : List (State × Bool) := t.past ++ t.current ++ t.future

/-- `_parse`, cell 14: `sample_is_valid`, which nothing reads. -/
def Track.seen (t : Track) : Bool := (t.past ++ t.current).any Prod.snd

/-- `metrics_config.track_history_samples + 1`, cell 14. -/
def predictionStart : ℕ := 10 + 1

/-- The terms of the loss of `train_step`, cell 14: weight and mean of the squares of both coordinates. -/
def terms (t : Track) (pred : List (ℝ × ℝ)) : List (ℝ × ℝ) :=
  ((t.truth.drop predictionStart).zip pred).map fun p =>
    ((if p.1.2 then 1 else 0) * (if t.toPredict then 1 else 0), ((p.1.1.x - p.2.1) ^ 2 + (p.1.1.y - p.2.2) ^ 2) / 2)

/-- `loss_fn(gt_targets, pred_trajectory, sample_weight=weights)`, cell 14: Keras divides the weighted sum by the number of all terms. -/
def loss (batch : List (Track × List (ℝ × ℝ))) : ℝ :=
  let ts := (batch.map fun b => terms b.1 b.2).flatten
  (ts.map fun t => t.1 * t.2).sum / ts.length

/-! ## Metrics -/

/-- One call of `MotionMetrics.update_state`, cell 14: scenarios of a batch. -/
structure Metrics (S : Type) where
  batches : List (List S)

/-- `MotionMetrics.__init__`. -/
def Metrics.init {S : Type} : Metrics S := ⟨[]⟩

/-- `MotionMetrics.update_state`. -/
def Metrics.update {S : Type} (m : Metrics S) (batch : List S) : Metrics S := ⟨m.batches ++ [batch]⟩

/-- `MotionMetrics.reset_state` has no parameter `self`: every call of it raises. -/
def Metrics.reset {S : Type} (_m : Metrics S) : Option (Metrics S) := none

/-- The concatenation in `MotionMetrics.result`; `tf.concat` of nothing is an error. -/
def Metrics.all {S : Type} (m : Metrics S) : Option (List S) := if m.batches = [] then none else some m.batches.flatten

/-- `prediction_trajectory[..., (interval - 1)::interval, :]`, `MotionMetrics.result`, for the steps of one trajectory. -/
def subsample {A : Type} (tracksPerSecond predictionsPerSecond : ℕ) (steps : List A) : Option (List A) :=
  if predictionsPerSecond = 0 then none
  else
    let interval := tracksPerSecond / predictionsPerSecond
    if interval = 0 then none
    else some ((List.range (steps.length / interval)).filterMap fun k => steps[(interval - 1) + interval * k]?)

/-- The loop of cell 14: what the metrics shown at the end of each epoch are computed of. -/
def epochs {S : Type} (limit : ℕ) : ℕ → Metrics S → List (List S) → Option (List (List S))
  | 0, _, _ => some []
  | n + 1, m, dataset => do
    let m := (dataset.take (limit + 1)).foldl Metrics.update m
    let shown ← m.all
    let rest ← epochs limit n m dataset
    pure (shown :: rest)

/-- `'Seen so far: %d samples'`, cell 14. -/
def seenSoFar (step : ℕ) : ℕ := (step + 1) * 64

end

end Verif.MotionTutorial
