import Mathlib.Analysis.SpecialFunctions.Pow.Real
import Mathlib.Data.Real.Basic

/-!
The rater feedback score: metrics/python/rater_feedback_utils.py.

Floats are real numbers.  Broadcasting of tensors with a dimension of size one is left out: a size that does not fit is an
error.  `none` is an exception.  A division by a threshold of zero is not modelled; the theorems assume positive thresholds.
-/

namespace Verif.Rater

noncomputable section

abbrev Pt := ℝ × ℝ

/-! ### Padding -/

/-- Cutting off or repeating the last element: rater_feedback_utils.py:101-126 for trajectories and labels, 133-152 for way
points. -/
def padTo {α : Type} (target : ℕ) (l : List α) : Option (List α) :=
  if l.length > target then some (l.take target)
  else if l.length < target then do
    let last ← l.getLast?
    pure (l ++ List.replicate (target - l.length) last)
  else some l

/-- One batch of `process_rater_specified_trajectories`, rater_feedback_utils.py:89-165. -/
def processOne {α β : Type} (waypoints trajectories : ℕ) (ts : List (List α)) (labels : List β) :
    Option (List (List α) × List β) := do
  if ts.length ≠ labels.length then none
  else do
    let ts ← padTo trajectories ts
    let labels ← padTo trajectories labels
    let ts ← ts.mapM (padTo waypoints)
    pure (ts, labels)

/-- `process_rater_specified_trajectories`, rater_feedback_utils.py:47-172. -/
def process {α β : Type} (waypoints trajectories : ℕ) (ts : List (List (List α))) (labels : List (List β)) :
    Option (List (List (List α)) × List (List β)) := do
  if ts.length ≠ labels.length then none
  else do
    let r ← (ts.zip labels).mapM fun x => processOne waypoints trajectories x.1 x.2
    pure (r.map Prod.fst, r.map Prod.snd)

/-! ### Directions and distances -/

/-- `_THRESHOLD_TIME_SECONDS`, rater_feedback_utils.py:21. -/
def times : List ℕ := [3, 5]

/-- `_BASE_THRESHOLDS`, rater_feedback_utils.py:22. -/
def base : List ℝ := [1, 9 / 5]

/-- `np.clip`. -/
def clip (x lo hi : ℝ) : ℝ := min (max x lo) hi

/-- `scale_by_init_speed`, rater_feedback_utils.py:37-39. -/
def speedScale (speed : ℝ) : ℝ := clip (1 / 2 + 1 / 2 * (speed - 14 / 10) / (11 - 14 / 10)) (1 / 2) 1

/-- `get_lat_lng_thresholds`, rater_feedback_utils.py:26-43, for one element of a batch: one threshold for each time. -/
def thresholds (speed : ℝ) (multipliers : ℝ × ℝ) : List ℝ × List ℝ :=
  ((base.map fun b => b * multipliers.1).map fun x => speedScale speed * x,
    (base.map fun b => b * multipliers.2).map fun x => speedScale speed * x)

/-- `np.linalg.norm` of a point. -/
def norm (p : Pt) : ℝ := Real.sqrt (p.1 ^ 2 + p.2 ^ 2)

/-- The displacement vectors of a trajectory that starts at the origin, rater_feedback_utils.py:246-256. -/
def displacements (t : List Pt) : List Pt := List.zipWith (fun a b => (a.1 - b.1, a.2 - b.2)) t ((0, 0) :: t)

/-- The loop that takes over the direction of the step before where there is no movement, rater_feedback_utils.py:267-292; the
direction before the first step is (1, 0). -/
def carry (prev : Pt) : List Pt → List Pt
  | [] => []
  | d :: rest =>
    let e := if norm d = 0 then prev else d
    e :: carry e rest

/-- Divided by the norm, rater_feedback_utils.py:301-306. -/
def normalise (d : Pt) : Pt := (d.1 / norm d, d.2 / norm d)

/-- `lng_directions`, rater_feedback_utils.py:259-303. -/
def lngDirections (t : List Pt) : List Pt := (carry (1, 0) (displacements t)).map normalise

/-- `lat_directions`, rater_feedback_utils.py:296-306. -/
def latDirections (t : List Pt) : List Pt := ((carry (1, 0) (displacements t)).map fun d => (d.2 * -1, d.1)).map normalise

/-- `np.abs(np.sum(direction * vector, axis=-1))`, rater_feedback_utils.py:313-322. -/
def projection (d v : Pt) : ℝ := |d.1 * v.1 + d.2 * v.2|

/-- The longitudinal and lateral distances of an inference from a rated trajectory at a time step, rater_feedback_utils.py:309-327. -/
def distances (rated inference : List Pt) (k : ℕ) : Option (ℝ × ℝ) := do
  let r ← rated[k]?
  let p ← inference[k]?
  let lng ← (lngDirections rated)[k]?
  let lat ← (latDirections rated)[k]?
  let v : Pt := (p.1 - r.1, p.2 - r.2)
  pure (projection lng v, projection lat v)

/-! ### Scores -/

/-- The parameters of `get_rater_feedback_score`, rater_feedback_utils.py:184-191. -/
structure Config where
  multipliers : ℝ × ℝ
  decay : ℝ
  frequency : ℕ
  seconds : ℕ
  rated : ℕ
  floor : ℝ

/-- `normalized_distances`, rater_feedback_utils.py:365-376, of one inference from one rated trajectory: one for each time. -/
def normalised (c : Config) (speed : ℝ) (rated inference : List Pt) : Option (List ℝ) :=
  (times.zip ((thresholds speed c.multipliers).1.zip (thresholds speed c.multipliers).2)).mapM fun x => do
    let d ← distances rated inference (x.1 * c.frequency - 1)
    pure (max (d.1 / x.2.2) (d.2 / x.2.1))

open Classical in
/-- `np.all(normalized_distances <= 1.0, axis=3)`, rater_feedback_utils.py:383-384. -/
def allWithin (ds : List ℝ) : Bool := ds.all fun x => decide (x ≤ 1)

/-- A label times its decay, rater_feedback_utils.py:390-395. -/
def decayed (c : Config) (label d : ℝ) : ℝ := label * c.decay ^ max (d - 1) 0

/-- `np.amax`. -/
def amax : List ℝ → Option ℝ
  | [] => none
  | x :: rest => some (rest.foldl max x)

/-- The score of one inference, rater_feedback_utils.py:378-422, and whether it is in a trust region. -/
def inferenceScore (c : Config) (speed : ℝ) (rated : List (List Pt)) (labels : List ℝ) (inference : List Pt) :
    Option (ℝ × Bool) := do
  let ds ← rated.mapM fun r => normalised c speed r inference
  let within := ds.any allWithin
  let perTime ← (List.range times.length).mapM fun k =>
    amax (List.zipWith (fun (d : List ℝ) label => decayed c label (d.getD k 0)) ds labels)
  let mean := perTime.sum / times.length
  pure (if within then mean else max c.floor mean, within)

/-- `get_rater_feedback_score`, rater_feedback_utils.py:175-436, for one element of the batch: the score and
`is_fully_within_trust_region`. -/
def score (c : Config) (inferences : List (List Pt)) (probs : List ℝ) (rated : List (List Pt)) (labels : List ℝ)
    (speed : ℝ) : Option (ℝ × List Bool) := do
  let r ← processOne (c.seconds * c.frequency) c.rated rated labels
  if inferences.any fun i => decide (i.length ≠ c.seconds * c.frequency) then none
  else if c.seconds * c.frequency < 5 * c.frequency then none
  else if inferences.length ≠ probs.length then none
  else do
    let s ← inferences.mapM fun i => inferenceScore c speed r.1 r.2 i
    pure ((List.zipWith (fun x p => x * p) (s.map Prod.fst) probs).sum, s.map Prod.snd)

end

end Verif.Rater
