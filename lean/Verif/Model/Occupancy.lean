import Verif.Model.Pca
import Mathlib.Analysis.SpecialFunctions.Trigonometric.Basic

/-!
Occupancy and flow grids: utils/occupancy_flow_data.py, occupancy_flow_renderer.py, occupancy_flow_grids.py and
occupancy_flow_metrics.py, for one scenario of a batch (the batch dimension only repeats the computation).

Floating point numbers are real numbers; the `valid` flags, 0 or 1 in the data, are `Bool`.  Heights (`z`) are not used by any result and
left out.  The integers of the configuration that are sizes are natural numbers.  A grid gives for a row and a column the values over
the steps.  `none` is an exception.
-/

namespace Verif.Occupancy

open Verif.Pca (roundEven clip)

noncomputable section

/-- `OccupancyFlowTaskConfig`, protos/occupancy_flow_metrics.proto:25-84. -/
structure Config where
  numPast : ℕ
  numFuture : ℕ
  numWaypoints : ℕ
  cumulative : Bool
  normalizeYaw : Bool
  height : ℕ
  width : ℕ
  sdcX : ℤ
  sdcY : ℤ
  pixelsPerMeter : ℝ
  pointsLength : ℕ
  pointsWidth : ℕ

/-- `'past'`, `'current'` and `'future'`. -/
inductive Time
  | past
  | current
  | future
  deriving DecidableEq

/-- The state of an agent at one step, `state/*/x` and its siblings. -/
structure State where
  x : ℝ
  y : ℝ
  yaw : ℝ
  length : ℝ
  width : ℝ
  valid : Bool

/-- The agent types, occupancy_flow_data.py:24-28. -/
inductive Kind
  | vehicle
  | pedestrian
  | cyclist
  deriving DecidableEq

/-- `TYPE_VEHICLE`, `TYPE_PEDESTRIAN` and `TYPE_CYCLIST`, protos/scenario.proto. -/
def Kind.code : Kind → ℤ
  | .vehicle => 1
  | .pedestrian => 2
  | .cyclist => 3

/-- One agent of the input. -/
structure Agent where
  type : ℤ
  isSdc : ℤ
  states : Time → List State

/-- The lengths of the inputs of an agent, occupancy_flow_data.py:84-186. -/
def Agent.shaped (cfg : Config) (a : Agent) : Bool :=
  (a.states .past).length == cfg.numPast && (a.states .current).length == 1 && (a.states .future).length == cfg.numFuture

/-- `add_sdc_fields`, occupancy_flow_data.py:229-241: the current state of the autonomous vehicle.  None or several of them give
tensors of the wrong shape, which later assertions reject. -/
def sdc (agents : List Agent) : Option State := do
  let [a] := agents.filter fun a => a.isSdc == 1 | none
  (a.states .current)[0]?

/-- `_stack_field`, occupancy_flow_renderer.py:811-842. -/
def stack (times : List Time) (a : Agent) : List State := times.flatMap a.states

/-- `_get_num_steps_from_times`, occupancy_flow_renderer.py:845-857. -/
def numSteps (cfg : Config) (times : List Time) : ℕ :=
  (if Time.past ∈ times then cfg.numPast else 0) + (if Time.current ∈ times then 1 else 0) +
    (if Time.future ∈ times then cfg.numFuture else 0)

/-- `rotate_points_around_origin`, occupancy_flow_renderer.py:791-808. -/
def rotate (x y angle : ℝ) : ℝ × ℝ :=
  (Real.cos angle * x - Real.sin angle * y, Real.sin angle * x + Real.cos angle * y)

/-- The translation to the autonomous vehicle and the rotation, occupancy_flow_renderer.py:664-682: the centre and the heading. -/
def localPose (normalize : Bool) (ego s : State) : (ℝ × ℝ) × ℝ :=
  if normalize then (rotate (s.x - ego.x) (s.y - ego.y) (Real.pi / 2 - ego.yaw), s.yaw + (Real.pi / 2 - ego.yaw))
  else ((s.x - ego.x, s.y - ego.y), s.yaw)

/-- The position of one sample along a side of length one, occupancy_flow_renderer.py:746-766. -/
def unitAt (n i : ℕ) : ℝ := if n = 1 then i * 0 - 1 / 2 + 1 / 2 else i * (1 / ((n : ℝ) - 1)) - 1 / 2

/-- The samples of the unit square, occupancy_flow_renderer.py:738-771. -/
def unitPoints (n m : ℕ) : Option (List (ℝ × ℝ)) :=
  if n < 1 ∨ m < 1 then none
  else some ((List.range n).flatMap fun i => (List.range m).map fun j => (unitAt n i, unitAt m j))

/-- `_sample_points_from_agent_boxes` for one box and one sample, occupancy_flow_renderer.py:773-780. -/
def boxPoint (pose : (ℝ × ℝ) × ℝ) (length width : ℝ) (u : ℝ × ℝ) : ℝ × ℝ :=
  (Real.cos pose.2 * length * u.1 - Real.sin pose.2 * width * u.2 + pose.1.1,
    Real.sin pose.2 * length * u.1 + Real.cos pose.2 * width * u.2 + pose.1.2)

/-- `_transform_to_image_coordinates`, occupancy_flow_renderer.py:518-520: the column and the row, which are integers. -/
def toImage (cfg : Config) (p : ℝ × ℝ) : ℤ × ℤ :=
  (roundEven (p.1 * cfg.pixelsPerMeter) + cfg.sdcX, roundEven (-p.2 * cfg.pixelsPerMeter) + cfg.sdcY)

/-- `point_is_in_fov`, occupancy_flow_renderer.py:522-531. -/
def inFov (cfg : Config) (q : ℤ × ℤ) : Bool := decide (0 ≤ q.1 ∧ 0 ≤ q.2 ∧ q.1 < cfg.width ∧ q.2 < cfg.height)

/-- The sampled points of an agent in the image: for every step the flag and the columns and rows. -/
structure Sampled where
  type : ℤ
  steps : List (Bool × List (ℤ × ℤ))

/-- Whether an agent is currently observed: valid at some step of the past or now, occupancy_flow_renderer.py:583-589. -/
def observed (a : Agent) : Bool := (stack [.past, .current] a).any State.valid

/-- The filter by visibility, occupancy_flow_renderer.py:578-603. -/
def keep (times : List Time) (obs occ : Bool) (a : Agent) : Option Bool :=
  if !(obs && occ) && decide (Time.future ∈ times) then
    (if obs then some (observed a) else if occ then some !(observed a) else none)
  else some true

/-- `_sample_and_filter_agent_points` and the transformation to the image, occupancy_flow_renderer.py:536-695 and 105-112, for one
agent. -/
def sampleAgent (cfg : Config) (units : List (ℝ × ℝ)) (ego : State) (times : List Time) (obs occ : Bool) (a : Agent) :
    Option Sampled := do
  let k ← keep times obs occ a
  pure ⟨a.type, (stack times a).map fun s =>
    (s.valid && k, units.map fun u => toImage cfg (boxPoint (localPose cfg.normalizeYaw ego s) s.length s.width u))⟩

/-- The same for all agents, with the assertions on the shapes. -/
def sampleAll (cfg : Config) (agents : List Agent) (times : List Time) (obs occ : Bool) : Option (List Sampled) := do
  let ego ← sdc agents
  let units ← unitPoints cfg.pointsLength cfg.pointsWidth
  let all ← agents.mapM (sampleAgent cfg units ego times obs occ)
  if (agents.all (Agent.shaped cfg)) && all.all fun s => s.steps.length == numSteps cfg times then some all else none

/-- `tf.scatter_nd` for indices row, column, step: values of equal indices are added.  An index outside of the shape is an
error. -/
def scatter (entries : List ((ℤ × ℤ × ℕ) × ℝ)) (height width steps : ℕ) : Option (ℤ → ℤ → List ℝ) :=
  if ∀ e ∈ entries, (0 ≤ e.1.1 ∧ e.1.1 < height) ∧ (0 ≤ e.1.2.1 ∧ e.1.2.1 < width) ∧ e.1.2.2 < steps then
    some fun r c => (List.range steps).map fun t => ((entries.filter fun e => e.1 = (r, c, t)).map Prod.snd).sum
  else none

/-- The points of one type to be rendered: row, column and step, occupancy_flow_renderer.py:114-160. -/
def hits (cfg : Config) (all : List Sampled) (kind : Kind) : List (ℤ × ℤ × ℕ) :=
  all.flatMap fun a => if a.type = kind.code then
    a.steps.zipIdx.flatMap fun s => if s.1.1 then (s.1.2.filter (inFov cfg)).map fun q => (q.2, q.1, s.2) else []
  else []

/-- `render_occupancy_from_inputs`, occupancy_flow_renderer.py:52-174. -/
def renderOccupancy (cfg : Config) (agents : List Agent) (times : List Time) (obs occ : Bool) :
    Option (Kind → ℤ → ℤ → List ℝ) := do
  let all ← sampleAll cfg agents times obs occ
  let v ← scatter ((hits cfg all .vehicle).map fun i => (i, 1)) cfg.height cfg.width (numSteps cfg times)
  let p ← scatter ((hits cfg all .pedestrian).map fun i => (i, 1)) cfg.height cfg.width (numSteps cfg times)
  let c ← scatter ((hits cfg all .cyclist).map fun i => (i, 1)) cfg.height cfg.width (numSteps cfg times)
  pure fun kind row col => ((match kind with | .vehicle => v | .pedestrian => p | .cyclist => c) row col).map (clip 0 1)

/-- `render_roadgraph_from_inputs`, occupancy_flow_renderer.py:387-494: the sampled points of the map with their flags. -/
def renderRoadgraph (cfg : Config) (agents : List Agent) (points : List (Bool × ℝ × ℝ)) : Option (ℤ → ℤ → ℝ) := do
  let ego ← sdc agents
  let local' (p : ℝ × ℝ) : ℝ × ℝ :=
    if cfg.normalizeYaw then rotate (p.1 - ego.x) (p.2 - ego.y) (Real.pi / 2 - ego.yaw) else (p.1 - ego.x, p.2 - ego.y)
  let image := (points.filter Prod.fst).map fun p => toImage cfg (local' p.2)
  let g ← scatter ((image.filter (inFov cfg)).map fun q => ((q.2, q.1, 0), 1)) cfg.height cfg.width 1
  pure fun r c => clip 0 1 ((g r c).headD 0)

/-! ### Flow -/

/-- `waypoint_size`, occupancy_flow_renderer.py:221.  Division by zero is an exception. -/
def waypointSize (cfg : Config) : Option ℕ := if cfg.numWaypoints = 0 then none else some (cfg.numFuture / cfg.numWaypoints)

/-- `tensor[..., :-n]` for `n ≥ 0` along the time. -/
def initPy {β : Type} (l : List β) (n : ℕ) : List β := if n = 0 then [] else l.take (l.length - n)

/-- `tensor[..., -n:]` for `n ≥ 0` along the time. -/
def tailPy {β : Type} (l : List β) (n : ℕ) : List β := if n = 0 then l else l.drop (l.length - n)

/-- The points of an agent with the displacements back in time, occupancy_flow_renderer.py:246-274. -/
def flowHits (cfg : Config) (size : ℕ) (all : List Sampled) (kind : Kind) : List ((ℤ × ℤ × ℕ) × ℤ × ℤ) :=
  all.flatMap fun a => if a.type = kind.code then
    ((a.steps.drop size).zip (initPy a.steps size)).zipIdx.flatMap fun s =>
      if s.1.1.1 && s.1.2.1 then
        ((s.1.1.2.zip s.1.2.2).filter fun q => inFov cfg q.1).map fun q =>
          ((q.1.2, q.1.1, s.2), q.2.1 - q.1.1, q.2.2 - q.1.2)
      else []
  else []

/-- `tf.math.divide_no_nan`; the division of Lean gives 0 when the divisor is 0. -/
def divNoNan (a b : ℝ) : ℝ := a / b

/-- `_render_flow_points_for_one_agent_type`, occupancy_flow_renderer.py:305-384. -/
def renderFlowKind (cfg : Config) (size steps : ℕ) (all : List Sampled) (kind : Kind) : Option (ℤ → ℤ → List (ℝ × ℝ)) := do
  let h := flowHits cfg size all kind
  let x ← scatter (h.map fun e => (e.1, (e.2.1 : ℝ))) cfg.height cfg.width steps
  let y ← scatter (h.map fun e => (e.1, (e.2.2 : ℝ))) cfg.height cfg.width steps
  let n ← scatter (h.map fun e => (e.1, 1)) cfg.height cfg.width steps
  pure fun r c => List.zipWith (fun xy m => (divNoNan xy.1 m, divNoNan xy.2 m)) (List.zip (x r c) (y r c)) (n r c)

/-- `render_flow_from_inputs`, occupancy_flow_renderer.py:177-302.  A size of 0 makes the shapes disagree. -/
def renderFlow (cfg : Config) (agents : List Agent) (times : List Time) (obs occ : Bool) :
    Option (Kind → ℤ → ℤ → List (ℝ × ℝ)) := do
  let all ← sampleAll cfg agents times obs occ
  let size ← waypointSize cfg
  if size = 0 ∨ numSteps cfg times < size then none else do
    let v ← renderFlowKind cfg size (numSteps cfg times - size) all .vehicle
    let p ← renderFlowKind cfg size (numSteps cfg times - size) all .pedestrian
    let c ← renderFlowKind cfg size (numSteps cfg times - size) all .cyclist
    pure fun kind => match kind with | .vehicle => v | .pedestrian => p | .cyclist => c

/-! ### Way points -/

/-- `TimestepGrids`, occupancy_flow_grids.py:34-87, for every kind, row and column. -/
structure Steps where
  current : Kind → ℤ → ℤ → List ℝ
  past : Kind → ℤ → ℤ → List ℝ
  futureObserved : Kind → ℤ → ℤ → List ℝ
  futureOccluded : Kind → ℤ → ℤ → List ℝ
  allOccupancy : Kind → ℤ → ℤ → List ℝ
  allFlow : Kind → ℤ → ℤ → List (ℝ × ℝ)

/-- `create_ground_truth_timestep_grids`, occupancy_flow_grids.py:184-266. -/
def timestepGrids (cfg : Config) (agents : List Agent) : Option Steps := do
  let current ← renderOccupancy cfg agents [.current] true true
  let past ← renderOccupancy cfg agents [.past] true true
  let obs ← renderOccupancy cfg agents [.future] true false
  let occ ← renderOccupancy cfg agents [.future] false true
  let all ← renderOccupancy cfg agents [.past, .current, .future] true true
  let flow ← renderFlow cfg agents [.past, .current, .future] true true
  pure ⟨current, past, obs, occ, all, flow⟩

/-- `tensor[..., a:b]` along the time. -/
def slice {β : Type} (l : List β) (a b : ℕ) : List β := (l.take b).drop a

/-- `tf.reduce_max` along the time; `none` for no steps at all. -/
def greatest : List ℝ → Option ℝ
  | [] => none
  | a :: l => some (l.foldl max a)

/-- The occupancy at a way point, occupancy_flow_grids.py:343-354, 375-386 and 425-436.  `none` if there is no such step. -/
def occupancyAt (cumulative : Bool) (size k : ℕ) (l : List ℝ) : Option ℝ :=
  if cumulative then greatest (slice l ((k + 1) * size - size) ((k + 1) * size))
  else (slice l ((k + 1) * size - 1) ((k + 1) * size)).head?

/-- The flow at a way point, occupancy_flow_grids.py:463-482: the two components are averaged separately over their values that are
not zero. -/
def flowAt (cumulative : Bool) (size k : ℕ) (l : List (ℝ × ℝ)) : Option (ℝ × ℝ) :=
  if cumulative then
    let seg := slice l ((k + 1) * size - size) ((k + 1) * size)
    some (divNoNan (seg.map Prod.fst).sum (seg.filter fun f => f.1 ≠ 0).length,
      divNoNan (seg.map Prod.snd).sum (seg.filter fun f => f.2 ≠ 0).length)
  else l[(k + 1) * size - 1]?

/-- `WaypointGrids`, occupancy_flow_grids.py:90-122: the values at a way point, for every kind, row and column. -/
structure Waypoint where
  observed : Kind → ℤ → ℤ → Option ℝ
  occluded : Kind → ℤ → ℤ → Option ℝ
  flowOrigin : Kind → ℤ → ℤ → Option ℝ
  flow : Kind → ℤ → ℤ → Option (ℝ × ℝ)

/-- `create_ground_truth_waypoint_grids`, occupancy_flow_grids.py:269-482. -/
def waypointGrids (cfg : Config) (g : Steps) : Option (List Waypoint) := do
  let size ← waypointSize cfg
  if cfg.numFuture % cfg.numWaypoints ≠ 0 then none
  else if size > cfg.numPast + 1 then none
  else pure ((List.range cfg.numWaypoints).map fun k =>
    { observed := fun kind r c => occupancyAt cfg.cumulative size k (g.futureObserved kind r c)
      occluded := fun kind r c => occupancyAt cfg.cumulative size k (g.futureOccluded kind r c)
      flowOrigin := fun kind r c =>
        occupancyAt cfg.cumulative size k (tailPy (initPy (g.allOccupancy kind r c) size) cfg.numFuture)
      flow := fun kind r c => flowAt cfg.cumulative size k (tailPy (g.allFlow kind r c) cfg.numFuture) })

/-- One step of the loop of `_create_agent_trails`, occupancy_flow_grids.py:528-534. -/
def trailStep (gamma trail new : ℝ) : ℝ := clip 0 1 (trail * gamma + new)

/-- `_create_agent_trails`, occupancy_flow_grids.py:511-543, at one cell: `past` and `current` are the sums over the three kinds. -/
def agentTrail (gamma : ℝ) (past : List ℝ) (current : ℝ) : ℝ :=
  clip 0 1 (past.foldl (trailStep gamma) 0 * gamma * gamma + current)

/-! ### Metrics -/

/-- `tf.reduce_mean`. -/
def mean (l : List ℝ) : ℝ := l.sum / l.length

/-- `_compute_occupancy_soft_iou`, occupancy_flow_metrics.py:192-215, on the flattened grids. -/
def softIou (truth pred : List ℝ) : ℝ :=
  let inter := mean (List.zipWith (· * ·) pred truth)
  divNoNan inter (mean pred + mean truth - inter)

/-- `_compute_flow_epe`, occupancy_flow_metrics.py:218-268, on the flattened grids. -/
def flowEpe (truth pred : List (ℝ × ℝ)) : ℝ :=
  let exists' (f : ℝ × ℝ) : ℝ := if f.1 ≠ 0 ∨ f.2 ≠ 0 then 1 else 0
  divNoNan ((List.zipWith (fun t p => Real.sqrt (((t.1 - p.1) * exists' t) ^ 2 + ((t.2 - p.2) * exists' t) ^ 2)) truth pred).sum)
    (truth.map exists').sum

/-- `_mean`, occupancy_flow_metrics.py:158-164. -/
def meanOf (l : List ℝ) : ℝ := if l.length = 0 then 0 else l.sum / l.length

/-- The grids of the vehicles at one way point, flattened. -/
structure Grids where
  observed : List ℝ
  occluded : List ℝ
  flow : List (ℝ × ℝ)
  flowOrigin : List ℝ

/-- `OccupancyFlowMetrics`, protos/occupancy_flow_metrics.proto. -/
structure Metrics where
  numObserved : ℕ
  numOccluded : ℕ
  numFlow : ℕ
  observedAuc : ℝ
  occludedAuc : ℝ
  observedIou : ℝ
  occludedIou : ℝ
  flowEpe : ℝ
  warpedAuc : ℝ
  warpedIou : ℝ

/-- `tf.reduce_max(...) > 0`. -/
def anyOccupied (l : List ℝ) : Bool := match greatest l with | some m => decide (0 < m) | none => false

/-- `has_true_flow` at the way points, occupancy_flow_metrics.py:62-83: the flags of the way points and those of the way points before. -/
def hasFlow (truth : List Grids) (k : ℕ) : Option Bool := do
  let g ← truth[k]?
  let before := if k = 0 then some (true, true) else (truth[k - 1]?).map fun g => (anyOccupied g.observed, anyOccupied g.occluded)
  let b ← before
  pure ((anyOccupied g.observed && b.1) || (anyOccupied g.occluded && b.2))

/-- The loop of `compute_occupancy_flow_metrics`, occupancy_flow_metrics.py:66-155, with the area under the curve of Keras and the
warped occupancies of `_flow_warp` as parameters. -/
def metricsOf (auc : List ℝ → List ℝ → ℝ) (warped : List (List ℝ)) (n : ℕ) (truth pred : List Grids) : Option Metrics := do
  let pairs ← (List.range n).mapM fun k => do
    let t ← truth[k]?
    let p ← pred[k]?
    let w ← warped[k]?
    let f ← hasFlow truth k
    pure (t, p, w, f)
  let obs := pairs.filter fun x => anyOccupied x.1.observed
  let occ := pairs.filter fun x => anyOccupied x.1.occluded
  let flow := pairs.filter fun x => x.2.2.2
  let all (g : Grids) := List.zipWith (fun a b => clip 0 1 (a + b)) g.observed g.occluded
  let grounded (x : Grids × Grids × List ℝ × Bool) := List.zipWith (· * ·) (all x.2.1) x.2.2.1
  pure ⟨obs.length, occ.length, flow.length,
    meanOf (obs.map fun x => auc x.1.observed x.2.1.observed),
    meanOf (occ.map fun x => auc x.1.occluded x.2.1.occluded),
    meanOf (obs.map fun x => softIou x.1.observed x.2.1.observed),
    meanOf (occ.map fun x => softIou x.1.occluded x.2.1.occluded),
    meanOf (flow.map fun x => flowEpe x.1.flow x.2.1.flow),
    meanOf (flow.map fun x => auc (all x.1) (grounded x)),
    meanOf (flow.map fun x => softIou (all x.1) (grounded x))⟩

/-- `_flow_warp`, occupancy_flow_metrics.py:271-334: it raises `NotImplementedError` in the first round of its loop. -/
def flowWarp (n : ℕ) (_truth _pred : List Grids) : Option (List (List ℝ)) := if n = 0 then some [] else none

/-- `compute_occupancy_flow_metrics`, occupancy_flow_metrics.py:26-155. -/
def metrics (auc : List ℝ → List ℝ → ℝ) (n : ℕ) (truth pred : List Grids) : Option Metrics := do
  let w ← flowWarp n truth pred
  metricsOf auc w n truth pred

end

end Verif.Occupancy
