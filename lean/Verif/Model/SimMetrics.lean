import Verif.Model.Estimators
import Verif.Model.Kinematics

/-!
The sim agents metrics of a scenario and their aggregation: wdl_limited/sim_agents_metrics/metrics.py.

A metric is `Option ℝ`, where `none` is NaN; an outer `none` is an exception.  Features are finite here: the NaN padding of the last steps of speeds
and accelerations is not modelled, nor is the rounding to float32 in messages.
-/

namespace Verif.SimMetrics

open Verif.Estimators

noncomputable section

/-- Addition of scores. -/
def addScore : Score → Score → Score
  | .nan, _ => .nan
  | _, .nan => .nan
  | .negInf, _ => .negInf
  | _, .negInf => .negInf
  | .fin a, .fin b => .fin (a + b)

/-- `tf.reduce_sum`. -/
def sumScores (l : List Score) : Score := l.foldr addScore (.fin 0)

/-- Division by a number of elements; in this file the sum of no elements is zero, so that dividing it by zero gives NaN. -/
def divScore (s : Score) (n : ℕ) : Score :=
  match s with
  | .fin v => if n = 0 then .nan else .fin (v / n)
  | .negInf => .negInf
  | .nan => .nan

/-- `tf.exp`. -/
def expScore : Score → Option ℝ
  | .fin v => some (Real.exp v)
  | .negInf => some 0
  | .nan => none

/-- The places of a tensor. -/
def cells (rows cols : ℕ) : List (ℕ × ℕ) := (List.range rows).flatMap fun i => (List.range cols).map fun j => (i, j)

/-- `_reduce_average_with_validity`, metrics.py:345-362. -/
def averageValid (t : T2 Score) (valid : T2 Bool) : Option Score :=
  if t.rows ≠ valid.rows ∨ t.cols ≠ valid.cols then none
  else
    let all := cells t.rows t.cols
    let sum := sumScores (all.map fun p => if valid.at' p.1 p.2 then t.at' p.1 p.2 else .fin 0)
    some (divScore sum (all.filter fun p => valid.at' p.1 p.2).length)

/-- The values of a feature in the log and in the rollouts. -/
structure Feature (α : Type) where
  log : T2 α
  sim : T3 α

/-- The features of a scenario, `MetricFeatures` of the log and of the rollouts, for the objects that are evaluated. -/
structure Bundle where
  valid : T2 Bool
  vehicle : ℕ → Bool
  linearSpeed : Feature ℝ
  linearAccel : Feature ℝ
  angularSpeed : Feature ℝ
  angularAccel : Feature ℝ
  distance : Feature ℝ
  collision : Feature Bool
  timeToCollision : Feature ℝ
  roadEdge : Feature ℝ
  offroad : Feature Bool
  redLight : Feature Bool
  displacement : T2 ℝ

/-- `SimAgentMetricsConfig`. -/
structure Config where
  linearSpeed : FeatureConfig
  linearAccel : FeatureConfig
  angularSpeed : FeatureConfig
  angularAccel : FeatureConfig
  distance : FeatureConfig
  collision : FeatureConfig
  timeToCollision : FeatureConfig
  roadEdge : FeatureConfig
  offroad : FeatureConfig
  redLight : FeatureConfig

/-- The fields of `SimAgentMetrics` but the id of the scenario, protos/sim_agents_metrics.proto. -/
inductive Field where
  | metametric | ade | minAde
  | linearSpeed | linearAccel | angularSpeed | angularAccel
  | distance | collision | timeToCollision
  | roadEdge | offroad | redLight
  | collisionRate | offroadRate | redLightRate
  deriving DecidableEq

/-- `SimAgentMetrics`: the fields that are not set are `none`. -/
structure Metrics where
  id : Option String
  value : Field → Option (Option ℝ)

/-- `getattr(metrics, field)`: a field that is not set reads as zero. -/
def Metrics.get (m : Metrics) (f : Field) : Option ℝ := (m.value f).getD (some 0)

/-- Multiplication and addition of numbers that may be NaN. -/
def plus (a b : Option ℝ) : Option ℝ := a.bind fun x => b.map fun y => x + y

/-- `_METRIC_FIELD_NAMES_BY_BUCKET`, metrics.py:23-36, with the weights of a configuration. -/
def kinematic (c : Config) : List (Field × ℝ) :=
  [(.linearSpeed, c.linearSpeed.weight), (.linearAccel, c.linearAccel.weight), (.angularSpeed, c.angularSpeed.weight), (.angularAccel, c.angularAccel.weight)]

/-- `_METRIC_FIELD_NAMES_BY_BUCKET`, metrics.py:23-36. -/
def interactive (c : Config) : List (Field × ℝ) :=
  [(.distance, c.distance.weight), (.collision, c.collision.weight), (.timeToCollision, c.timeToCollision.weight)]

/-- `_METRIC_FIELD_NAMES_BY_BUCKET`, metrics.py:23-36. -/
def mapBased (c : Config) : List (Field × ℝ) :=
  [(.roadEdge, c.roadEdge.weight), (.offroad, c.offroad.weight), (.redLight, c.redLight.weight)]

/-- `_METRIC_FIELD_NAMES`, metrics.py:37-41. -/
def allFields (c : Config) : List (Field × ℝ) := kinematic c ++ interactive c ++ mapBased c

/-- The loop adding weighted scores, metrics.py:320-326 and 370-375. -/
def weighted (l : List (Field × ℝ)) (m : Metrics) : Option ℝ :=
  l.foldl (fun acc f => plus acc ((m.get f.1).map fun v => f.2 * v)) (some 0)

/-- `_compute_metametric`, metrics.py:365-376. -/
def metametric (c : Config) (m : Metrics) : Option ℝ := weighted (allFields c) m

/-- A bucket, metrics.py:319-331. -/
def bucket (l : List (Field × ℝ)) (m : Metrics) : Option (Option ℝ) :=
  let total := l.foldl (fun acc f => acc + f.2) 0
  if total = 0 then none else some ((weighted l m).map (· / total))

/-- `SimAgentsBucketedMetrics`. -/
structure Buckets where
  realism : Option ℝ
  kinematic : Option ℝ
  interactive : Option ℝ
  mapBased : Option ℝ
  minAde : Option ℝ
  collisionRate : Option ℝ
  offroadRate : Option ℝ
  redLightRate : Option ℝ

/-- `aggregate_metrics_to_buckets`, metrics.py:313-342. -/
def toBuckets (c : Config) (m : Metrics) : Option Buckets := do
  let k ← bucket (kinematic c) m
  let i ← bucket (interactive c) m
  let b ← bucket (mapBased c) m
  some ⟨m.get .metametric, k, i, b, m.get .minAde, m.get .collisionRate, m.get .offroadRate, m.get .redLightRate⟩

/-- `np.mean`. -/
def mean (l : List (Option ℝ)) : Option ℝ := (l.foldl plus (some 0)).bind fun s => if l.length = 0 then none else some (s / l.length)

/-- `aggregate_scenario_metrics`, metrics.py:295-310: an empty list and a first message without an id raise. -/
def aggregate : List Metrics → Option Metrics
  | [] => none
  | m :: l =>
    if m.id = none then none
    else some ⟨none, fun f => (m.value f).map fun _ => mean ((m :: l).map fun x => x.get f)⟩

/-- `compute_kinematic_validity` of the log, metrics.py:110-112: for fewer than two steps the result has two columns. -/
def kinematicValidity (valid : T2 Bool) (second : Bool) : T2 Bool :=
  ⟨valid.rows, max valid.cols 2, fun i s =>
    let v := Kinematics.validity (valid.row i)
    (if second then v.2 else v.1).getD s false⟩

/-- `ttc_validity` and `tl_validity`, metrics.py:184-186 and 223-224. -/
def vehicleValidity (b : Bundle) : T2 Bool := ⟨b.valid.rows, b.valid.cols, fun i s => b.valid.at' i s && b.vehicle i⟩

/-- The likelihood of a feature over time, metrics.py:97-138, 164-190 and 208-218. -/
def timeLikelihood (c : FeatureConfig) (f : Feature ℝ) (valid : T2 Bool) : Option (Option ℝ) := do
  let t ← timeseries (estimateFloat c.estimator) c f.log f.sim
  let s ← averageValid t valid
  some (expScore s)

/-- An indication that something happens at a valid step, metrics.py:143-148, 195-200 and 225-230. -/
def anyStep (valid : T2 Bool) (x : ℕ → ℕ → Bool) (o : ℕ) : Bool := (List.range valid.cols).any fun s => valid.at' o s && x o s

/-- The indications of the rollouts. -/
def anyStepSim (valid : T2 Bool) (f : Feature Bool) : T2 Bool := ⟨f.sim.d0, f.sim.d1, fun r o => anyStep valid (f.sim.at' r) o⟩

/-- The likelihood of an indication, metrics.py:143-162, 195-207 and 225-235. -/
def anyLikelihood (c : FeatureConfig) (f : Feature Bool) (valid : T2 Bool) : Option (Option ℝ) := do
  let t ← scenarioLevel (estimateBool c.estimator) c valid.rows (anyStep valid f.log.at') (anyStepSim valid f)
  some (expScore (divScore (sumScores ((List.range valid.rows).map t)) valid.rows))

/-- The share of the simulated objects with an indication, metrics.py:238-261. -/
def rate (valid : T2 Bool) (f : Feature Bool) : Option ℝ :=
  let all := cells f.sim.d0 f.sim.d1
  if all.length = 0 then none else some ((all.filter fun p => (anyStepSim valid f).at' p.1 p.2).length / all.length)

/-- The mean of a row, here of the objects of a rollout. -/
def rowMean (t : T2 ℝ) (i : ℕ) : ℝ := (t.row i).sum / t.cols

/-- The average displacement error, metrics.py:91-92. -/
def averageError (t : T2 ℝ) : Option ℝ :=
  let all := cells t.rows t.cols
  if all.length = 0 then none else some ((all.map fun p => t.at' p.1 p.2).sum / all.length)

/-- The smallest average displacement error, metrics.py:93-94 (for at least one rollout and object, otherwise infinite or NaN, here `none`). -/
def minError (t : T2 ℝ) : Option ℝ :=
  if t.cols = 0 then none
  else match (List.range t.rows).map (rowMean t) with
    | [] => none
    | a :: l => some (l.foldl min a)

/-- `compute_scenario_metrics_for_features_bundle`, metrics.py:80-292. -/
def compute (c : Config) (scenarioId : String) (b : Bundle) : Option Metrics := do
  let ls ← timeLikelihood c.linearSpeed b.linearSpeed (kinematicValidity b.valid false)
  let as ← timeLikelihood c.angularSpeed b.angularSpeed (kinematicValidity b.valid false)
  let la ← timeLikelihood c.linearAccel b.linearAccel (kinematicValidity b.valid true)
  let aa ← timeLikelihood c.angularAccel b.angularAccel (kinematicValidity b.valid true)
  let co ← anyLikelihood c.collision b.collision b.valid
  let d ← timeLikelihood c.distance b.distance b.valid
  let t ← timeLikelihood c.timeToCollision b.timeToCollision (vehicleValidity b)
  let o ← anyLikelihood c.offroad b.offroad b.valid
  let e ← timeLikelihood c.roadEdge b.roadEdge b.valid
  let r ← anyLikelihood c.redLight b.redLight (vehicleValidity b)
  let likelihood : Field → Option (Option ℝ) := fun f =>
    match f with
    | .linearSpeed => some ls
    | .linearAccel => some la
    | .angularSpeed => some as
    | .angularAccel => some aa
    | .distance => some d
    | .collision => some co
    | .timeToCollision => some t
    | .roadEdge => some e
    | .offroad => some o
    | .redLight => some r
    | _ => none
  let value : Field → Option (Option ℝ) := fun f =>
    match f with
    | .metametric => some (metametric c ⟨none, likelihood⟩)
    | .ade => some (averageError b.displacement)
    | .minAde => some (minError b.displacement)
    | .collisionRate => some (rate b.valid b.collision)
    | .offroadRate => some (rate b.valid b.offroad)
    | .redLightRate => some (rate b.valid b.redLight)
    | f => likelihood f
  some ⟨some scenarioId, value⟩

/-- A histogram of the shipped configuration. -/
def shippedHistogram (lo hi : ℝ) (bins : ℕ) (weight : ℝ) (aggregate : Bool) : FeatureConfig := ⟨.histogram ⟨lo, hi, bins, 1 / 10⟩, true, weight, aggregate⟩

/-- A Bernoulli estimator of the shipped configuration, with the default pseudocount of protos/sim_agents_metrics.proto. -/
def shippedBernoulli (weight : ℝ) (aggregate : Bool) : FeatureConfig := ⟨.bernoulli (1 / 1000), false, weight, aggregate⟩

/-- challenge_2025_sim_agents_config.textproto (`false`) and challenge_2025_scenario_gen_config.textproto (`true`); in the latter the traffic light
violation is the only feature whose objects are not aggregated. -/
def shipped (gen : Bool) : Config :=
  { linearSpeed := shippedHistogram 0 25 10 (1 / 20) gen
    linearAccel := shippedHistogram (-12) 12 11 (1 / 20) gen
    angularSpeed := shippedHistogram (-628 / 1000) (628 / 1000) 11 (1 / 20) gen
    angularAccel := shippedHistogram (-314 / 100) (314 / 100) 11 (1 / 20) gen
    distance := shippedHistogram (-5) 40 10 (1 / 10) gen
    collision := shippedBernoulli (1 / 4) gen
    timeToCollision := shippedHistogram 0 5 10 (1 / 10) gen
    roadEdge := shippedHistogram (-20) 40 10 (1 / 20) gen
    offroad := shippedBernoulli (1 / 4) gen
    redLight := shippedBernoulli (1 / 20) false }

end

end Verif.SimMetrics
