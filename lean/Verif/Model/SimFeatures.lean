import Verif.Model.SimAgents
import Verif.Model.Interaction
import Verif.Model.Road

/-!
Assembly of the features of a scene: wdl_limited/sim_agents_metrics/metric_features.py.

`none` is an exception.  Features that the code computes for all objects of a step at once are lists over the steps of lists over the
objects, the other ones are lists over the objects; the axis of size one that is added for the samples is left out.  `order` is the
order in which Python lists a set of ids.
-/

namespace Verif.SimFeatures

open Verif.SimAgents

noncomputable section

/-- `MapFeature`, protos/map.proto: an id and at most one of a road edge and a lane with its type; other features are neither. -/
structure MapFeature where
  id : ℤ
  edge : Option (List Road.P3)
  lane : Option (ℕ × List Road.P3)

/-- The part of a scenario that is not in `SimAgents.Scenario`: `map_features` and `dynamic_map_states`. -/
structure MapData where
  features : List MapFeature
  signals : List (List Road.Signal)

/-- `MetricFeatures`, metric_features.py:30-94, for one sample. -/
structure Features where
  id : List ℤ
  type : List ℤ
  valid : List (List Bool)
  error : List (Option ℝ)
  kinematic : List Kinematics.Features
  nearest : List (List ℝ)
  collision : List (List Bool)
  time : List (List ℝ)
  edge : List (List ℝ)
  offroad : List (List Bool)
  redLight : List (List Bool)

/-- The box of an object at a step. -/
def objAt (s : ℕ) (r : Sim ℝ) : Option Interaction.Obj := do
  let x ← (r.num .x)[s]?
  let y ← (r.num .y)[s]?
  let z ← (r.num .z)[s]?
  let l ← (r.num .length)[s]?
  let w ← (r.num .width)[s]?
  let h ← (r.num .height)[s]?
  let a ← (r.num .heading)[s]?
  let v ← r.valid[s]?
  pure ⟨x, y, z, l, w, h, a, v⟩

/-- The arguments for the time to collision, metric_features.py:212-223. -/
def traj (r : Sim ℝ) : Interaction.Traj := ⟨r.num .x, r.num .y, r.num .length, r.num .width, r.num .heading, r.valid⟩

/-- The box for the distance to the road edges, metric_features.py:230-241. -/
def box (o : Interaction.Obj) : Boxes.Box := ⟨![o.x, o.y, o.z], ![o.length, o.width, o.height], o.heading⟩

/-- `config.step_duration_seconds`, submission_specs.py:78 and 87. -/
def duration : ℝ := 1 / 10

/-- The kinematic features of an object, metric_features.py:178-186. -/
def kinematic (r : Sim ℝ) : Kinematics.Features := Kinematics.features (r.num .x) (r.num .y) (r.num .z) (r.num .heading) duration

/-- The positions of an object. -/
def positions (r : Sim ℝ) : List (ℝ × ℝ × ℝ) := (r.num .x).zip ((r.num .y).zip (r.num .z))

/-- The displacement error of an object, metric_features.py:280-299. -/
def displacement (sim log : Sim ℝ) : Option ℝ := Kinematics.averageDisplacement (positions sim) (positions log) log.valid

/-- `t[:, current_time_index + 1:]` of the kinematic features, metric_features.py:302-305. -/
def cut (n : ℕ) (k : Kinematics.Features) : Kinematics.Features := ⟨k.speed.drop n, k.accel.drop n, k.turn.drop n, k.turnAccel.drop n⟩

/-- All rows of the tensors of trajectories. -/
def rows (t : Trajs ℝ) : Option (List (Sim ℝ)) := (List.range t.id.length).mapM (row t)

/-- `road_edges`, metric_features.py:226-229. -/
def roadEdges (m : MapData) : List (List Road.P3) := m.features.filterMap MapFeature.edge

/-- `lane_ids` and `lane_polylines`, metric_features.py:243-249: lanes of surface streets. -/
def lanes (m : MapData) : List (ℤ × List Road.P3) :=
  m.features.filterMap fun f => f.lane.bind fun l => if l.1 = 2 then some (f.id, l.2) else none

/-- The trajectories of a scene, metric_features.py:117-130. -/
def trajectories (scene : List (Sim ℝ)) (s : Scenario ℝ) (ch : Challenge) (logValidity : Bool) : Option (Trajs ℝ) :=
  match ch with
  | .simAgents => sceneToTrajs scene s logValidity
  | .scenarioGen => genToTrajs scene s ch

/-- `compute_distance_to_nearest_object` at all steps, metric_features.py:198-210. -/
def nearestAll (n : ℕ) (objs : List (Sim ℝ)) (mask : List Bool) : Option (List (List ℝ)) :=
  (List.range n).mapM fun s => do
    let os ← objs.mapM (objAt s)
    Interaction.nearest Interaction.roundingFactor os mask

/-- `compute_time_to_collision_with_object_in_front` at all steps, metric_features.py:212-223. -/
def timeAll (n : ℕ) (objs : List (Sim ℝ)) (mask : List Bool) : Option (List (List ℝ)) :=
  (List.range n).mapM fun s => Interaction.timeToCollision (objs.map traj) mask duration s

/-- The distance of an object to the road edges at a step. -/
def edgeAt (edges : List (List Road.P3)) (s : ℕ) (r : Sim ℝ) : Option ℝ := do
  let o ← objAt s r
  Road.roadEdge edges (box o) o.valid

/-- `compute_distance_to_road_edge`, metric_features.py:230-241. -/
def edgeAll (m : MapData) (n : ℕ) (objs : List (Sim ℝ)) (mask : List Bool) : Option (List (List ℝ)) := do
  let eval ← Interaction.gather objs (Interaction.whereTrue mask)
  (List.range n).mapM fun s => eval.mapM (edgeAt (roadEdges m) s)

/-- The violations of an object, metric_features.py:255-263. -/
def lightOf (order : List ℤ → List ℤ) (m : MapData) (r : Sim ℝ) : Option (List Bool) :=
  Road.redLight order ((r.num .x).zip (r.num .y)) r.valid ((lanes m).map Prod.snd) ((lanes m).map Prod.fst) m.signals

/-- `red_light_violations`, metric_features.py:254-273. -/
def lightAll (order : List ℤ → List ℤ) (m : MapData) (count n : ℕ) (objs : List (Sim ℝ)) (mask : List Bool) : Option (List (List Bool)) :=
  if lanes m ≠ [] ∧ m.signals ≠ [] then do
    let eval ← Interaction.gather objs (Interaction.whereTrue mask)
    eval.mapM (lightOf order m)
  else some (List.replicate count (List.replicate n false))

/-- The displacement errors, metric_features.py:280-299 and 313-317; tensors with different numbers of steps, of which none is 1, are an error. -/
def errors (ch : Challenge) (eval log : List (Sim ℝ)) (n m : ℕ) : Option (List (Option ℝ)) :=
  match ch with
  | .simAgents => if n = m then some (List.zipWith displacement eval log) else none
  | .scenarioGen => some (eval.map fun _ => some 0)

/-- `current_time_index + 1` or nothing, metric_features.py:275-320. -/
def cutoff (ch : Challenge) : ℕ :=
  match ch with
  | .simAgents => (config ch).current + 1
  | .scenarioGen => 0

open Classical in
/-- `compute_metric_features`, metric_features.py:97-348. -/
def compute (order : List ℤ → List ℤ) (s : Scenario ℝ) (m : MapData) (scene : List (Sim ℝ)) (ch : Challenge) (logValidity : Bool) :
    Option Features := do
  let sim ← trajectories scene s ch logValidity
  let log ← fromScenario s
  let log ← gatherById log sim.id
  let ids ← evaluationIds s ch
  let ids ← idTensor ids
  let eval ← gatherById sim ids
  let all ← gatherById sim (ids ++ order (sim.id.filter fun i => i ∉ ids))
  let evalLog ← gatherById log ids
  let mask := all.id.map fun i => decide (i ∈ ids)
  let n := steps all.valid
  let evalRows ← rows eval
  let logRows ← rows evalLog
  let objs ← rows all
  let near ← nearestAll n objs mask
  let time ← timeAll n objs mask
  let edge ← edgeAll m n objs mask
  let light ← lightAll order m ids.length n objs mask
  let error ← errors ch evalRows logRows n (steps evalLog.valid)
  let c := cutoff ch
  pure {
    id := eval.id
    type := eval.type
    valid := (if logValidity then evalLog.valid else eval.valid).map (List.drop c)
    error := error
    kinematic := evalRows.map fun r => cut c (kinematic r)
    nearest := near.drop c
    collision := (near.drop c).map fun l => l.map fun d => decide (d < 0)
    time := time.drop c
    edge := edge.drop c
    offroad := (edge.drop c).map fun l => l.map fun d => decide (d > 0)
    redLight := light.map (List.drop c) }

/-- `compute_scenario_rollouts_features`, metric_features.py:351-396; the samples are a list and not a tensor, and without any `tf.concat` fails. -/
def rollouts (order : List ℤ → List ℤ) (s : Scenario ℝ) (m : MapData) (scenes : List (List (Sim ℝ))) (ch : Challenge) :
    Option (Features × List Features) := do
  let logScene ← toScene s ch
  let log ← compute order s m logScene ch true
  let sims ← scenes.mapM fun scene => do
    let f ← compute order s m scene ch false
    if f.id ≠ log.id then none else some f
  if sims = [] then none else pure (log, sims)

end

end Verif.SimFeatures
