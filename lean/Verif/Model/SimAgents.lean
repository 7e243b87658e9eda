import Mathlib.Data.List.Dedup
import Mathlib.Data.List.Sort
import Mathlib.Data.Int.Order.Basic

/-!
Sim agents: utils/trajectory_utils.py, utils/sim_agents/submission_specs.py and utils/sim_agents/converters.py.

The numbers of a state are of any type; their conversion to 32 bit floats is left out.  `none` is an exception.  Tensors are lists: the first
axis is the object, the second one the time.  The seven numbers of a state are a function from the names of the fields, because every
function of trajectory_utils.py treats them alike; the functions of converters.py say for each field what they do with it.
-/

namespace Verif.SimAgents

/-- The numeric fields of an object state. -/
inductive Field
  | x | y | z | heading | length | width | height
  deriving DecidableEq

/-- `ObjectState`, protos/scenario.proto. -/
structure State (α : Type) where
  num : Field → α
  valid : Bool

/-- `Track`. -/
structure Track (α : Type) where
  id : ℤ
  type : ℤ
  states : List (State α)

/-- `Scenario`: the fields that are used. -/
structure Scenario (α : Type) where
  tracks : List (Track α)
  sdc : ℤ
  toPredict : List ℤ

/-- `ObjectTrajectories`, trajectory_utils.py:26-68. -/
@[ext] structure Trajs (α : Type) where
  num : Field → List (List α)
  valid : List (List Bool)
  id : List ℤ
  type : List ℤ

/-- `SimulatedTrajectory`, protos/sim_agents_submission.proto. -/
structure Sim (α : Type) where
  num : Field → List α
  valid : List Bool
  id : ℤ
  type : ℤ

/-- `ScenarioRollouts`. -/
structure Rollouts (α : Type) where
  scenarioId : Option String
  scenes : List (List (Sim α))

/-! ### trajectory_utils.py -/

/-- `tensor[..., start:end]` for positions that are not negative. -/
def slice {β : Type} (start : ℕ) (stop : Option ℕ) (l : List β) : List β :=
  match stop with
  | none => l.drop start
  | some s => (l.take s).drop start

/-- `ObjectTrajectories.slice_time`, trajectory_utils.py:70-96. -/
def sliceTime {α : Type} (start : ℕ) (stop : Option ℕ) (t : Trajs α) : Trajs α :=
  ⟨fun f => (t.num f).map (slice start stop), t.valid.map (slice start stop), t.id, t.type⟩

/-- `tf.gather` along the first axis; an index out of range is an error. -/
def gather {β : Type} (l : List β) (idx : List ℕ) : Option (List β) := idx.mapM fun (i : ℕ) => l[i]?

/-- `tf.gather` for all numeric fields. -/
def gatherNum {α : Type} (n : Field → List (List α)) (idx : List ℕ) : Option (Field → List (List α)) := do
  let a ← gather (n .x) idx
  let b ← gather (n .y) idx
  let c ← gather (n .z) idx
  let d ← gather (n .heading) idx
  let e ← gather (n .length) idx
  let f ← gather (n .width) idx
  let g ← gather (n .height) idx
  pure fun
    | .x => a | .y => b | .z => c | .heading => d | .length => e | .width => f | .height => g

/-- `ObjectTrajectories.gather_objects`, trajectory_utils.py:98-125. -/
def gatherObjects {α : Type} (t : Trajs α) (idx : List ℕ) : Option (Trajs α) := do
  let num ← gatherNum t.num idx
  let valid ← gather t.valid idx
  let id ← gather t.id idx
  let type ← gather t.type idx
  pure ⟨num, valid, id, type⟩

/-- `_arg_gather`, trajectory_utils.py:181-219: a matrix of comparisons, the sums of its rows, and its product with the positions. -/
def argGather (tensor reference : List ℤ) : Option (List ℕ) :=
  let mask := reference.map fun r => tensor.map fun t => if t = r then 1 else 0
  if mask.any fun row => row.sum < 1 then none
  else if mask.any fun row => row.sum > 1 then none
  else some (mask.map fun row => (row.zipWith (· * ·) (List.range tensor.length)).sum)

/-- `tf.convert_to_tensor` of a list of ids: an empty list has another type, and comparing it with ids is an error. -/
def idTensor (ids : List ℤ) : Option (List ℤ) := if ids = [] then none else some ids

/-- `ObjectTrajectories.gather_objects_by_id`, trajectory_utils.py:127-144. -/
def gatherById {α : Type} (t : Trajs α) (ids : List ℤ) : Option (Trajs α) := do
  let idx ← argGather t.id ids
  gatherObjects t idx

/-- `tf.convert_to_tensor` of a list of rows: they need equal lengths. -/
def rect {β : Type} (l : List (List β)) : Option (List (List β)) :=
  match l with
  | [] => some []
  | a :: rest => if rest.all fun b => b.length = a.length then some (a :: rest) else none

/-- `ObjectTrajectories.from_scenario`, trajectory_utils.py:146-178.  No tracks, a track without states and tracks of different lengths are
errors: the unpacking or the conversion to a tensor fails. -/
def fromScenario {α : Type} (s : Scenario α) : Option (Trajs α) :=
  if s.tracks = [] ∨ s.tracks.any (fun t => t.states.isEmpty) then none
  else do
    let valid ← rect (s.tracks.map fun t => t.states.map State.valid)
    pure ⟨fun f => s.tracks.map fun t => t.states.map fun st => st.num f, valid, s.tracks.map Track.id, s.tracks.map Track.type⟩

/-! ### submission_specs.py -/

/-- `ChallengeType`, submission_specs.py:24-36. -/
inductive Challenge
  | simAgents | scenarioGen
  deriving DecidableEq

/-- `SubmissionConfig`, submission_specs.py:40-53. -/
structure Config where
  current : ℕ
  steps : ℕ
  rollouts : ℕ

/-- `get_submission_config`, submission_specs.py:72-101. -/
def config : Challenge → Config
  | .simAgents => ⟨10, 80, 32⟩
  | .scenarioGen => ⟨10, 91, 32⟩

/-- `is_valid_sim_agent`, submission_specs.py:55-69: too few states are an error. -/
def isSimAgent {α : Type} (c : Config) (t : Track α) : Option Bool := do
  let st ← t.states[c.current]?
  pure st.valid

/-- `get_sim_agent_ids`, submission_specs.py:104-124. -/
def simAgentIds {α : Type} (s : Scenario α) (ch : Challenge) : Option (List ℤ) := do
  let flags ← s.tracks.mapM (isSimAgent (config ch))
  pure (((s.tracks.zip flags).filter fun x => x.2).map fun x => x.1.id)

/-- Indexing a sequence in Python: negative positions count from the end. -/
def pyGet {β : Type} (l : List β) (i : ℤ) : Option β :=
  if 0 ≤ i then l[i.toNat]? else if 0 ≤ i + l.length then l[(i + l.length).toNat]? else none

/-- `get_evaluation_sim_agent_ids`, submission_specs.py:127-165. -/
def evaluationIds {α : Type} (s : Scenario α) : Challenge → Option (List ℤ)
  | .simAgents => do
    let av ← pyGet s.tracks s.sdc
    let others ← s.toPredict.mapM (pyGet s.tracks)
    pure ((av.id :: others.map Track.id).dedup.insertionSort (· ≤ ·))
  | .scenarioGen => simAgentIds s .scenarioGen

/-- The checks of one trajectory, submission_specs.py:195-211. -/
def checkSim {α : Type} (steps : ℕ) (required : List ℤ) (t : Sim α) : Bool :=
  (t.num .x).length = steps ∧ (t.num .y).length = steps ∧ (t.num .z).length = steps ∧ (t.num .heading).length = steps ∧ t.id ∈ required

/-- `validate_joint_scene`, submission_specs.py:168-219: `some ()` if no exception is raised. -/
def validateScene {α : Type} (scene : List (Sim α)) (s : Scenario α) (ch : Challenge) : Option Unit := do
  let required ← simAgentIds s ch
  if scene.all (checkSim (config ch).steps required) then
    if (required.filter fun i => i ∉ scene.map Sim.id) = [] then some () else none
  else none

/-- `validate_scenario_rollouts`, submission_specs.py:222-251. -/
def validateRollouts {α : Type} (r : Rollouts α) (s : Scenario α) (ch : Challenge) : Option Unit :=
  if r.scenarioId = none then none
  else if r.scenes.length ≠ (config ch).rollouts then none
  else do
    let _ ← r.scenes.mapM fun scene => validateScene scene s ch
    pure ()

/-! ### converters.py -/

/-- The fields of one object, converters.py:109-124. -/
def row {α : Type} (t : Trajs α) (k : ℕ) : Option (Sim α) := do
  let cx ← (t.num .x)[k]?
  let cy ← (t.num .y)[k]?
  let cz ← (t.num .z)[k]?
  let h ← (t.num .heading)[k]?
  let id ← t.id[k]?
  let l ← (t.num .length)[k]?
  let w ← (t.num .width)[k]?
  let ht ← (t.num .height)[k]?
  let ty ← t.type[k]?
  let v ← t.valid[k]?
  pure ⟨fun | .x => cx | .y => cy | .z => cz | .heading => h | .length => l | .width => w | .height => ht, v, id, ty⟩

/-- `_all_tensor_length_equal`, converters.py:27-54. -/
def allEqual {α : Type} (t : Trajs α) : Bool :=
  let n := (t.num .x).length
  (t.num .y).length = n ∧ (t.num .z).length = n ∧ (t.num .heading).length = n ∧ (t.num .length).length = n ∧ (t.num .width).length = n ∧
    (t.num .height).length = n ∧ t.valid.length = n ∧ t.id.length = n ∧ t.type.length = n

/-- The last dimension of a tensor of rows; there is at least one row where it is used. -/
def steps {β : Type} (l : List (List β)) : ℕ := (l.head?.map List.length).getD 0

/-- `scenario_to_joint_scene`, converters.py:57-127. -/
def toScene {α : Type} (s : Scenario α) (ch : Challenge) : Option (List (Sim α)) := do
  let t ← fromScenario s
  let ids ← simAgentIds s ch
  let ids ← idTensor ids
  let t ← gatherById t ids
  let t := if ch = .simAgents then sliceTime ((config ch).current + 1) none t else t
  if steps t.valid ≠ (config ch).steps then none
  else if ¬ allEqual t then none
  else (List.range t.id.length).mapM (row t)

/-- The tensor of a field of the trajectories of a scene: rows of equal lengths, and at least one. -/
def sceneTensor {α β : Type} (scene : List (Sim α)) (f : Sim α → List β) : Option (List (List β)) :=
  rect (scene.map f)

/-- Repeating the last value, converters.py:192-206: an object without history is an error. -/
def repeatLast {β : Type} (n : ℕ) (l : List β) : Option (List β) := do
  let v ← l.getLast?
  pure (List.replicate n v)

/-- `tf.concat(..., axis=-1)` of two tensors of rows. -/
def concat {β : Type} (a b : List (List β)) : Option (List (List β)) :=
  if a.length = b.length then some (List.zipWith (· ++ ·) a b) else none

/-- `joint_scene_to_trajectories`, converters.py:130-225. -/
def sceneToTrajs {α : Type} (scene : List (Sim α)) (s : Scenario α) (logValidity : Bool) : Option (Trajs α) := do
  let full ← fromScenario s
  let c := config .simAgents
  let hist := sliceTime 0 (some (c.current + 1)) full
  let sx ← sceneTensor scene fun t => t.num .x
  let sy ← sceneTensor scene fun t => t.num .y
  let sz ← sceneTensor scene fun t => t.num .z
  let sh ← sceneTensor scene fun t => t.num .heading
  let ids ← idTensor (scene.map Sim.id)
  let hist ← gatherById hist ids
  let full' ← (if logValidity then gatherById full ids else some full : Option (Trajs α))
  let valid := if logValidity then (sliceTime (c.current + 1) none full').valid else sx.map fun r => r.map fun _ => true
  let sl ← (hist.num .length).mapM (repeatLast (steps sx))
  let sw ← (hist.num .width).mapM (repeatLast (steps sx))
  let st ← (hist.num .height).mapM (repeatLast (steps sx))
  let x ← concat (hist.num .x) sx
  let y ← concat (hist.num .y) sy
  let z ← concat (hist.num .z) sz
  let h ← concat (hist.num .heading) sh
  let l ← concat (hist.num .length) sl
  let w ← concat (hist.num .width) sw
  let t ← concat (hist.num .height) st
  let v ← concat hist.valid valid
  pure ⟨fun | .x => x | .y => y | .z => z | .heading => h | .length => l | .width => w | .height => t, v, ids, hist.type⟩

/-- `simulated_scenariogen_to_trajectories`, converters.py:228-315. -/
def genToTrajs {α : Type} (scene : List (Sim α)) (s : Scenario α) (ch : Challenge) : Option (Trajs α) := do
  let sx ← sceneTensor scene fun t => t.num .x
  let sy ← sceneTensor scene fun t => t.num .y
  let sz ← sceneTensor scene fun t => t.num .z
  let sh ← sceneTensor scene fun t => t.num .heading
  let sl ← sceneTensor scene fun t => t.num .length
  let sw ← sceneTensor scene fun t => t.num .width
  let st ← sceneTensor scene fun t => t.num .height
  let ids ← idTensor (scene.map Sim.id)
  let full ← fromScenario s
  let full ← gatherById full ids
  let now ← full.valid.mapM fun r => r[(config ch).current]?
  pure ⟨fun | .x => sx | .y => sy | .z => sz | .heading => sh | .length => sl | .width => sw | .height => st,
    now.map fun v => List.replicate (steps sx) v, ids, scene.map Sim.type⟩

end Verif.SimAgents
