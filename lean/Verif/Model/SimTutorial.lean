import Verif.Model.SimAgents
import Mathlib.Data.Real.Basic
import Mathlib.Algebra.Ring.Prod
import Mathlib.Order.Lattice

/-!
Model of the code of tutorial/tutorial_sim_agents.ipynb (cells 16, 20) and of
tutorial/tutorial_scenario_gen.ipynb (cells 14, 15, 17, 21, 22): policies that simulate or generate
the agents of a scenario, and the packaging of their result for a submission.

Numbers are real.  The random numbers are arbitrary functions of rollout, object and step; that they
are normally distributed plays no role.  The trajectories are those of `Verif.SimAgents`.
-/

namespace Verif.SimTutorial

open Verif.SimAgents

/-- The four numbers of a state: x, y, z and heading; all operations are those of each number. -/
abbrev S4 := ℝ × ℝ × ℝ × ℝ

/-- `tf.stack([x, y, z, heading], axis=-1)` for one object. -/
def stackRow (x y z h : List ℝ) : List S4 := x.zip (y.zip (z.zip h))

/-- The row of states of object `k`. -/
def statesOf (t : Trajs ℝ) (k : ℕ) : Option (List S4) := do
  let x ← (t.num .x)[k]?
  let y ← (t.num .y)[k]?
  let z ← (t.num .z)[k]?
  let h ← (t.num .heading)[k]?
  pure (stackRow x y z h)

/-- `l[-i]`. -/
def fromEnd {β : Type} (l : List β) (i : ℕ) : Option β := if i ≤ l.length then l[l.length - i]? else none

/-- tutorial_sim_agents, cell 16: the last state of an object and its velocity per step; zero unless the last two states are valid. -/
def lastAndVelocity (t : Trajs ℝ) (k : ℕ) : Option (S4 × S4) := do
  let st ← statesOf t k
  let v ← t.valid[k]?
  let a ← fromEnd st 1
  let b ← fromEnd st 2
  let va ← fromEnd v 1
  let vb ← fromEnd v 2
  pure (a, if va && vb then (a.1 - b.1, a.2.1 - b.2.1, a.2.2.1 - b.2.2.1, 0) else (0, 0, 0, 0))

/-- `tf.reduce_max(velocities, axis=0)`. -/
noncomputable def maxAction : List S4 → Option S4
  | [] => none
  | v :: vs => some (vs.foldl (· ⊔ ·) v)

/-- Cell 16: one step of the simulation of one object of one rollout. -/
noncomputable def advance (vel scale : S4) (noise : ℕ → S4) (st : List S4) (k : ℕ) : List S4 :=
  st ++ [st.getLastD (0, 0, 0, 0) + (vel + noise k * scale)]

/-- Cell 16: `n` steps after `start`, without `start`. -/
noncomputable def rollout (vel scale : S4) (noise : ℕ → S4) (n : ℕ) (start : S4) : List S4 :=
  ((List.range n).foldl (advance vel scale noise) [start]).drop 1

/-- tutorial_sim_agents, cell 16: simulate_with_extrapolation: the history of the sim agents and the simulated states, by rollout, object and
step.  `noise r i k` is the random action of rollout `r`, object `i` and step `k`. -/
noncomputable def simulate (s : Scenario ℝ) (noise : ℕ → ℕ → ℕ → S4) : Option (Trajs ℝ × List (List (List S4))) := do
  let c := config .simAgents
  let t ← fromScenario s
  let ids ← simAgentIds s .simAgents
  let ids ← idTensor ids
  let t ← gatherById t ids
  let t := sliceTime 0 (some (c.current + 1)) t
  let objs ← (List.range t.id.length).mapM (lastAndVelocity t)
  let scale ← maxAction (objs.map Prod.snd)
  pure (t, (List.range c.rollouts).map fun r => objs.zipIdx.map fun o =>
    rollout o.1.2 scale (noise r o.2) c.steps o.1.1)

/-- tutorial_sim_agents, cell 20: joint_scene_from_states. -/
def sceneOf (states : List (List S4)) (ids : List ℤ) : Option (List (Sim ℝ)) :=
  (List.range ids.length).mapM fun (i : ℕ) => do
    let st ← states[i]?
    let id ← ids[i]?
    pure ⟨fun
      | .x => st.map fun p => p.1
      | .y => st.map fun p => p.2.1
      | .z => st.map fun p => p.2.2.1
      | .heading => st.map fun p => p.2.2.2
      | _ => [], [], id, 0⟩

/-- tutorial_sim_agents, cell 20: scenario_rollouts_from_states. -/
def rolloutsOf (name : String) (states : List (List (List S4))) (ids : List ℤ) : Option (Rollouts ℝ) := do
  let scenes ← states.mapM fun st => sceneOf st ids
  pure ⟨some name, scenes⟩

/-! ### tutorial_scenario_gen -/

/-- Cell 14: num_agents_per_type, as the number of agents of a type. -/
def numAgents (s : Scenario ℝ) (type : ℤ) : Option ℕ := do
  let counted ← s.tracks.mapM fun t => do
    let ids ← simAgentIds s .scenarioGen
    pure (decide (t.id ∈ ids ∧ t.type = type))
  pure (counted.count true)

/-- Cell 15: `np.zeros_like`, and the first part of the row of the first object put back. -/
def restoreFirst {β : Type} (zero : β) (histEnd : ℕ) (l : List (List β)) : List (List β) :=
  let zeros := l.map fun r => r.map fun _ => zero
  match zeros, l with
  | z :: zs, a :: _ => (a.take histEnd ++ z.drop histEnd) :: zs
  | _, _ => zeros

/-- Cell 15: strip_logged_trajectories.  No object, or objects with too few steps, are an error. -/
def strip (t : Trajs ℝ) : Option (Trajs ℝ) :=
  let cur := (config .scenarioGen).current
  if t.valid = [] ∨ t.valid.any (fun r => r.length ≤ cur) then none
  else some
    { num := fun f => restoreFirst 0 (cur + 1) (t.num f)
      valid := List.zipWith (fun r l => r.set cur (l[cur]?.getD false)) (restoreFirst false (cur + 1) t.valid) t.valid
      id := t.id
      type := t.type }

/-- Cell 17: _generate_trajectories: `init r i` is the random displacement of the initial state, `noise r i k` that of step `k`.  The
displacement of an action has the scale (5, 5, 5, 0). -/
noncomputable def generateStates (t : Trajs ℝ) (init : ℕ → ℕ → S4) (noise : ℕ → ℕ → ℕ → S4) : Option (List (List (List S4))) := do
  let c := config .scenarioGen
  let adv ← statesOf t 0
  let a ← adv[0]?
  let b ← adv[1]?
  let vel : S4 := (b.1 - a.1, b.2.1 - a.2.1, b.2.2.1 - a.2.2.1, 0)
  pure ((List.range c.rollouts).map fun r => (List.range t.valid.length).map fun i =>
    (List.range (c.steps - 1)).foldl (advance vel (5, 5, 5, 0) (noise r i)) [a + init r i])

/-- The three numbers of a size: length, width, height. -/
abbrev S3 := ℝ × ℝ × ℝ

/-- Cell 17: _generate_sizes for one object: the sum of three products with 0 or 1. -/
noncomputable def sizeOf (type : ℤ) : S3 :=
  let is (k : ℤ) : ℝ := if type = k then 1 else 0
  (4.78 * is 1 + 0.92 * is 2 + 1.70 * is 3, 2.07 * is 1 + 0.82 * is 2 + 0.82 * is 3, 1.53 * is 1 + 1.52 * is 2 + 1.76 * is 3)

/-- Cell 17: _generate_sizes. -/
noncomputable def generateSizes (t : Trajs ℝ) : List (List (List S3)) :=
  (List.range (config .scenarioGen).rollouts).map fun _ => t.type.map fun ty =>
    List.replicate (SimAgents.steps t.valid) (sizeOf ty)

/-- Cell 17: generate_with_random_policy. -/
noncomputable def generate (s : Scenario ℝ) (init : ℕ → ℕ → S4) (noise : ℕ → ℕ → ℕ → S4) :
    Option (Trajs ℝ × List (List (List S4)) × List (List (List S3))) := do
  let full ← fromScenario s
  let t ← strip full
  let ids ← simAgentIds s .scenarioGen
  let ids ← idTensor ids
  let t ← gatherById t ids
  let states ← generateStates t init noise
  pure (t, states, generateSizes t)

/-- Cell 21: joint_scene_from_states.  The message has no object type, which reads as 0, and no validity. -/
def genSceneOf (states : List (List S4)) (sizes : List (List S3)) (ids : List ℤ) : Option (List (Sim ℝ)) :=
  (List.range ids.length).mapM fun (i : ℕ) => do
    let st ← states[i]?
    let sz ← sizes[i]?
    let id ← ids[i]?
    pure ⟨fun
      | .x => st.map fun p => p.1
      | .y => st.map fun p => p.2.1
      | .z => st.map fun p => p.2.2.1
      | .heading => st.map fun p => p.2.2.2
      | .length => sz.map fun p => p.1
      | .width => sz.map fun p => p.2.1
      | .height => sz.map fun p => p.2.2, [], id, 0⟩

/-- Cell 22: scenario_rollouts_from_states. -/
def genRolloutsOf (name : String) (states : List (List (List S4))) (sizes : List (List (List S3))) (ids : List ℤ) : Option (Rollouts ℝ) := do
  let scenes ← (List.range states.length).mapM fun (r : ℕ) => do
    let st ← states[r]?
    let sz ← sizes[r]?
    genSceneOf st sz ids
  pure ⟨some name, scenes⟩

end Verif.SimTutorial
