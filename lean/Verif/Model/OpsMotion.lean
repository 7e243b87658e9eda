import Verif.Model.Motion

/-!
Model of the TensorFlow operation that evaluates motion predictions: `ParseScenarioAndPredictonsFromTensors` of
metrics/ops/utils.cc, metrics/ops/motion_metrics_ops.cc, the names of metrics/config_util.cc, and the variables of
metrics/python/motion_metrics.py.

A tensor is its shape and a function of the indices.  The object types are values of the enumeration.  `none` stands for a
failed `CHECK`.  `absl::flat_hash_map` is a list of entries; the order in which the operation visits the entries is a
parameter.  The values read into `objects_of_interest` (utils.cc:379-380) are not kept, as no metric reads them, but the
positions from which they are read are.
-/

namespace Verif.OpsMotion

open Verif.Motion

/-- The shapes of the nine tensors, in the order of the arguments of `ParseScenarioAndPredictonsFromTensors`. -/
structure Shapes where
  traj : List ℕ
  score : List ℕ
  gt : List ℕ
  valid : List ℕ
  idx : List ℕ
  mask : List ℕ
  type : List ℕ
  id : List ℕ
  scenario : List ℕ

/-- The sizes that the parser works with, utils.cc:288-294. -/
structure Dims where
  batch : ℕ
  groups : ℕ
  topK : ℕ
  agents : ℕ
  predSteps : ℕ
  total : ℕ
  gtSteps : ℕ
  deriving DecidableEq

/-- The checks of utils.cc:278-314.  The size of the last dimension of the trajectories is not checked. -/
def dims (s : Shapes) : Option Dims :=
  match s.traj, s.score, s.gt, s.valid, s.idx, s.mask, s.type, s.id, s.scenario with
  | [b, m, k, n, tp, _], [b1, m1, k1], [b2, a, tg, w], [b3, a3, tg3], [b4, m4, n4], [b5, m5, n5], [b6, a6], [b7, a7], [b8] =>
    if b1 = b ∧ m1 = m ∧ k1 = k ∧ b2 = b ∧ w = 7 ∧ b3 = b ∧ a3 = a ∧ tg3 = tg ∧ b4 = b ∧ m4 = m ∧ n4 = n ∧ b5 = b ∧
        m5 = m ∧ n5 = n ∧ b6 = b ∧ a6 = a ∧ b8 = b ∧ b7 = b ∧ a7 = a then
      some ⟨b, m, k, n, tp, a, tg⟩
    else none
  | _, _, _, _, _, _, _, _, _ => none

/-- One element of the batch: the slices of the nine tensors at the same first index.  `state j t` holds the seven numbers
of the ground truth and the flag of the validity tensor. -/
structure Elem where
  traj : (m k n t : ℕ) → ℝ × ℝ
  score : (m k : ℕ) → ℝ
  state : (j t : ℕ) → State
  idx : (m n : ℕ) → ℤ
  mask : (m n : ℕ) → Bool
  type : (j : ℕ) → ObjType
  id : (j : ℕ) → ℤ
  scenario : String

/-- Does the agent have a valid step?  utils.cc:331-337. -/
def trajectoryIsValid (d : Dims) (e : Elem) (j : ℕ) : Bool := (List.range d.gtSteps).any fun t => (e.state j t).valid

/-- The track of an agent, utils.cc:342-355. -/
def newTrack (d : Dims) (e : Elem) (j : ℕ) : Track := ⟨e.id j, e.type j, (List.range d.gtSteps).map (e.state j)⟩

/-- One agent of the loop of utils.cc:329-357; the second component is `gt_idx_to_track_idx`. -/
def addTrack (d : Dims) (e : Elem) (st : List Track × List (ℕ × ℕ)) (j : ℕ) : List Track × List (ℕ × ℕ) :=
  if trajectoryIsValid d e j then (st.1 ++ [newTrack d e j], (j, st.1.length) :: st.2) else st

/-- `gt_idx_to_track_idx[j]`: a missing entry reads as zero (and is inserted as zero, which later look-ups cannot see). -/
def trackIndex (m : List (ℕ × ℕ)) (j : ℕ) : ℕ := ((m.find? fun e => e.1 == j).map (·.2)).getD 0

/-- The checks and look-up of utils.cc:367-373 and 402-408. -/
def findTrack (d : Dims) (e : Elem) (tracks : List Track) (map : List (ℕ × ℕ)) (m n : ℕ) : Option ℕ :=
  if e.idx m n < 0 ∨ (d.total : ℤ) ≤ e.idx m n then none
  else
    let i := trackIndex map (e.idx m n).toNat
    if i < tracks.length then some i else none

/-- The agents of a group that the mask selects, utils.cc:361-362 and 399-400. -/
def selected (d : Dims) (e : Elem) (m : ℕ) : List ℕ := (List.range d.agents).filter (e.mask m)

/-- The required tracks, utils.cc:359-383. -/
def addRequired (d : Dims) (e : Elem) (tracks : List Track) (map : List (ℕ × ℕ)) : Option (List ℕ) := do
  let r ← (List.range d.groups).mapM fun m => (selected d e m).mapM fun n => findTrack d e tracks map m n
  pure r.flatten

/-- One predicted trajectory, utils.cc:401-416. -/
def newTrajectory (d : Dims) (e : Elem) (tracks : List Track) (map : List (ℕ × ℕ)) (m k n : ℕ) : Option Traj := do
  let i ← findTrack d e tracks map m n
  let tk ← tracks[i]?
  pure ⟨tk.id, (List.range d.predSteps).map fun t => (e.traj m k n t).1, (List.range d.predSteps).map fun t => (e.traj m k n t).2⟩

/-- One joint prediction, utils.cc:394-419. -/
def newJoint (d : Dims) (e : Elem) (tracks : List Track) (map : List (ℕ × ℕ)) (m k : ℕ) : Option Joint := do
  let ts ← (selected d e m).mapM fun n => newTrajectory d e tracks map m k n
  pure ⟨e.score m k, ts⟩

/-- The predictions of the groups with a selected agent, utils.cc:385-420. -/
def addMultis (d : Dims) (e : Elem) (tracks : List Track) (map : List (ℕ × ℕ)) : Option (List Multi) :=
  ((List.range d.groups).filter fun m => (List.range d.agents).any (e.mask m)).mapM fun m =>
    (List.range d.topK).mapM fun k => newJoint d e tracks map m k

/-- The positions of the object identifiers that are read as objects of interest, utils.cc:379-380: the column is the
identifier of the track. -/
def interestReads (i : ℕ) (tracks : List Track) (required : List ℕ) : List (ℕ × ℤ) :=
  required.filterMap fun r => (tracks[r]?).map fun tk => (i, tk.id)

/-- A scenario, its predictions, and the positions of the reads of the object identifiers. -/
structure Entry where
  scenario : Scenario
  preds : Preds
  reads : List (ℕ × ℤ)

/-- A fresh entry of the hash map. -/
def Entry.fresh (id : String) : Entry := ⟨⟨id, [], []⟩, ⟨id, []⟩, []⟩

/-- The body of the loop of utils.cc:319-421 for one element, whose scenario so far is `x`. -/
def parseElem (d : Dims) (i : ℕ) (e : Elem) (x : Entry) : Option Entry := do
  let st := (List.range d.total).foldl (addTrack d e) (x.scenario.tracks, [])
  let required ← addRequired d e st.1 st.2
  let multis ← addMultis d e st.1 st.2
  pure ⟨⟨e.scenario, st.1, x.scenario.toPredict ++ required.map Int.ofNat⟩, ⟨e.scenario, x.preds.multis ++ multis⟩,
    x.reads ++ interestReads i st.1 required⟩

/-- The hash map of utils.cc:316. -/
abbrev Results := List (String × Entry)

/-- `results[id]`. -/
def Results.get (r : Results) (id : String) : Entry := ((r.find? fun e => e.1 == id).map (·.2)).getD (Entry.fresh id)

/-- Replaces or adds the entry of an identifier. -/
def Results.put : Results → String → Entry → Results
  | [], id, x => [(id, x)]
  | (i, y) :: rest, id, x => if i = id then (i, x) :: rest else (i, y) :: Results.put rest id x

/-- `ParseScenarioAndPredictonsFromTensors`, utils.cc:268-423, after the checks of the shapes. -/
def parse (d : Dims) (es : List Elem) : Option Results :=
  es.zipIdx.foldlM (fun r e => do
    let x ← parseElem d e.2 e.1 (r.get e.1.scenario)
    pure (r.put e.1.scenario x)) []

/-- `GetBreakdownNamesFromMotionConfig`, config_util.cc:50-62 and config_util_py.py:166-192: the pairs that the names are
made of, `TYPE_<type>_<step>`. -/
def breakdownNames (c : Cfg) : List (ObjType × ℤ) :=
  [ObjType.vehicle, .pedestrian, .cyclist].flatMap fun ty => c.steps.map fun s => (ty, s.step)

/-- The five outputs for a type and a step, motion_metrics_ops.cc:142-154. -/
structure Row where
  ade : ℝ
  fde : ℝ
  miss : ℝ
  overlap : ℝ
  map : ℝ

/-- The map of motion_metrics_ops.cc:122-131: the last bundle of a type and a step. -/
def bundleAt (bs : List ((ObjType × ℤ) × Bundle)) (k : ObjType × ℤ) : Option Bundle :=
  (bs.reverse.find? fun e => e.1 == k).map (·.2)

/-- motion_metrics_ops.cc:139-154. -/
noncomputable def outputRow : Option Bundle → Row
  | some b => ⟨b.ade, b.fde, b.miss, b.overlap, b.map⟩
  | none => ⟨-1, -1, -1, -1, -1⟩

/-- `CreateOutput`, motion_metrics_ops.cc:114-159. -/
noncomputable def createOutput (c : Cfg) (bs : List ((ObjType × ℤ) × Bundle)) : List Row :=
  [ObjType.vehicle, .pedestrian, .cyclist].flatMap fun ty => c.steps.map fun s => outputRow (bundleAt bs (ty, s.step))

/-- One task of the pool, motion_metrics_ops.cc:200-205: an error status is stored. -/
noncomputable def task (overlaps : Box → Box → Bool) (c : Cfg) (x : Scenario × Preds) : Option (Res Stats) :=
  match computeMetricsStats overlaps c x.2 x.1 [] with
  | .error .crash => none
  | r => some r

/-- The pool of motion_metrics_ops.cc:192-207: task `i` writes slot `i`; `order` is the order in which the tasks run. -/
noncomputable def runPool (overlaps : Box → Box → Bool) (c : Cfg) (xs : List (Scenario × Preds)) (order : List ℕ) :
    Option (List (Res Stats)) :=
  order.foldlM (fun slots i => do
    let x ← xs[i]?
    let r ← task overlaps c x
    pure (slots.set i r)) (List.replicate xs.length (.ok []))

/-- The loop of motion_metrics_ops.cc:209-213. -/
noncomputable def total : List (Res Stats) → Stats → Option Stats
  | [], r => some r
  | .error _ :: _, _ => none
  | .ok s :: rest, r =>
    match r.accumulate s with
    | .ok r => total rest r
    | .error _ => none

/-- `MotionMetricsOp::Compute`, motion_metrics_ops.cc:56-82 and 162-217: `view` is the order of the hash map, `order` that
of the tasks. -/
noncomputable def motionOp (overlaps : Box → Box → Bool) (c : Cfg) (view : Results → Results) (order : List ℕ)
    (s : Shapes) (es : List Elem) : Option (List Row) := do
  let d ← dims s
  let rs ← parse d es
  let xs := (view rs).map fun e => (e.2.scenario, e.2.preds)
  let slots ← runPool overlaps c xs order
  let stats ← total slots []
  let bs ← motionMetrics stats
  pure (createOutput c bs)

/-! ### motion_metrics.py -/

/-- The object identifiers used when none are given, motion_metrics.py:127-130: the positions of the agents. -/
def defaultObjects (batch : List Elem) : List Elem := batch.map fun e => { e with id := fun j => j }

/-- The scenario identifiers used when none are given, motion_metrics.py:134-136: the positions within the update. -/
def defaultScenarios (batch : List Elem) : List Elem := batch.zipIdx.map fun e => { e.1 with scenario := toString e.2 }

/-- The variables after some updates, motion_metrics.py:36-53: the batches one after the other. -/
def stored (batches : List (List Elem)) : List Elem := batches.flatten

/-- The assertions of motion_metrics.py:110-132 about the static shapes. -/
def assertions (s : Shapes) : Bool :=
  match s.traj, s.score, s.gt, s.valid, s.idx, s.mask, s.type, s.id with
  | [_, m, k, n, _, two], [_, m1, k1], [_, a, tg, w], [_, a3, tg3], [_, m4, n4], [_, m5, n5], [_, a6], [_, a7] =>
    decide (two = 2 ∧ a = n ∧ w = 7 ∧ a3 = n ∧ tg3 = tg ∧ m4 = m ∧ n4 = n ∧ m5 = m ∧ n5 = n ∧ m1 = m ∧ k1 = k ∧ a6 = n ∧
      a7 = n)
  | _, _, _, _, _, _, _, _ => false

end Verif.OpsMotion
