import Verif.Model.Motion

/-!
# Submissions to the motion challenges

Model of `ValidateChallengePredictions` and `ConvertChallengePredictions` of metrics/motion_metrics_utils.cc (paths
relative to /repo/src/waymo_open_dataset).

* An optional field of a message that is not set has its default: identifier 0, confidence 0, a trajectory without points.
* What a failed conversion leaves in the result is left out.
-/

namespace Verif.Challenge

open Verif.Motion

/-- `Trajectory`, protos/motion_submission.proto:22-33. -/
structure Trajectory where
  xs : List ℝ
  ys : List ℝ

/-- `ScoredTrajectory`, protos/motion_submission.proto:35-43. -/
structure Scored where
  trajectory : Trajectory
  conf : ℝ

/-- `SingleObjectPrediction`, protos/motion_submission.proto:45-56. -/
structure Single where
  id : ℤ
  trajs : List Scored

/-- `ObjectTrajectory`, protos/motion_submission.proto:65-75. -/
structure ObjTraj where
  id : ℤ
  trajectory : Trajectory

/-- `ScoredJointTrajectory`, protos/motion_submission.proto:77-90. -/
structure ScoredJoint where
  trajs : List ObjTraj
  conf : ℝ

/-- The oneof of `ChallengeScenarioPredictions`, protos/motion_submission.proto:111-122. -/
inductive PredSet where
  | single (predictions : List Single)
  | joint (trajectories : List ScoredJoint)
  | unset

/-- `ChallengeScenarioPredictions`, protos/motion_submission.proto:102-123. -/
structure Submission where
  scenarioId : String
  set : PredSet

/-- `MotionChallengeSubmission::SubmissionType`, protos/motion_submission.proto:129-137; any other number of an enum
counts as unknown. -/
inductive Kind where
  | unknown
  | motion
  | interaction
  deriving DecidableEq

/-- The copy of the points of a trajectory, motion_metrics_utils.cc:153-160 and 184-192. -/
def copyPoints (id : ℤ) (t : Trajectory) : Res Traj :=
  if t.xs.length ≠ t.ys.length then .error .invalid
  else .ok ⟨id, t.xs, t.ys⟩

/-- The inner loop of `ConvertSinglePredictions`, motion_metrics_utils.cc:143-161. -/
def convertScored (id : ℤ) (s : Scored) : Res Joint := do
  let t ← copyPoints id s.trajectory
  .ok ⟨s.conf, [t]⟩

/-- `ConvertSinglePredictions`, motion_metrics_utils.cc:135-164. -/
def convertSingle (ps : List Single) (scenarioId : String) (result : Preds) : Res Preds := do
  let ms ← ps.mapM fun p => p.trajs.mapM (convertScored p.id)
  .ok ⟨scenarioId, result.multis ++ ms⟩

/-- The body of the loop of `ConvertJointPrediction`, motion_metrics_utils.cc:171-193. -/
def convertScoredJoint (j : ScoredJoint) : Res Joint :=
  if j.trajs.length ≠ 2 then .error .invalid
  else do
    let ts ← j.trajs.mapM fun t => copyPoints t.id t.trajectory
    .ok ⟨j.conf, ts⟩

/-- `ConvertJointPrediction`, motion_metrics_utils.cc:166-196. -/
def convertJoint (js : List ScoredJoint) (scenarioId : String) (result : Preds) : Res Preds := do
  let m ← js.mapM convertScoredJoint
  .ok ⟨scenarioId, result.multis ++ [m]⟩

/-- `ConvertChallengePredictions`, motion_metrics_utils.cc:205-215: what `result` holds afterwards. -/
def convert (s : Submission) (result : Preds) : Res Preds :=
  match s.set with
  | .single ps => convertSingle ps s.scenarioId result
  | .joint js => convertJoint js s.scenarioId result
  | .unset => .error .invalid

/-- `ValidateChallengePredictions`, motion_metrics_utils.cc:98-131. -/
def validate (p : Preds) (k : Kind) : Res Unit :=
  if k ≠ .motion ∧ k ≠ .interaction then .error .invalid
  else
    let expected := if k = .interaction then 2 else 1
    if k = .interaction ∧ p.multis.length > 1 then .error .invalid
    else if p.multis.any fun m => m.any fun j => decide (j.trajs.length ≠ expected) then .error .invalid
    else .ok ()

end Verif.Challenge
