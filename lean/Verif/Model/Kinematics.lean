import Verif.Model.Angles

/-!
Speeds and accelerations for the sim agents metrics: wdl_limited/sim_agents_metrics/trajectory_features.py.

A value is `Option ℝ`, where `none` is NaN.  All functions work on the last axis only, so tensors are lists here.
-/

namespace Verif.Kinematics

open Verif.Angles

noncomputable section

/-- The slices `t[2:]` and `t[:-2]` combined, with one value before and one after, trajectory_features.py:31-35 and 56-60. -/
def central {β γ : Type} (f : β → β → γ) (pad : γ) (t : List β) : List γ :=
  pad :: List.zipWith f (t.drop 2) (t.take (t.length - 2)) ++ [pad]

/-- Arithmetic with NaN. -/
def lift2 (f : ℝ → ℝ → ℝ) : Option ℝ → Option ℝ → Option ℝ
  | some a, some b => some (f a b)
  | _, _ => none

/-- `central_diff`, trajectory_features.py:13-36. -/
def centralDiff (pad : Option ℝ) (t : List (Option ℝ)) : List (Option ℝ) := central (lift2 fun a b => (a - b) / 2) pad t

/-- `central_logical_and`, trajectory_features.py:39-60. -/
def centralAnd (pad : Bool) (t : List Bool) : List Bool := central (fun a b => a && b) pad t

/-- `tf.linalg.norm` over the three components. -/
def norm3 (x y z : Option ℝ) : Option ℝ :=
  match x, y, z with
  | some a, some b, some c => some (Real.sqrt (a ^ 2 + b ^ 2 + c ^ 2))
  | _, _, _ => none

/-- The speeds and accelerations of an object. -/
structure Features where
  speed : List (Option ℝ)
  accel : List (Option ℝ)
  turn : List (Option ℝ)
  turnAccel : List (Option ℝ)

/-- `dpos`, trajectory_features.py:119-121, for a component. -/
def delta (x : List ℝ) : List (Option ℝ) := centralDiff none (x.map some)

/-- `linear_speed`, trajectory_features.py:119-121. -/
def linearSpeed (x y z : List ℝ) (dt : ℝ) : List (Option ℝ) :=
  ((delta x).zip ((delta y).zip (delta z))).map fun d => (norm3 d.1 d.2.1 d.2.2).map (· / dt)

/-- `linear_accel`, trajectory_features.py:122. -/
def linearAccel (x y z : List ℝ) (dt : ℝ) : List (Option ℝ) := (centralDiff none (linearSpeed x y z dt)).map fun v => v.map (· / dt)

/-- `_wrap_angle(central_diff(...) * 2) / 2`, trajectory_features.py:135 and 137. -/
def halfTurn (t : List (Option ℝ)) : List (Option ℝ) := (centralDiff none t).map fun v => v.map fun d => wrapAngle (d * 2) / 2

/-- `compute_kinematic_features`, trajectory_features.py:90-142. -/
def features (x y z heading : List ℝ) (dt : ℝ) : Features :=
  ⟨linearSpeed x y z dt, linearAccel x y z dt, (halfTurn (heading.map some)).map fun v => v.map (· / dt),
    (halfTurn (halfTurn (heading.map some))).map fun v => v.map (· / dt ^ 2)⟩

/-- `compute_kinematic_validity`, trajectory_features.py:145-167. -/
def validity (valid : List Bool) : List Bool × List Bool := (centralAnd false valid, centralAnd false (centralAnd false valid))

/-- `compute_displacement_error`, trajectory_features.py:63-87. -/
def displacement (p q : ℝ × ℝ × ℝ) : ℝ := Real.sqrt ((p.1 - q.1) ^ 2 + (p.2.1 - q.2.1) ^ 2 + (p.2.2 - q.2.2) ^ 2)

/-- The average displacement error of an object, metric_features.py:302-324: over the valid steps of the log; without any it is NaN. -/
def averageDisplacement (sim log : List (ℝ × ℝ × ℝ)) (valid : List Bool) : Option ℝ :=
  let n := (valid.filter id).length
  if n = 0 then none
  else some ((((sim.zip log).zip valid).map fun s => if s.2 then displacement s.1.1 s.1.2 else 0).sum / n)

end

end Verif.Kinematics
