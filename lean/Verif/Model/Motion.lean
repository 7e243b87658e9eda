import Verif.Model.Angles
import Mathlib.Analysis.SpecialFunctions.Complex.Arg
import Mathlib.Data.List.Sort

/-!
Model of the motion prediction metrics: metrics/motion_metrics.cc, metrics/motion_metrics.h and the helpers of
metrics/motion_metrics_utils.cc that they use.

Numbers are real numbers and integers are unbounded.  `Err.crash` stands for undefined behaviour or a failed `CHECK`: an
access outside a repeated field, a division by zero or a vector of negative size.  Custom metrics (the optional callback)
are not modelled.  The statistics on an error are dropped: the callers ignore them.
-/

namespace Verif.Motion

noncomputable section

/-- A failed `Status`, or a crash. -/
inductive Err where
  | invalid
  | internal
  | crash
  deriving DecidableEq

abbrev Res := Except Err

/-- Access to a repeated field with an `int` index. -/
def at' {α : Type} (l : List α) (i : ℤ) : Res α :=
  if i < 0 then .error .crash
  else match l[i.toNat]? with
    | some a => .ok a
    | none => .error .crash

/-- `MotionMetricsConfig::MeasurementStepConfig`, motion_metrics.proto. -/
structure StepCfg where
  step : ℤ
  lat : ℝ
  lon : ℝ

/-- `MotionMetricsConfig`, motion_metrics.proto. -/
structure Cfg where
  trackSps : ℤ
  predSps : ℤ
  history : ℤ
  future : ℤ
  speedLo : ℝ
  speedHi : ℝ
  scaleLo : ℝ
  scaleHi : ℝ
  steps : List StepCfg
  maxPred : ℤ

/-- `ObjectState`, scenario.proto. -/
structure State where
  x : ℝ
  y : ℝ
  heading : ℝ
  vx : ℝ
  vy : ℝ
  length : ℝ
  width : ℝ
  valid : Bool

/-- `Track::ObjectType`, scenario.proto:56-62. -/
inductive ObjType where
  | unset
  | vehicle
  | pedestrian
  | cyclist
  | other
  deriving DecidableEq

/-- `Track`, scenario.proto. -/
structure Track where
  id : ℤ
  type : ObjType
  states : List State

/-- `SingleTrajectory`, motion_submission.proto. -/
structure Traj where
  id : ℤ
  xs : List ℝ
  ys : List ℝ

/-- `JointTrajectories`. -/
structure Joint where
  conf : ℝ
  trajs : List Traj

/-- `MultimodalPrediction`: the list of its joint predictions. -/
abbrev Multi := List Joint

/-- `ScenarioPredictions`. -/
structure Preds where
  scenarioId : String
  multis : List Multi

/-- `Scenario`: the fields that the metrics read; `toPredict` holds track indices. -/
structure Scenario where
  id : String
  tracks : List Track
  toPredict : List ℤ

/-- `absl::flat_hash_map<int, const Track*>`. -/
abbrev Tracks := List (ℤ × Track)

/-! ### Validation -/

/-- motion_metrics.cc:81-83 and 175-177; `/` truncates. -/
def predictionSteps (c : Cfg) : ℤ := (c.future * c.predSps).tdiv c.trackSps

/-- `ValidateConfig`, motion_metrics.cc:67-91. -/
def validateConfig (c : Cfg) : Res Unit :=
  if c.predSps > c.trackSps then .error .invalid
  else if c.predSps = 0 then .error .crash
  else if c.trackSps.tmod c.predSps ≠ 0 then .error .invalid
  else if c.trackSps = 0 then .error .crash
  else if c.steps.any (fun s => decide (s.step > predictionSteps c ∨ s.step < 0)) then .error .invalid
  else .ok ()

/-- The same elements: equality of two `std::set`s given by lists. -/
def sameSet (a b : List ℤ) : Bool := a.all (b.contains ·) && b.all (a.contains ·)

/-- The loop of `ValidateMultiModalPrediction`, motion_metrics.cc:101-124; `ids` is `trajectory_ids`, the result holds the
inserted ids. -/
def validateMultiLoop (size : ℤ) : Multi → List ℤ → List ℤ → Res (List ℤ)
  | [], _, out => .ok out
  | j :: rest, ids, out =>
    if j.trajs.any (fun t => decide ((t.xs.length : ℤ) ≠ size ∨ (t.ys.length : ℤ) ≠ size)) then .error .invalid
    else
      let own := j.trajs.map (·.id)
      let ids := if ids.isEmpty then own else ids
      if sameSet own ids then validateMultiLoop size rest ids (out ++ own) else .error .invalid

/-- `ValidateMultiModalPrediction`, motion_metrics.cc:95-126. -/
def validateMulti (size : ℤ) (m : Multi) (out : List ℤ) : Res (List ℤ) := validateMultiLoop size m [] out

/-- The index check and look-up of motion_metrics.cc:135-141 and 1034-1039. -/
def requiredTrack (sc : Scenario) (i : ℤ) : Res Track :=
  if i ≥ sc.tracks.length ∨ i < 0 then .error .invalid else at' sc.tracks i

/-- `ValidateRequiredIds`, motion_metrics.cc:130-159. -/
def validateRequired (sc : Scenario) (predicted : List ℤ) : Res Unit := do
  let ts ← sc.toPredict.mapM (requiredTrack sc)
  if sameSet predicted (ts.map (·.id)) then .ok () else .error .invalid

/-- The loop of `ValidatePredictions`, motion_metrics.cc:183-192. -/
def validateMultis (size : ℤ) : List Multi → List ℤ → Res (List ℤ)
  | [], out => .ok out
  | m :: rest, out => do
    let out ← validateMulti size m out
    validateMultis size rest out

/-- `ValidatePredictions`, motion_metrics.cc:163-196. -/
def validatePredictions (c : Cfg) (p : Preds) (sc : Scenario) : Res Unit :=
  if p.scenarioId ≠ sc.id then .error .invalid
  else do
    let ids ← validateMultis (predictionSteps c) p.multis []
    validateRequired sc ids

/-- The map of motion_metrics.cc:1029-1040: a later track replaces an earlier one with the same id. -/
def idsToTracks : List Track → Tracks → Tracks
  | [], m => m
  | t :: ts, m => idsToTracks ts ((t.id, t) :: m.filter (fun e => e.1 != t.id))

/-- `ValidateTracks`, motion_metrics.cc:199-209. -/
def validateTracks (c : Cfg) (m : Tracks) : Res Unit :=
  if m.any (fun e => decide ((e.2.states.length : ℤ) ≠ c.history + c.future + 1)) then .error .invalid else .ok ()

/-- `GetTrack`, motion_metrics_utils.cc:217-227. -/
def getTrack (m : Tracks) (id : ℤ) : Res Track :=
  match m.find? (fun e => e.1 == id) with
  | some e => .ok e.2
  | none => .error .invalid

/-- `ValidatePredictionIds`, motion_metrics.cc:213-229. -/
def validateIds (p : Preds) (m : Tracks) : Res Unit :=
  if p.multis.any (fun mm => mm.any fun j => j.trajs.any fun t => (m.find? (fun e => e.1 == t.id)).isNone) then
    .error .invalid
  else .ok ()

/-! ### Displacements -/

/-- `PredictionToTrackStep` with `CurrentTrackStep`, motion_metrics_utils.cc:229-239. -/
def toTrackStep (c : Cfg) (step : ℤ) : ℤ := (step + 1) * c.trackSps.tdiv c.predSps + c.history

/-- `std::hypot`. -/
def hypot (x y : ℝ) : ℝ := √(x ^ 2 + y ^ 2)

/-- `DisplacementAtStep`, motion_metrics.cc:233-248. -/
def displacementAt (c : Cfg) (t : Traj) (tk : Track) (step : ℤ) : Res (Option ℝ) := do
  let s ← at' tk.states (toTrackStep c step)
  if s.valid then do
    let x ← at' t.xs step
    let y ← at' t.ys step
    pure (some (hypot (x - s.x) (y - s.y)))
  else pure none

/-- `Vec2d::Rotate`, math/vec2d.h:176-178 and 289-298. -/
def rotate (x y a : ℝ) : ℝ × ℝ := (x * Real.cos a - y * Real.sin a, x * Real.sin a + y * Real.cos a)

/-- `GetDisplacementAtStep`, motion_metrics.cc:263-284: the lateral and the longitudinal displacement. -/
def displacement2At (c : Cfg) (t : Traj) (tk : Track) (step : ℤ) : Res (Option (ℝ × ℝ)) := do
  let s ← at' tk.states (toTrackStep c step)
  if s.valid then do
    let x ← at' t.xs step
    let y ← at' t.ys step
    let d := rotate (x - s.x) (y - s.y) (-s.heading)
    pure (some (d.2, d.1))
  else pure none

/-- One round of the loop of `AverageDisplacement`, motion_metrics.cc:295-304, over the sum and the number of valid
states. -/
def averageStep (c : Cfg) (t : Traj) (tk : Track) (acc : ℝ × ℕ) (i : ℕ) : Res (ℝ × ℕ) := do
  let s ← at' tk.states (toTrackStep c i)
  if s.valid then do
    let x ← at' t.xs i
    let y ← at' t.ys i
    pure (acc.1 + hypot (x - s.x) (y - s.y), acc.2 + 1)
  else pure acc

/-- `AverageDisplacement` of one trajectory, motion_metrics.cc:289-309. -/
def averageDisplacement (c : Cfg) (t : Traj) (tk : Track) (step : ℤ) : Res (Option ℝ) := do
  let acc ← (List.range (step + 1).toNat).foldlM (averageStep c t tk) (0, 0)
  if acc.2 = 0 then pure none else pure (some (acc.1 / acc.2))

/-- The loop of `AverageDisplacement` of a joint prediction, motion_metrics.cc:325-345. -/
def jointLoop (m : Tracks) (disp : Traj → Track → Res (Option ℝ)) : List Traj → ℝ → ℕ → Res (ℝ × ℕ)
  | [], total, count => .ok (total, count)
  | t :: rest, total, count =>
    match getTrack m t.id with
    | .error _ => .error .internal
    | .ok tk => do
      let d ← disp t tk
      match d with
      | none => .ok (total, count)
      | some d => jointLoop m disp rest (total + d) (count + 1)

/-- `AverageDisplacement` of a joint prediction, motion_metrics.cc:317-356.  Without trajectories the result is the
not-a-number 0/0, which is smaller than nothing; it is `none` here. -/
def jointDisplacement (c : Cfg) (m : Tracks) (j : Joint) (step : ℤ) (final : Bool) : Res (Option ℝ) := do
  let r ← jointLoop m (fun t tk => if final then displacementAt c t tk step else averageDisplacement c t tk step)
    j.trajs 0 0
  if r.2 ≠ j.trajs.length then pure none
  else if j.trajs.length = 0 then pure none
  else pure (some (r.1 / r.2))

/-- `std::numeric_limits<double>::max()`. -/
def dblMax : ℝ := (2 - 2 ^ (-52 : ℤ)) * 2 ^ (1023 : ℤ)

/-- `Accumulator`, motion_metrics.h:39-62. -/
structure Acc where
  total : ℝ
  count : ℕ

@[ext] theorem Acc.ext' {a b : Acc} (h1 : a.total = b.total) (h2 : a.count = b.count) : a = b := by
  cases a; cases b; simp_all

/-- An empty `Accumulator`. -/
def Acc.zero : Acc := ⟨0, 0⟩

/-- `Accumulator::Add`, motion_metrics.h:44-47. -/
def Acc.add (a : Acc) (v : ℝ) : Acc := ⟨a.total + v, a.count + 1⟩

/-- `Accumulator::Accumulate`, motion_metrics.h:50-53. -/
def Acc.accumulate (a b : Acc) : Acc := ⟨a.total + b.total, a.count + b.count⟩

/-- `Accumulator::Mean`, motion_metrics.h:57-59. -/
def Acc.mean (a : Acc) : ℝ := if a.count = 0 then 0 else a.total / a.count

/-- The loop of `ComputeMinAverageDisplacement`, motion_metrics.cc:372-391; `count` predictions have been seen. -/
def minLoop (k : ℤ) (disp : Joint → Res (Option ℝ)) : Multi → ℤ → ℝ → Res ℝ
  | [], _, best => .ok best
  | j :: rest, count, best => do
    let d ← disp j
    let best := match d with
      | some d => if d < best then d else best
      | none => best
    if count + 1 = k then .ok best else minLoop k disp rest (count + 1) best

/-- `ComputeMinAverageDisplacement`, motion_metrics.cc:363-401. -/
def minDisplacement (c : Cfg) (mm : Multi) (m : Tracks) (step : ℤ) (final : Bool) : Res Acc := do
  let best ← minLoop c.maxPred (fun j => jointDisplacement c m j step final) mm 0 dblMax
  if best ≠ dblMax then pure (Acc.zero.add best) else pure Acc.zero

/-! ### Matching and the miss rate -/

/-- `SpeedScaleFactor`, motion_metrics.cc:405-435. -/
def speedScale (c : Cfg) (tk : Track) : Res ℝ :=
  if (tk.states.length : ℤ) < c.history then .error .invalid
  else if c.speedLo ≥ c.speedHi then .error .invalid
  else do
    let s ← at' tk.states c.history
    let speed := hypot s.vx s.vy
    if speed < c.speedLo then pure c.scaleLo
    else if speed > c.speedHi then pure c.scaleHi
    else pure (c.scaleLo + (c.scaleHi - c.scaleLo) * ((speed - c.speedLo) / (c.speedHi - c.speedLo)))

/-- `abs(d / scale) > threshold` in IEEE arithmetic, motion_metrics.cc:472-473 and 490-492: dividing by zero gives an
infinity, or not a number for zero. -/
def exceeds (d scale thr : ℝ) : Prop := if scale = 0 then d ≠ 0 else |d / scale| > thr

/-- The loop of `IsMatch`, motion_metrics.cc:446-478: the displacements and the scale of the trajectories up to the first
without one.  The division by the scale (472-473) is part of `exceeds`. -/
def matchLoop (c : Cfg) (m : Tracks) (step : ℤ) : List Traj → Res (List ((ℝ × ℝ) × ℝ))
  | [] => .ok []
  | t :: rest => do
    let tk ← getTrack m t.id
    let d ← displacement2At c t tk step
    match d with
    | none => .ok []
    | some d => do
      let scale ← speedScale c tk
      let l ← matchLoop c m step rest
      .ok ((d, scale) :: l)

open Classical in
/-- `IsMatch`, motion_metrics.cc:437-498. -/
def isMatch (c : Cfg) (m : Tracks) (sc : StepCfg) (j : Joint) : Res (Option Bool) := do
  let ds ← matchLoop c m sc.step j.trajs
  if ds.length ≠ j.trajs.length then pure none
  else pure (some (!ds.any fun d => decide (exceeds d.1.1 d.2 sc.lat ∨ exceeds d.1.2 d.2 sc.lon)))

/-- The loop of `ComputeMissRate`, motion_metrics.cc:511-533; the result is the measurement. -/
def missLoop (k : ℤ) (match' : Joint → Res (Option Bool)) : Multi → ℤ → Bool → Res (Option ℝ)
  | [], _, seen => .ok (if seen then some 1 else none)
  | j :: rest, count, seen => do
    let r ← match' j
    match r with
    | some true => .ok (some 0)
    | some false => if count + 1 = k then .ok (some 1) else missLoop k match' rest (count + 1) true
    | none => if count + 1 = k then .ok (if seen then some 1 else none) else missLoop k match' rest (count + 1) seen

/-- `ComputeMissRate`, motion_metrics.cc:501-544. -/
def missRate (c : Cfg) (m : Tracks) (sc : StepCfg) (mm : Multi) : Res Acc := do
  let r ← missLoop c.maxPred (isMatch c m sc) mm 0 false
  match r with
  | some v => pure (Acc.zero.add v)
  | none => pure Acc.zero

/-! ### Overlaps -/

/-- `Box2d` from its centre, heading, length and width, math/box2d.h:51-52. -/
structure Box where
  x : ℝ
  y : ℝ
  heading : ℝ
  length : ℝ
  width : ℝ

/-- `AverageAngle`, motion_metrics_utils.cc:241-244; `atan2 y x` is `Complex.arg ⟨x, y⟩`. -/
def averageAngle (a b : ℝ) : ℝ := Complex.arg ⟨Real.cos a + Real.cos b, Real.sin a + Real.sin b⟩

/-- `(Position(i) - Position(j)).Angle()`, motion_metrics_utils.cc:198-200 and math/vec2d.h:211. -/
def direction (t : Traj) (i j : ℤ) : Res ℝ := do
  let xi ← at' t.xs i
  let yi ← at' t.ys i
  let xj ← at' t.xs j
  let yj ← at' t.ys j
  pure (Complex.arg ⟨xi - xj, yi - yj⟩)

/-- The heading of a predicted trajectory at a step, motion_metrics_utils.cc:258-272. -/
def predictedHeading (t : Traj) (step : ℤ) : Res ℝ :=
  if step = 0 then direction t 1 0
  else if step = (t.xs.length : ℤ) - 1 then direction t step (step - 1)
  else do
    let a ← direction t (step + 1) step
    let b ← direction t step (step - 1)
    pure (averageAngle a b)

/-- `PredictionToPolygon` with the box dimensions of the future state, motion_metrics_utils.cc:246-279; `none` is the
empty polygon. -/
def predictionBox (c : Cfg) (t : Traj) (step : ℤ) (tk : Track) : Res (Option Box) := do
  let x ← at' t.xs step
  let y ← at' t.ys step
  if (t.xs.length : ℤ) < 2 then pure none
  else do
    let h ← predictedHeading t step
    let s ← at' tk.states (toTrackStep c step)
    pure (some ⟨x, y, h, s.length, s.width⟩)

/-- `StateToPolygon`, motion_metrics_utils.cc:281-285. -/
def stateBox (s : State) : Box := ⟨s.x, s.y, s.heading, s.length, s.width⟩

/-- The bounding box of a box contains the origin, which is the bounding box of the empty polygon (math/polygon2d.h:138,
math/vec2d.h:36). -/
def containsOrigin (b : Box) : Prop :=
  |b.x| ≤ |b.length / 2 * Real.cos b.heading| + |b.width / 2 * Real.sin b.heading| ∧
    |b.y| ≤ |b.length / 2 * Real.sin b.heading| + |b.width / 2 * Real.cos b.heading|

open Classical in
/-- `MaybeHasIntersectionWith && ComputeIntersectionArea > 0`, motion_metrics.cc:597-598; `overlaps` is its value for two
boxes.  The empty polygon has no first point to read (math/polygon2d.cc:400). -/
def polygonsOverlap (overlaps : Box → Box → Bool) (pb : Option Box) (b : Box) : Res Bool :=
  match pb with
  | some pb => .ok (overlaps pb b)
  | none => if containsOrigin b then .error .crash else .ok false

/-- The sum of motion_metrics_utils.cc:294-299. -/
def confSum (mm : Multi) : ℝ := (mm.map (·.conf)).sum

/-- `GetNormalizedConfidences`, motion_metrics_utils.cc:287-307. -/
def normalizedConfidences (mm : Multi) : List ℝ :=
  mm.map fun j => if confSum mm = 0 then 1 / mm.length else j.conf / confSum mm

/-- `vector::resize`; a negative size fails. -/
def resize (l : List ℝ) (n : ℤ) : Res (List ℝ) :=
  if n < 0 then .error .crash else .ok (l.take n.toNat ++ List.replicate (n.toNat - l.length) 0)

/-- The loop of `std::max_element` from position `i`, with the best position and value so far. -/
def maxElementLoop : List ℝ → ℕ → ℕ → ℝ → ℕ
  | [], _, best, _ => best
  | a :: rest, i, best, v => if v < a then maxElementLoop rest (i + 1) i a else maxElementLoop rest (i + 1) best v

/-- The position of `std::max_element`; that of the end for an empty range. -/
def maxElement : List ℝ → ℕ
  | [] => 0
  | a :: rest => maxElementLoop rest 1 0 a

/-- motion_metrics.cc:568-571: the index of the prediction whose overlaps count. -/
def likelyIndex (c : Cfg) (mm : Multi) : Res ℕ := do
  let l ← resize (normalizedConfidences mm) c.maxPred
  pure (maxElement l)

/-- The innermost loop of `ComputeOverlapRate`, motion_metrics.cc:586-602, for one of the tested tracks. -/
def overlapsTrack (overlaps : Box → Box → Bool) (c : Cfg) (pb : Option Box) (id step : ℤ) (tk : Track) : Res Bool :=
  if tk.id = id then .ok false
  else do
    let s ← at' tk.states (toTrackStep c step)
    if s.valid then polygonsOverlap overlaps pb (stateBox s) else pure false

/-- The loop over the steps, motion_metrics.cc:577-603. -/
def overlapsStep (overlaps : Box → Box → Bool) (c : Cfg) (m : Tracks) (tested : List Track) (t : Traj) (step : ℕ) :
    Res Bool := do
  let tk ← getTrack m t.id
  let pb ← predictionBox c t step tk
  tested.anyM (overlapsTrack overlaps c pb tk.id step)

/-- The tracks that are valid at the prediction time, motion_metrics.cc:553-559. -/
def testedTracks (c : Cfg) (sc : Scenario) : Res (List Track) := do
  let l ← sc.tracks.mapM fun tk => do
    let s ← at' tk.states c.history
    pure (tk, s.valid)
  pure ((l.filter (·.2)).map (·.1))

/-- The decision of `ComputeOverlapRate`, motion_metrics.cc:547-609. -/
def hasOverlap (overlaps : Box → Box → Bool) (c : Cfg) (step : ℤ) (mm : Multi) (m : Tracks) (sc : Scenario) :
    Res Bool := do
  let tested ← testedTracks c sc
  let i ← likelyIndex c mm
  let j ← at' mm i
  j.trajs.anyM fun t => (List.range (step + 1).toNat).anyM (overlapsStep overlaps c m tested t)

/-- `ComputeOverlapRate`, motion_metrics.cc:547-609. -/
def overlapRate (overlaps : Box → Box → Bool) (c : Cfg) (step : ℤ) (mm : Multi) (m : Tracks) (sc : Scenario) :
    Res Acc := do
  let r ← hasOverlap overlaps c step mm m sc
  pure (Acc.zero.add (if r then 1 else 0))

/-! ### Mean average precision -/

/-- `TrajectoryType`, motion_metrics_utils.h:33-43. -/
inductive TrajType where
  | stationary
  | straight
  | straightLeft
  | straightRight
  | leftUTurn
  | leftTurn
  | rightUTurn
  | rightTurn
  deriving DecidableEq

/-- The values of the enum, motion_metrics_utils.h:34-41. -/
def TrajType.index : TrajType → ℕ
  | .stationary => 0
  | .straight => 1
  | .straightLeft => 2
  | .straightRight => 3
  | .leftUTurn => 4
  | .leftTurn => 5
  | .rightUTurn => 6
  | .rightTurn => 7

/-- `NUM_TYPES`, motion_metrics_utils.h:42. -/
def numTypes : ℕ := 8

/-- `GetTrajectoryTypePriority`, motion_metrics.cc:53-64. -/
def TrajType.priority : TrajType → ℕ
  | .stationary => 0
  | .straight => 1
  | .straightRight => 2
  | .straightLeft => 3
  | .rightTurn => 4
  | .leftTurn => 5
  | .leftUTurn => 6
  | .rightUTurn => 7

/-- The last valid index after `step`, motion_metrics_utils.cc:40-47. -/
def lastValid (states : List State) (step : ℤ) : Option ℕ :=
  (List.range states.length).reverse.find? fun i =>
    decide ((i : ℤ) > step) && (match states[i]? with | some s => s.valid | none => false)

/-- The decision of `ClassifyTrack` for a start and an end state, motion_metrics_utils.cc:60-95. -/
def classify (s e : State) : TrajType :=
  let dx := e.x - s.x
  let dy := e.y - s.y
  let headingDiff := Angles.normalizeAngle (e.heading - s.heading)
  let d := rotate dx dy (-s.heading)
  let maxSpeed := max (hypot s.vx s.vy) (hypot e.vx e.vy)
  if maxSpeed < 2 ∧ hypot dx dy < 3 then .stationary
  else if |headingDiff| < Real.pi / 6 then
    if |d.2| < 5 / 2 then .straight else if d.2 < 0 then .straightRight else .straightLeft
  else if d.2 < 0 then if d.1 < 0 then .rightUTurn else .rightTurn
  else if d.1 < 0 then .leftUTurn
  else .leftTurn

/-- `ClassifyTrack`, motion_metrics_utils.cc:30-96. -/
def classifyTrack (step : ℤ) (tk : Track) : Res (Option TrajType) :=
  match lastValid tk.states step with
  | none => .ok none
  | some i => do
    let s ← at' tk.states step
    if s.valid then do
      let e ← at' tk.states i
      pure (some (classify s e))
    else pure none

/-- The loop over the trajectories of `ComputeMeanAveragePrecision`, motion_metrics.cc:656-679; the state is the type and
whether a valid one was found. -/
def typeLoop (c : Cfg) (m : Tracks) : List Traj → TrajType × Bool → Res (TrajType × Bool)
  | [], st => .ok st
  | t :: rest, st => do
    let tk ← getTrack m t.id
    let ty ← classifyTrack c.history tk
    match ty with
    | none => typeLoop c m rest st
    | some ty => typeLoop c m rest (if ty.priority > st.1.priority then ty else st.1, true)

/-- `PredictionSample`, motion_metrics.h:65-70. -/
structure Sample where
  conf : ℝ
  tp : Bool

/-- `PredictionStats`, motion_metrics.h:73-82. -/
structure PStats where
  samples : List Sample
  num : ℕ

/-- An empty `PredictionStats`. -/
def PStats.zero : PStats := ⟨[], 0⟩

open Classical in
/-- `GetSortedTrajectoryIndices`, motion_metrics.cc:613-626, as the list of predictions.  `std::sort` leaves the order of
equal confidences open; here it is a stable sort. -/
def sortedPredictions (c : Cfg) (mm : Multi) : Res (List Joint) :=
  if min (mm.length : ℤ) c.maxPred < 0 then .error .crash
  else .ok ((mm.take (min (mm.length : ℤ) c.maxPred).toNat).insertionSort fun a b => b.conf ≤ a.conf)

/-- The loop of `ComputeMeanAveragePrecision`, motion_metrics.cc:698-730, on predictions in the given order; `found` is
`already_found_positive`. -/
def sampleLoop (match' : Joint → Res (Option Bool)) (soft : Bool) : List Joint → Bool → Res (List Sample × Bool)
  | [], _ => .ok ([], false)
  | j :: rest, found => do
    let r ← match' j
    match r with
    | none => sampleLoop match' soft rest found
    | some isM => do
      let (l, _) ← sampleLoop match' soft rest (found || isM)
      let own :=
        if soft then (if isM && found then [] else [⟨j.conf, isM⟩])
        else [⟨j.conf, if found then false else isM⟩]
      .ok (own ++ l, true)

/-- The statistics of a prediction that falls into the bucket of a type, motion_metrics.cc:691-736. -/
def bucketStats (c : Cfg) (m : Tracks) (sc : StepCfg) (mm : Multi) (soft : Bool) : Res PStats := do
  let order ← sortedPredictions c mm
  let (l, taken) ← sampleLoop (isMatch c m sc) soft order false
  pure ⟨l, if taken then 1 else 0⟩

/-- `std::vector<PredictionStats>`: the buckets of `MeanAveragePrecisionStats`, motion_metrics.h:85-91. -/
abbrev MapStats := List PStats

/-- The buckets with `s` for one type. -/
def singleBucket (ty : TrajType) (s : PStats) : MapStats :=
  (List.replicate numTypes PStats.zero).set ty.index s

/-- `ComputeMeanAveragePrecision` of a prediction, motion_metrics.cc:630-738. -/
def mapStats (c : Cfg) (m : Tracks) (sc : StepCfg) (mm : Multi) (soft : Bool) : Res MapStats :=
  match mm with
  | [] => .ok (List.replicate numTypes PStats.zero)
  | j0 :: _ =>
    if j0.trajs.isEmpty then .ok (List.replicate numTypes PStats.zero)
    else do
      let (ty, found) ← typeLoop c m j0.trajs (.stationary, false)
      if found then do
        let s ← bucketStats c m sc mm soft
        pure (singleBucket (if ty = .rightUTurn then .rightTurn else ty) s)
      else pure (List.replicate numTypes PStats.zero)

/-! ### Accumulation -/

/-- `PredictionStats::Accumulate`, motion_metrics.cc:891-895. -/
def PStats.accumulate (a b : PStats) : PStats := ⟨a.samples ++ b.samples, a.num + b.num⟩

/-- `MeanAveragePrecisionStats::Accumulate`, motion_metrics.cc:897-909. -/
def accumulateMap (a b : MapStats) : Res MapStats :=
  if b = [] then .ok a
  else
    let a := if a = [] then List.replicate b.length PStats.zero else a
    if a.length ≠ b.length then .error .crash else .ok (List.zipWith PStats.accumulate a b)

/-- `MetricsStats`, motion_metrics.h:97-157. -/
structure MStats where
  ade : Acc
  fde : Acc
  miss : Acc
  overlap : Acc
  map : MapStats
  soft : MapStats

/-- A default constructed `MetricsStats`. -/
def MStats.zero : MStats := ⟨.zero, .zero, .zero, .zero, [], []⟩

/-- `MetricsStats::Accumulate`, motion_metrics.cc:878-889. -/
def MStats.accumulate (a b : MStats) : Res MStats := do
  let map ← accumulateMap a.map b.map
  let soft ← accumulateMap a.soft b.soft
  pure ⟨a.ade.accumulate b.ade, a.fde.accumulate b.fde, a.miss.accumulate b.miss, a.overlap.accumulate b.overlap,
    map, soft⟩

/-- `BucketedMetricsStats`, motion_metrics.h:164-178: a map from type and step to statistics. -/
abbrev Stats := List ((ObjType × ℤ) × MStats)

/-- The entry of a map, or a new one. -/
def Stats.get (s : Stats) (k : ObjType × ℤ) : MStats := ((s.find? fun e => e.1 == k).map (·.2)).getD MStats.zero

/-- An entry of the map is replaced or added. -/
def Stats.put : Stats → ObjType × ℤ → MStats → Stats
  | [], k, v => [(k, v)]
  | e :: rest, k, v => if e.1 = k then (k, v) :: rest else e :: Stats.put rest k v

/-- `stats[type][step].Accumulate(other)`. -/
def Stats.addTo (s : Stats) (k : ObjType × ℤ) (v : MStats) : Res Stats := do
  let r ← (s.get k).accumulate v
  pure (s.put k r)

/-- `BucketedMetricsStats::Accumulate`, motion_metrics.cc:911-918. -/
def Stats.accumulate (s other : Stats) : Res Stats := other.foldlM (fun s e => s.addTo e.1 e.2) s

/-- `BucketedMetricsStats::AccumulateAcrossTypes`, motion_metrics.cc:920-928. -/
def Stats.acrossTypes (s : Stats) : Res Stats := s.foldlM (fun r e => r.addTo (.unset, e.1.2) e.2) []

/-- `GetObjectTypePriority`, motion_metrics.cc:41-51. -/
def ObjType.priority : ObjType → ℕ
  | .unset => 0
  | .other => 1
  | .vehicle => 2
  | .pedestrian => 3
  | .cyclist => 4

/-- The object type of a prediction, motion_metrics.cc:758-784. -/
def objectType (m : Tracks) : List Traj → ObjType → Res ObjType
  | [], ty => .ok ty
  | t :: rest, ty => do
    let tk ← getTrack m t.id
    objectType m rest (if tk.type.priority > ty.priority then tk.type else ty)

/-- The statistics of one prediction at one step, motion_metrics.cc:797-857. -/
def stepStats (overlaps : Box → Box → Bool) (c : Cfg) (m : Tracks) (s : Scenario) (mm : Multi) (sc : StepCfg) :
    Res MStats := do
  let ade ← minDisplacement c mm m sc.step false
  let fde ← minDisplacement c mm m sc.step true
  let miss ← missRate c m sc mm
  let overlap ← overlapRate overlaps c sc.step mm m s
  let map ← mapStats c m sc mm false
  let soft ← mapStats c m sc mm true
  pure ⟨ade, fde, miss, overlap, map, soft⟩

/-- One prediction of `ComputeAllMetrics`, motion_metrics.cc:756-871.  The six statistics are accumulated one after the
other into the same entry; here they are accumulated together. -/
def multiStats (overlaps : Box → Box → Bool) (c : Cfg) (m : Tracks) (s : Scenario) (mm : Multi) (j0 : Joint)
    (r : Stats) : Res Stats := do
  let ty ← objectType m j0.trajs .unset
  c.steps.foldlM (fun r sc => do
    let v ← stepStats overlaps c m s mm sc
    r.addTo (ty, sc.step) v) r

/-- `ComputeAllMetrics`, motion_metrics.cc:742-874: an empty prediction ends the loop (752-755). -/
def computeAll (overlaps : Box → Box → Bool) (c : Cfg) (m : Tracks) (s : Scenario) : List Multi → Stats → Res Stats
  | [], r => .ok r
  | [] :: _, r => .ok r
  | (j0 :: js) :: rest, r =>
    if j0.trajs.isEmpty then .ok r
    else do
      let r ← multiStats overlaps c m s (j0 :: js) j0 r
      computeAll overlaps c m s rest r

/-- `ComputeMetricsStats`, motion_metrics.cc:1010-1058. -/
def computeMetricsStats (overlaps : Box → Box → Bool) (c : Cfg) (p : Preds) (s : Scenario) (r : Stats) :
    Res Stats := do
  validateConfig c
  validatePredictions c p s
  let ts ← s.toPredict.mapM (requiredTrack s)
  let m := idsToTracks ts []
  validateTracks c m
  validateIds p m
  computeAll overlaps c m s p.multis r

/-! ### The metrics -/

/-- The order of `SortSamples`, motion_metrics.cc:936-944: `a` may stand before `b`. -/
def Sample.before (a b : Sample) : Prop := b.conf < a.conf ∨ a.conf = b.conf ∧ (a.tp = true → b.tp = true)

open Classical in
/-- `SortSamples`, motion_metrics.cc:933-945. -/
def sortSamples (l : List Sample) : List Sample := l.insertionSort Sample.before

/-- The loop of `ComputePrCurve`, motion_metrics.cc:957-965, at position `i`: recall and precision. -/
def prLoop (num : ℕ) : List Sample → ℕ → ℕ → List (ℝ × ℝ)
  | [], _, _ => []
  | s :: rest, i, tps =>
    let tps := if s.tp then tps + 1 else tps
    ((tps : ℝ) / num, (tps : ℝ) / (i + 1)) :: prLoop num rest (i + 1) tps

/-- `ComputePrCurve`, motion_metrics.cc:947-967. -/
def prCurve (l : List Sample) (num : ℕ) : List (ℝ × ℝ) := prLoop num (sortSamples l) 0 0

/-- The loop of `ComputeMeanAveragePrecision`, motion_metrics.cc:983-988, on the reversed curve: the highest point and
the area. -/
def areaLoop : List (ℝ × ℝ) → (ℝ × ℝ) × ℝ → (ℝ × ℝ) × ℝ
  | [], st => st
  | p :: rest, st =>
    areaLoop rest (if p.2 > st.1.2 then (p, st.2 + st.1.2 * (st.1.1 - p.1)) else st)

/-- `ComputeMeanAveragePrecision` of a bucket, motion_metrics.cc:971-993.  With samples but a number of trajectories of
zero the recalls are not finite; this is `none`. -/
def averagePrecision (b : PStats) : Option ℝ :=
  if b.samples = [] then some 0
  else if b.num = 0 then none
  else match (prCurve b.samples b.num).reverse with
    | [] => none
    | p :: rest =>
      let st := areaLoop (p :: rest) (p, 0)
      some (st.2 + st.1.1 * st.1.2)

/-- `ComputeMapMetric`, motion_metrics.cc:995-1008. -/
def mapMetric (s : MapStats) : Option ℝ := do
  let l ← (s.filter fun b => !b.samples.isEmpty).mapM averagePrecision
  pure (if l.length = 0 then 0 else l.sum / l.length)

/-- `MotionMetricsBundle`: the metrics of a type and a step. -/
structure Bundle where
  ade : ℝ
  fde : ℝ
  miss : ℝ
  overlap : ℝ
  map : ℝ
  soft : ℝ

/-- `ComputeBundle`, motion_metrics.cc:1065-1082. -/
def bundle (s : MStats) : Option Bundle := do
  let map ← mapMetric s.map
  let soft ← mapMetric s.soft
  pure ⟨s.ade.mean, s.fde.mean, s.miss.mean, s.overlap.mean, map, soft⟩

/-- `ComputeMotionMetrics` of statistics, motion_metrics.cc:1086-1097.  The order of the bundles is that of the map, not
that of the keys. -/
def motionMetrics (s : Stats) : Option (List ((ObjType × ℤ) × Bundle)) :=
  s.mapM fun e => do
    let b ← bundle e.2
    pure (e.1, b)

/-- The loop of `ComputeMotionMetrics`, motion_metrics.cc:1140-1154; `pairs` are the predictions in the order of the hash
map, each with the scenario that is found under its key. -/
def allStats (overlaps : Box → Box → Bool) (c : Cfg) : List (Preds × Option Scenario) → Stats → Res Stats
  | [], r => .ok r
  | (_, none) :: _, _ => .error .invalid
  | (p, some s) :: rest, r => do
    let own ← computeMetricsStats overlaps c p s []
    let r ← r.accumulate own
    allStats overlaps c rest r

/-- `GetChallengeConfig`, motion_metrics.cc:1099-1130. -/
def challengeConfig : Cfg :=
  ⟨10, 2, 10, 80, 14 / 10, 11, 1 / 2, 1, [⟨5, 1, 2⟩, ⟨9, 18 / 10, 36 / 10⟩, ⟨15, 3, 6⟩], 6⟩

end

end Verif.Motion
