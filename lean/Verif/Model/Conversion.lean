import Mathlib.Data.Real.Sqrt
import Mathlib.Algebra.Order.Floor.Semiring
import Mathlib.Analysis.SpecialFunctions.Complex.Arg

/-!
Conversion of a `Scenario` to a `tf.Example`: data_conversion/scenario_conversion.cc.

Numbers are real numbers; `rd` is the rounding to a `float`, an unknown function that every value passes that the code stores as one.  The
sizes of the configuration are natural numbers.  The map of the features and the map of the counters are lists of the additions in the
order in which they are made: the tensor of a key is the list of the values added under it.  A pointer to a track is its index.  `none` is
a crash or undefined behaviour (a failing `CHECK`, an index out of range).  `ScenarioToExample` is the only caller of the functions of the
`internal` name space and passes `num_steps - 1` as `last_timestamps_step`; the step of `t` is then `t`, and the current step is
`num_past_steps - 1`.  `AddSinglePointFeature` and the prefix `sdc/` of `AddStateFeatures` have no callers and are left out.
-/

namespace Verif.Conversion

noncomputable section

/-- `Vec3d`, math/vec3d.h:25-69. -/
@[ext] structure V3 where
  x : ℝ
  y : ℝ
  z : ℝ

/-- `operator+`, vec3d.h:37-39. -/
def V3.add (a b : V3) : V3 := ⟨a.x + b.x, a.y + b.y, a.z + b.z⟩

/-- `operator-`, vec3d.h:43-45. -/
def V3.sub (a b : V3) : V3 := ⟨a.x - b.x, a.y - b.y, a.z - b.z⟩

/-- The unary `operator-`, vec3d.h:41. -/
def V3.neg (a : V3) : V3 := ⟨-a.x, -a.y, -a.z⟩

/-- `operator*` with a number, vec3d.h:47-49. -/
def V3.smul (s : ℝ) (a : V3) : V3 := ⟨s * a.x, s * a.y, s * a.z⟩

/-- `operator/`, vec3d.h:51-53. -/
def V3.div (a : V3) (s : ℝ) : V3 := ⟨a.x / s, a.y / s, a.z / s⟩

/-- `Sqr`, vec3d.h:34. -/
def V3.sqr (a : V3) : ℝ := a.x * a.x + a.y * a.y + a.z * a.z

/-- `Length`, vec3d.h:35. -/
def V3.len (a : V3) : ℝ := Real.sqrt a.sqr

/-- `Normalized`, vec3d.h:55-61. -/
def V3.normalized (a : V3) : V3 := if 0 < a.len then a.div a.len else ⟨0, 0, 0⟩

/-- The time frames in the keys. -/
inductive Frame
  | past
  | current
  | future
  deriving DecidableEq

/-- The keys of one value per agent, `state/…`, scenario_conversion.cc:622-660. -/
inductive AgentField
  | id
  | type
  | interest
  | isSdc
  | isContext
  | toPredict
  | difficulty
  deriving DecidableEq

/-- The keys of one value per agent and step, `state/<frame>/…`, scenario_conversion.cc:696-758. -/
inductive StateField
  | timestamp
  | valid
  | x
  | y
  | z
  | width
  | length
  | height
  | velocityX
  | velocityY
  | speed
  | bboxYaw
  | velYaw
  deriving DecidableEq

/-- The keys of one value per traffic light and step, `traffic_light_state/<frame>/…`, scenario_conversion.cc:928-967; `timestamp_micros`
has one value per step. -/
inductive LightField
  | timestamp
  | x
  | y
  | z
  | state
  | id
  | valid
  deriving DecidableEq

/-- `roadgraph_samples/…`, scenario_conversion.cc:375-391. -/
inductive RoadField
  | id
  | type
  | valid
  | xyz
  | dir
  deriving DecidableEq

/-- The keys of the features. -/
inductive Key
  | scenarioId
  | agent (f : AgentField)
  | state (fr : Frame) (f : StateField)
  | light (fr : Frame) (f : LightField)
  | road (f : RoadField)
  deriving DecidableEq

/-- A value in a `float_list`, an `int64_list` or a `bytes_list`. -/
inductive Val
  | float (x : ℝ)
  | int (n : ℤ)
  | bytes (s : String)

/-- An addition to the features (`Add…Feature`, scenario_conversion.cc:103-127) or to the counters (`IncrementCounter`, 555-566). -/
inductive Ev
  | feat (k : Key) (v : Val)
  | count (c : String) (n : ℤ)

/-- What the function for one key adds. -/
def Ev.at (k : Key) : Ev → Option Val
  | .feat k' v => if k' = k then some v else none
  | .count _ _ => none

/-- The tensor of a key in the resulting `Example`. -/
def tensor (k : Key) (l : List Ev) : List Val := l.filterMap (Ev.at k)

/-- What the addition adds to a counter. -/
def Ev.amount (c : String) : Ev → ℤ
  | .count c' n => if c' = c then n else 0
  | .feat _ _ => 0

/-- The final value of a counter that starts at 0. -/
def counter (c : String) (l : List Ev) : ℤ := (l.map (Ev.amount c)).sum

/-- `MotionExampleConversionConfig`, protos/conversion_config.proto:23-76. -/
structure Config where
  maxAgents : ℕ
  maxModeled : ℕ
  past : ℕ
  future : ℕ
  maxRoad : ℕ
  sourceSpacing : ℝ
  polylineSpacing : ℝ
  polygonSpacing : ℝ
  maxLights : ℕ

/-- `ObjectState`, protos/scenario.proto. -/
structure ObjState where
  x : ℝ
  y : ℝ
  z : ℝ
  length : ℝ
  width : ℝ
  height : ℝ
  heading : ℝ
  vx : ℝ
  vy : ℝ
  valid : Bool

/-- `Track`, protos/scenario.proto; the type is the number of the enumeration, 0 for `TYPE_UNSET`. -/
structure Track where
  id : ℤ
  type : ℕ
  states : List ObjState

/-- `TrafficSignalLaneState`, protos/map.proto. -/
structure LaneState where
  lane : ℤ
  state : ℕ
  stop : V3

/-- The `oneof feature_data`, protos/map.proto:76-84; lanes, lines and edges with the number of their type. -/
inductive FeatureData
  | lane (type : ℤ) (polyline : List V3)
  | roadLine (type : ℤ) (polyline : List V3)
  | roadEdge (type : ℤ) (polyline : List V3)
  | stopSign (position : V3)
  | crosswalk (polygon : List V3)
  | speedBump (polygon : List V3)
  | driveway (polygon : List V3)
  | notSet

/-- `FeatureDataCase`. -/
inductive Kind
  | lane
  | roadLine
  | roadEdge
  | stopSign
  | crosswalk
  | speedBump
  | driveway
  | notSet
  deriving DecidableEq

/-- `feature_data_case`. -/
def FeatureData.kind : FeatureData → Kind
  | .lane _ _ => .lane
  | .roadLine _ _ => .roadLine
  | .roadEdge _ _ => .roadEdge
  | .stopSign _ => .stopSign
  | .crosswalk _ => .crosswalk
  | .speedBump _ => .speedBump
  | .driveway _ => .driveway
  | .notSet => .notSet

/-- `MapFeature`, protos/map.proto. -/
structure MapFeature where
  id : ℤ
  data : FeatureData

/-- `Scenario`, protos/scenario.proto; `predict` has for every entry of `tracks_to_predict` the index and the difficulty. -/
structure Scenario where
  id : String
  timestamps : List ℝ
  tracks : List Track
  lights : List (List LaneState)
  map : List MapFeature
  sdc : ℤ
  interest : List ℤ
  predict : List (ℤ × ℕ)

/-- The conversion of a floating point number to an integer: towards 0. -/
def trunc (x : ℝ) : ℤ := if 0 ≤ x then ⌊x⌋ else ⌈x⌉

/-! ### The road graph -/

/-- `GetLaneType`, scenario_conversion.cc:42-56. -/
def laneType (t : ℤ) : ℤ := if t = 0 then 0 else if t = 1 then 1 else if t = 2 then 2 else if t = 3 then 3 else -1

/-- `GetRoadLineType`, scenario_conversion.cc:58-82. -/
def roadLineType (t : ℤ) : ℤ :=
  if t = 0 then 5 else if t = 1 then 6 else if t = 2 then 7 else if t = 3 then 8 else if t = 4 then 9 else if t = 5 then 10
  else if t = 6 then 11 else if t = 7 then 12 else if t = 8 then 13 else -1

/-- `GetRoadEdgeType`, scenario_conversion.cc:84-96. -/
def roadEdgeType (t : ℤ) : ℤ := if t = 0 then 14 else if t = 1 then 15 else if t = 2 then 16 else -1

/-- `GetMapFeatureType` for a feature, scenario_conversion.cc:98-101, 195-224 and the calls in 399-466. -/
def FeatureData.type : FeatureData → ℤ
  | .lane t _ => laneType t
  | .roadLine t _ => roadLineType t
  | .roadEdge t _ => roadEdgeType t
  | .stopSign _ => 17
  | .crosswalk _ => 18
  | .speedBump _ => 19
  | .driveway _ => 20
  | .notSet => -1

/-- `InterpolatePoint`, scenario_conversion.cc:159-163. -/
def interpolatePoint (left right : V3) (alpha : ℝ) : V3 := left.add ((right.sub left).smul alpha)

/-- `InterpolateCubicSpline`, scenario_conversion.cc:182-189. -/
def cubicSpline (p0 p1 p2 p3 : V3) (alpha : ℝ) : V3 :=
  let a := V3.smul 0.5 ((((p0.neg.add (p1.smul 3)).sub (p2.smul 3))).add p3)
  let b := V3.smul 0.5 ((((p0.smul 2).sub (p1.smul 5)).add (p2.smul 4)).sub p3)
  let c := V3.smul 0.5 (p0.neg.add p2)
  p1.add ((c.add ((b.add (a.smul alpha)).smul alpha)).smul alpha)

/-- `ComputeDirectionVectors`, scenario_conversion.cc:166-176, for at least one point. -/
def directions : List V3 → List V3
  | [] => []
  | [_] => [⟨0, 0, 0⟩]
  | p :: q :: l => (q.sub p).normalized :: directions (q :: l)

/-- `sample_spacing`, scenario_conversion.cc:833-835. -/
def Config.spacing (cfg : Config) : ℝ := if cfg.polylineSpacing ≤ 0 then cfg.sourceSpacing else cfg.polylineSpacing

/-- The `k`-th point of the loop, scenario_conversion.cc:849-866; `none` where the loop ends. -/
def samplePoint (cfg : Config) (P : List V3) (k : ℕ) : Option V3 :=
  let distance := (k : ℝ) * cfg.spacing
  let left := ⌊distance / cfg.sourceSpacing⌋₊
  if P.length ≤ left + 1 then none
  else
    let alpha := (distance - left * cfg.sourceSpacing) / cfg.sourceSpacing
    let pt := fun (i : ℕ) => P.getD i ⟨0, 0, 0⟩
    some (if left < 1 ∨ P.length < left + 3 then interpolatePoint (pt left) (pt (left + 1)) alpha
      else cubicSpline (pt (left - 1)) (pt left) (pt (left + 1)) (pt (left + 2)) alpha)

/-- The loop from the point `k`, with the room that is left, scenario_conversion.cc:847-869. -/
def sampleLoop (cfg : Config) (P : List V3) : ℕ → ℕ → List V3
  | 0, _ => []
  | room + 1, k =>
    match samplePoint cfg P k with
    | none => []
    | some p => p :: sampleLoop cfg P room (k + 1)

/-- The points of a polyline, scenario_conversion.cc:827-881; a source spacing that is not positive divides by zero or makes the indices
negative. -/
def polylineSamples (cfg : Config) (P : List V3) (num : ℕ) : Option (List V3) :=
  match P.getLast? with
  | none => some []
  | some last =>
    if cfg.sourceSpacing ≤ 0 then none
    else
      let pts := sampleLoop cfg P (cfg.maxRoad - num) 0
      if num + pts.length < cfg.maxRoad then
        match pts.getLast? with
        | none => some [last]
        | some q => some (if 0.01 * 0.01 < (last.sub q).sqr then pts ++ [last] else pts)
      else some pts

/-- `AddSampledPolygonSegment`, scenario_conversion.cc:531-553: the points it adds. -/
def segmentSamples (cfg : Config) (a b : V3) (num : ℕ) : List V3 :=
  if cfg.maxRoad ≤ num then []
  else if cfg.polygonSpacing ≤ 0 then [a]
  else
    let ray := b.sub a
    let n := max (trunc (1 + ray.len / cfg.polygonSpacing)).toNat 2
    (List.range (min (n - 1) (cfg.maxRoad - num))).map fun (j : ℕ) => a.add ((ray.smul (j : ℝ)).div ((n - 1 : ℕ) : ℝ))

/-- The first `N-1` segments of a polygon, scenario_conversion.cc:797-808. -/
def polygonLoop (cfg : Config) : List V3 → ℕ → List V3
  | a :: b :: l, num =>
    let s := segmentSamples cfg a b num
    if cfg.maxRoad ≤ num + s.length then s else s ++ polygonLoop cfg (b :: l) (num + s.length)
  | _, _ => []

/-- The points of a polygon, scenario_conversion.cc:792-817; without any vertex the code reads the vertex −1. -/
def polygonSamples (cfg : Config) (P : List V3) (num : ℕ) : Option (List V3) :=
  match P.head?, P.getLast? with
  | some first, some last =>
    let pts := polygonLoop cfg P num
    let pts := pts ++ segmentSamples cfg last first (num + pts.length)
    some (if num + pts.length < cfg.maxRoad then pts ++ [first] else pts)
  | _, _ => none

/-- The points of a feature, scenario_conversion.cc:394-467: nothing if the maximum is reached. -/
def featureSamples (cfg : Config) (d : FeatureData) (num : ℕ) : Option (List V3) :=
  if cfg.maxRoad ≤ num then some []
  else match d with
    | .lane _ P | .roadLine _ P | .roadEdge _ P => polylineSamples cfg P num
    | .stopSign p => polylineSamples cfg [p] num
    | .crosswalk P | .speedBump P | .driveway P => polygonSamples cfg P num
    | .notSet => some []

/-- One sample in the features, scenario_conversion.cc:375-391 and 515-525. -/
def roadEvents (rd : ℝ → ℝ) (id type valid : ℤ) (p d : V3) : List Ev :=
  [.feat (.road .id) (.int id), .feat (.road .type) (.int type), .feat (.road .valid) (.int valid),
    .feat (.road .xyz) (.float (rd p.x)), .feat (.road .xyz) (.float (rd p.y)), .feat (.road .xyz) (.float (rd p.z)),
    .feat (.road .dir) (.float (rd d.x)), .feat (.road .dir) (.float (rd d.y)), .feat (.road .dir) (.float (rd d.z))]

/-- `AddRoadgraphSample`, scenario_conversion.cc:394-467, with `AddRoadgraphData` (364-392): the new number of points and the additions. -/
def addRoadSample (cfg : Config) (rd : ℝ → ℝ) (num : ℕ) (f : MapFeature) : Option (ℕ × List Ev) :=
  (featureSamples cfg f.data num).map fun pts =>
    (num + pts.length, (pts.zip (directions pts)).flatMap fun pd => roadEvents rd f.id f.data.type 1 pd.1 pd.2)

/-- `GetFeaturePriorityList`, scenario_conversion.cc:229-233. -/
def priorities : List Kind := [.lane, .roadLine, .stopSign, .crosswalk, .speedBump, .roadEdge]

/-- The features in the order of the loops, scenario_conversion.cc:485-507. -/
def prioritized (fs : List MapFeature) : List MapFeature :=
  (priorities.flatMap fun k => fs.filter fun f => f.data.kind = k) ++ fs.filter fun f => ¬ f.data.kind ∈ priorities

/-- The loops over the features. -/
def addRoadFeatures (cfg : Config) (rd : ℝ → ℝ) : ℕ → List MapFeature → Option (ℕ × List Ev)
  | num, [] => some (num, [])
  | num, f :: fs => do
    let (num1, e1) ← addRoadSample cfg rd num f
    let (num2, e2) ← addRoadFeatures cfg rd num1 fs
    some (num2, e1 ++ e2)

/-- `AddRoadGraphSamples`, scenario_conversion.cc:476-526. -/
def addRoad (cfg : Config) (rd : ℝ → ℝ) (fs : List MapFeature) : Option (List Ev) := do
  let (num, e) ← addRoadFeatures cfg rd 0 (prioritized fs)
  some (e ++ [.count "Road_Graph_Samples_Valid_Points" num, .count "Road_Graph_Samples_Padded_Points" ((cfg.maxRoad : ℤ) - num)] ++
    (List.replicate (cfg.maxRoad - num) (roadEvents id (-1) (-1) 0 ⟨-1, -1, -1⟩ ⟨-1, -1, -1⟩)).flatten)

/-! ### Traffic lights -/

/-- The number of steps, scenario_conversion.cc:663 and 901. -/
def Config.steps (cfg : Config) : ℕ := cfg.future + cfg.past

/-- The time frame of a step, scenario_conversion.cc:667-674 and 905-912. -/
def frame (cfg : Config) (t : ℕ) : Frame := if t + 1 < cfg.past then .past else if t + 1 = cfg.past then .current else .future

/-- `t_timestamps_seconds` in microseconds as an integer, scenario_conversion.cc:692-699. -/
def micros (rd : ℝ → ℝ) (ts : List ℝ) (t : ℕ) : ℤ := trunc ((match ts[t]? with | some s => rd s | none => -1) * 1000000)

/-- The values of one traffic light, scenario_conversion.cc:938-967.  The identifier of the lane is in a conditional expression with a
`float` and so becomes one. -/
def lightEvents (rd : ℝ → ℝ) (fr : Frame) (s : Option LaneState) : List Ev :=
  match s with
  | none => [.feat (.light fr .x) (.float (-1)), .feat (.light fr .y) (.float (-1)), .feat (.light fr .z) (.float (-1)),
      .feat (.light fr .state) (.int (-1)), .feat (.light fr .id) (.int (-1)), .feat (.light fr .valid) (.int 0)]
  | some s => [.feat (.light fr .x) (.float (rd s.stop.x)), .feat (.light fr .y) (.float (rd s.stop.y)),
      .feat (.light fr .z) (.float (rd s.stop.z)), .feat (.light fr .state) (.int (trunc (rd s.state))),
      .feat (.light fr .id) (.int (trunc (rd s.lane))), .feat (.light fr .valid) (.int 1)]

/-- One step of the traffic lights, scenario_conversion.cc:904-978. -/
def lightStep (cfg : Config) (rd : ℝ → ℝ) (sc : Scenario) (t : ℕ) : List Ev :=
  let fr := frame cfg t
  match sc.lights[t]? with
  | none => [.count "Traffic_Light_State_Not_Enough_Steps" 1, .feat (.light fr .timestamp) (.int (-1))] ++
      ((List.range cfg.maxLights).flatMap fun _ => lightEvents rd fr none) ++
      [.count "Padded_Traffic_Light_State_Features" cfg.maxLights]
  | some ls => [.feat (.light fr .timestamp) (.int (micros rd sc.timestamps t))] ++
      ((List.range cfg.maxLights).flatMap fun i => lightEvents rd fr ls[i]?) ++
      [.count "Actual_Traffic_Light_State_Features" ls.length,
        .count "Padded_Traffic_Light_State_Features" ((cfg.maxLights : ℤ) - ls.length)]

/-- `AddTrafficLightStateFeatures`, scenario_conversion.cc:891-981. -/
def addLights (cfg : Config) (rd : ℝ → ℝ) (sc : Scenario) : List Ev := (List.range cfg.steps).flatMap (lightStep cfg rd sc)

/-! ### Agents -/

/-- `states()[current_timestamp_steps]`. -/
def Track.now (cfg : Config) (t : Track) : Option ObjState := if cfg.past = 0 then none else t.states[cfg.past - 1]?

/-- The search for the track of one object of interest from index `i` on, scenario_conversion.cc:138-147. -/
def findTrack (cfg : Config) (keep : Bool) (id : ℤ) : ℕ → List Track → Option (Option ℕ)
  | _, [] => some none
  | i, t :: l =>
    if t.id = id then
      (if keep then some (some i)
      else match t.now cfg with
        | none => none
        | some s => if s.valid then some (some i) else findTrack cfg keep id (i + 1) l)
    else findTrack cfg keep id (i + 1) l

/-- `GetObjectsOfInterest`, scenario_conversion.cc:134-150. -/
def objectsOfInterest (cfg : Config) (keep : Bool) (sc : Scenario) : Option (List ℕ) :=
  (sc.interest.mapM fun id => findTrack cfg keep id 0 sc.tracks).map List.reduceOption

/-- One entry of `tracks_to_predict`, scenario_conversion.cc:599-608. -/
def modelStep (cfg : Config) (sc : Scenario) (acc : List ℕ) (e : ℤ × ℕ) : Option (List ℕ) :=
  if (sc.tracks.length : ℤ) ≤ e.1 ∨ e.1 < 0 then none
  else match sc.tracks[e.1.toNat]? with
    | none => none
    | some t => match t.now cfg with
      | none => none
      | some s => some (if s.valid ∧ acc.length < cfg.maxModeled then
          (if e.1.toNat ∈ acc then acc else acc ++ [e.1.toNat]) else acc)

/-- `GetModeledAgents`, scenario_conversion.cc:582-611: the objects of interest are looked up and not used. -/
def modeledAgents (cfg : Config) (sc : Scenario) : Option (List ℕ) := do
  let _ ← objectsOfInterest cfg false sc
  sc.predict.foldlM (modelStep cfg sc) []

/-- `DifficultyLevel`, scenario_conversion.cc:569-580. -/
def difficulty (sc : Scenario) (i : ℕ) : ℤ :=
  match sc.predict.find? fun e => e.1 = (i : ℤ) with
  | some e => e.2
  | none => 0

/-- `obj_state`, scenario_conversion.cc:685-690. -/
def stateAt (tr : Option Track) (t : ℕ) : Option ObjState :=
  match tr with
  | none => none
  | some tr => if tr.type = 0 then none
    else match tr.states[t]? with
      | none => none
      | some s => if s.valid then some s else none

/-- The value of one field of a state, scenario_conversion.cc:692-758; `us` is the time of the step. -/
def stateVal (rd : ℝ → ℝ) (us : ℤ) (s : Option ObjState) : StateField → Val
  | .timestamp => .int (match s with | none => -1 | some _ => us)
  | .valid => .int (match s with | none => 0 | some _ => 1)
  | .x => .float (match s with | none => -1 | some s => rd s.x)
  | .y => .float (match s with | none => -1 | some s => rd s.y)
  | .z => .float (match s with | none => -1 | some s => rd s.z)
  | .width => .float (match s with | none => -1 | some s => rd s.width)
  | .length => .float (match s with | none => -1 | some s => rd s.length)
  | .height => .float (match s with | none => -1 | some s => rd s.height)
  | .velocityX => .float (match s with | none => -1 | some s => rd s.vx)
  | .velocityY => .float (match s with | none => -1 | some s => rd s.vy)
  | .speed => .float (match s with | none => -1 | some s => rd (Real.sqrt (s.vx * s.vx + s.vy * s.vy)))
  | .bboxYaw => .float (match s with | none => -1 | some s => rd s.heading)
  | .velYaw => .float (match s with | none => -1 | some s => rd (Complex.arg ⟨s.vx, s.vy⟩))

/-- The fields in the order of the code. -/
def stateFields : List StateField :=
  [.timestamp, .valid, .x, .y, .z, .width, .length, .height, .velocityX, .velocityY, .speed, .bboxYaw, .velYaw]

/-- The values of an agent that do not change, scenario_conversion.cc:624-660. -/
def agentEvents (rd : ℝ → ℝ) (tr : Option Track) (sdc ctx interest : Bool) (diff : ℤ) : List Ev :=
  match tr with
  | none => [.feat (.agent .id) (.float (-1)), .feat (.agent .type) (.float (-1)), .feat (.agent .interest) (.int (-1)),
      .feat (.agent .isSdc) (.int (-1)), .feat (.agent .isContext) (.int (-1)), .feat (.agent .toPredict) (.int (-1)),
      .feat (.agent .difficulty) (.int (-1)), .count "Padded_State_Feature" 1]
  | some tr => [.feat (.agent .id) (.float (rd tr.id)), .feat (.agent .type) (.float (rd tr.type)),
      .feat (.agent .isSdc) (.int (if sdc then 1 else 0)), .feat (.agent .isContext) (.int (if ctx then 1 else 0)),
      .feat (.agent .toPredict) (.int (if ctx then 0 else 1)), .feat (.agent .difficulty) (.int diff),
      .feat (.agent .interest) (.int (if interest then 1 else 0)), .count "Agents_State_Feature" 1,
      .count s!"Object_Type_{tr.type}" 1]

/-- The counters of a step, scenario_conversion.cc:682-684 and 704-708. -/
def stateCounts (tr : Option Track) (t : ℕ) : List Ev :=
  (match tr with
    | none => []
    | some tr => if tr.states.length ≤ t then [.count "Track_State_Not_Enough_Steps" 1] else []) ++
  (match stateAt tr t with | none => [] | some _ => [.count "Valid_Object_State" 1])

/-- `AddStateFeatures`, scenario_conversion.cc:613-760. -/
def addState (cfg : Config) (rd : ℝ → ℝ) (ts : List ℝ) (tr : Option Track) (sdc ctx interest : Bool) (diff : ℤ) : List Ev :=
  agentEvents rd tr sdc ctx interest diff ++
    (List.range cfg.steps).flatMap fun t =>
      stateCounts tr t ++ stateFields.map fun f => .feat (.state (frame cfg t) f) (stateVal rd (micros rd ts t) (stateAt tr t) f)

/-- Whether a track has a valid state now. -/
def nowValid (cfg : Config) (sc : Scenario) (i : ℕ) : Bool := (((sc.tracks[i]?).bind (Track.now cfg)).map ObjState.valid).getD false

/-- `center_x` and `center_y` of a track now. -/
def nowCenter (cfg : Config) (sc : Scenario) (i : ℕ) : ℝ × ℝ := (((sc.tracks[i]?).bind (Track.now cfg)).map fun s => (s.x, s.y)).getD (0, 0)

/-- `std::hypot` of the differences from the vehicle's own position, scenario_conversion.cc:311-316. -/
def sdcDist (cfg : Config) (sc : Scenario) (i : ℕ) : ℝ :=
  Real.sqrt (((nowCenter cfg sc i).1 - (nowCenter cfg sc sc.sdc.toNat).1) ^ 2 +
    ((nowCenter cfg sc i).2 - (nowCenter cfg sc sc.sdc.toNat).2) ^ 2)

/-- The number of valid states of a track, scenario_conversion.cc:325-337. -/
def validCount (sc : Scenario) (i : ℕ) : ℕ := ((sc.tracks[i]?).map fun t => t.states.countP ObjState.valid).getD 0

/-- `compare_context_agents`, scenario_conversion.cc:299-341.  After `ValidateScenarioProto` and with at least one modeled agent every
track has a state now, so that the values for a missing state are never used. -/
def contextLt (cfg : Config) (sc : Scenario) (a b : ℕ) : Bool :=
  if nowValid cfg sc a || nowValid cfg sc b then
    if nowValid cfg sc a && nowValid cfg sc b then decide (sdcDist cfg sc a < sdcDist cfg sc b)
    else nowValid cfg sc a
  else decide (validCount sc b < validCount sc a)

/-- `compare_modeled_agents`, scenario_conversion.cc:273-275. -/
def modeledLt (sc : Scenario) (a b : ℕ) : Bool :=
  decide (((sc.tracks[a]?).map Track.id).getD 0 < ((sc.tracks[b]?).map Track.id).getD 0)

/-- What an agent adds, scenario_conversion.cc:278-286 and 351-359. -/
def agentLog (cfg : Config) (rd : ℝ → ℝ) (sc : Scenario) (interest : List ℕ) (ctx : Bool) (a : Option ℕ) : List Ev :=
  match a with
  | none => addState cfg rd sc.timestamps none false ctx false (-1)
  | some i => addState cfg rd sc.timestamps sc.tracks[i]? (decide ((i : ℤ) = sc.sdc)) ctx (decide (i ∈ interest)) (difficulty sc i)

/-- `AddSdcAndAgentsStateFeatures`, scenario_conversion.cc:235-361.  `sort` is `std::sort`, with the iteration order of the hash set
before it; a negative new size becomes a huge unsigned number, which `resize` refuses.  The inner `none` is a status that is not `ok`. -/
def addAgents (cfg : Config) (rd : ℝ → ℝ) (sort : (ℕ → ℕ → Bool) → List ℕ → List ℕ) (sc : Scenario) : Option (Option (List Ev)) := do
  let interest ← objectsOfInterest cfg true sc
  if sc.sdc < 0 ∨ (sc.tracks.length : ℤ) ≤ sc.sdc then some none
  else do
    let modeled ← modeledAgents cfg sc
    if modeled = [] then some none
    else if cfg.maxAgents < modeled.length then none
    else
      let context := sort (contextLt cfg sc) ((List.range sc.tracks.length).filter fun i => ¬ i ∈ modeled)
      let room := cfg.maxAgents - modeled.length
      let padded := (context.take room).map some ++ List.replicate (room - context.length) none
      some (some ([.count "Num_Modeled_Agents" modeled.length] ++
        ((sort (modeledLt sc) modeled).flatMap fun i => agentLog cfg rd sc interest false (some i)) ++
        [.count "Num_Context_Agents" (min room context.length : ℕ)] ++
        (padded.flatMap fun a => agentLog cfg rd sc interest true a)))

/-! ### The conversion -/

/-- `ValidateScenarioProto`, scenario_conversion.cc:983-1010. -/
def validateScenario (sc : Scenario) : Bool :=
  decide (sc.timestamps ≠ []) && decide (0 ≤ sc.sdc ∧ sc.sdc < sc.tracks.length) &&
    sc.tracks.all fun t => t.states.length == sc.timestamps.length

/-- `ScenarioToExample`, scenario_conversion.cc:1041-1069, with `AddTfFeatures` (1012-1037): a crash, an error or the additions of a
successful conversion. -/
def toExample (cfg : Config) (rd : ℝ → ℝ) (sort : (ℕ → ℕ → Bool) → List ℕ → List ℕ) (sc : Scenario) : Option (Option (List Ev)) :=
  if validateScenario sc = false then some none
  else do
    let road ← addRoad cfg rd sc.map
    let agents ← addAgents cfg rd sort sc
    some (agents.map fun agents => [.count "Num_Attempted_TF_Examples" 1, .count "Valid_Scenario" 1,
        .feat .scenarioId (.bytes sc.id)] ++ road ++ addLights cfg rd sc ++ agents ++ [.count "Num_Success_Generate_TF_Examples" 1])

end

end Verif.Conversion
