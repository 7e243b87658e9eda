import Mathlib.Analysis.SpecialFunctions.Complex.Arg
import Mathlib.Analysis.SpecialFunctions.Sqrt

/-!
Model of the breakdown generators (metrics/breakdown_generator.{h,cc}), of the breakdown names
(metrics/config_util.cc:32-48, metrics/python/config_util_py.py:25-163) and of `GetDifficultyLevels`
(metrics/metrics_utils.cc:175-189).

`none` is `LOG(FATAL)`, a failed `CHECK` or a Python exception.  Floating point numbers are real numbers, `atan2(y, x)`
is the argument of `x + y i`.
-/

namespace Verif.Breakdown

/-- The parts of `Object` (protos/metrics.proto) that a breakdown reads.  `type` is the number of a `Label::Type`,
`camera` the number of a `CameraName`. -/
structure Obj where
  type : Nat
  cx : ℝ
  cy : ℝ
  cz : ℝ
  length : ℝ
  width : ℝ
  height : ℝ
  /-- `metadata.speed_x` and `speed_y`, if both are set -/
  speed : Option (ℝ × ℝ)
  /-- `Object.camera_name` -/
  camera : Option Nat
  /-- `Label.most_visible_camera_name` -/
  mostVisible : Option String

/-- `Label::Type_MAX`, label.proto:63-69. -/
def typeMax : Nat := 4

/-- `BreakdownGenerator`, breakdown_generator.h:32-67, as a record of its virtual functions.  A shard may be -1. -/
structure Gen (O : Type) where
  numShards : Nat
  shard : O → Option ℤ
  matching : O → Option (List ℤ)
  gtOnly : Bool

/-- The default `ShardsForMatching`, breakdown_generator.h:47-49. -/
def single {O : Type} (shard : O → Option ℤ) (o : O) : Option (List ℤ) := (shard o).map fun s => [s]

/-- `BreakdownGeneratorOneShard`, breakdown_generator.cc:43-54. -/
def oneShard : Gen Obj := ⟨1, fun _ => some 0, single fun _ => some 0, false⟩

/-- `BreakdownGeneratorAllButSign::Shard`, breakdown_generator.cc:61-66. -/
def allButSignShard (o : Obj) : Option ℤ := if o.type ≠ 3 then some 0 else some 1

/-- `BreakdownGeneratorAllButSign`, breakdown_generator.cc:57-82. -/
def allButSign : Gen Obj := ⟨2, allButSignShard, single allButSignShard, false⟩

/-- `BreakdownGeneratorObjectType::Shard`, breakdown_generator.cc:89-93. -/
def objectTypeShard (o : Obj) : Option ℤ := some ((o.type : ℤ) - 1)

/-- `BreakdownGeneratorObjectType`, breakdown_generator.cc:85-103. -/
def objectType : Gen Obj := ⟨typeMax, objectTypeShard, single objectTypeShard, false⟩

/-- `Hypot3`, breakdown_generator.cc:34-36. -/
noncomputable def hypot3 (a b c : ℝ) : ℝ := Real.sqrt (a * a + b * b + c * c)

/-- `BreakdownGeneratorRange::Shard`, breakdown_generator.cc:111-131. -/
noncomputable def rangeShard (o : Obj) : Option ℤ :=
  let range := hypot3 o.cx o.cy o.cz
  if o.type = 0 then some (-1)
  else
    let off : ℤ := 3 * ((o.type : ℤ) - 1)
    if off < 0 then some (-1)
    else if range < 30 then some (0 + off)
    else if range < 50 then some (1 + off)
    else some (2 + off)

/-- `BreakdownGeneratorRange`, breakdown_generator.cc:107-158. -/
noncomputable def range : Gen Obj := ⟨3 * typeMax, rangeShard, single rangeShard, false⟩

/-- `BreakdownGeneratorSize::Shard`, breakdown_generator.cc:166-183. -/
noncomputable def sizeShard (o : Obj) : Option ℤ :=
  let size := max (max o.length o.width) o.height
  if o.type = 0 then some (-1)
  else
    let off : ℤ := 2 * ((o.type : ℤ) - 1)
    if off < 0 then some (-1)
    else if size < 7 then some (0 + off)
    else some (1 + off)

/-- `BreakdownGeneratorSize`, breakdown_generator.cc:162-208. -/
noncomputable def size : Gen Obj := ⟨2 * typeMax, sizeShard, single sizeShard, false⟩

/-- `BreakdownGeneratorVelocity::Shard`, breakdown_generator.cc:216-250. -/
noncomputable def velocityShard (o : Obj) : Option ℤ :=
  let v := match o.speed with
    | some v => v
    | none => (0, 0)
  let mag := Real.sqrt (v.1 * v.1 + v.2 * v.2)
  if o.type = 0 then some (-1)
  else
    let off : ℤ := 5 * ((o.type : ℤ) - 1)
    if mag < 0.2 then some (0 + off)
    else if mag < 1 then some (1 + off)
    else if mag < 3 then some (2 + off)
    else if mag < 10 then some (3 + off)
    else some (4 + off)

/-- `BreakdownGeneratorVelocity::ShardsForMatching`, breakdown_generator.cc:252-261. -/
def velocityMatching (o : Obj) : Option (List ℤ) :=
  if o.type = 0 then some []
  else some ((List.range 5).map fun i : Nat => 5 * ((o.type : ℤ) - 1) + i)

/-- `BreakdownGeneratorVelocity`, breakdown_generator.cc:212-294. -/
noncomputable def velocity : Gen Obj := ⟨5 * typeMax, velocityShard, velocityMatching, true⟩

/-- `CameraName::Name_Parse` (generated from dataset.proto:50-63). -/
def parseCamera (s : String) : Option Nat :=
  if s = "UNKNOWN" then some 0 else if s = "FRONT" then some 1 else if s = "FRONT_LEFT" then some 2
  else if s = "FRONT_RIGHT" then some 3 else if s = "SIDE_LEFT" then some 4 else if s = "SIDE_RIGHT" then some 5
  else if s = "REAR_LEFT" then some 6 else if s = "REAR" then some 7 else if s = "REAR_RIGHT" then some 8 else none

/-- `GetShardOffsetByCameraName`, breakdown_generator.cc:394-409. -/
def cameraOffset (c : Nat) : Option ℤ :=
  match c with
  | 1 => some 0
  | 2 => some 1
  | 3 => some 2
  | 4 => some 3
  | 5 => some 4
  | _ => none

/-- `c_deg` in `EstimateCameraNamesByFov`, breakdown_generator.cc:428-430. -/
noncomputable def degrees (o : Obj) : ℝ := Complex.arg ⟨o.cx, o.cy⟩ * (180 / Real.pi)

open Classical in
/-- `EstimateCameraNamesByFov`, breakdown_generator.cc:411-447. -/
noncomputable def camerasByFov (o : Obj) : List Nat :=
  let d := degrees o
  (if d > 0 - 25.2 ∧ d < 0 + 25.2 then [1] else []) ++
  (if d > 45 - 25.2 ∧ d < 45 + 25.2 then [2] else []) ++
  (if d > -45 - 25.2 ∧ d < -45 + 25.2 then [3] else []) ++
  (if d > 90 - 25.2 ∧ d < 90 + 25.2 then [4] else []) ++
  (if d > -90 - 25.2 ∧ d < -90 + 25.2 then [5] else [])

/-- `BreakdownGeneratorCamera::Shard`, breakdown_generator.cc:302-337. -/
noncomputable def cameraShard (o : Obj) : Option ℤ :=
  if o.type = 0 then some (-1)
  else
    let off : ℤ := 5 * ((o.type : ℤ) - 1)
    match o.camera with
    | some c => (cameraOffset c).map fun k => off + k
    | none =>
      match o.mostVisible with
      | some s =>
        match parseCamera s with
        | none => some (-1)
        | some c => (cameraOffset c).map fun k => off + k
      | none =>
        match camerasByFov o with
        | [] => some (-1)
        | c :: _ => (cameraOffset c).map fun k => off + k

/-- `BreakdownGeneratorCamera::ShardsForMatching`, breakdown_generator.cc:339-354. -/
noncomputable def cameraMatching (o : Obj) : Option (List ℤ) :=
  if o.type = 0 then some []
  else
    match o.camera with
    | some _ => (cameraShard o).map fun s => [s]
    | none => (camerasByFov o).mapM fun c => (cameraOffset c).map fun k => 5 * ((o.type : ℤ) - 1) + k

/-- `BreakdownGeneratorCamera`, breakdown_generator.cc:298-448. -/
noncomputable def camera : Gen Obj := ⟨5 * typeMax, cameraShard, cameraMatching, true⟩

/-- `BreakdownGenerator::Create`, breakdown_generator.cc:450-471; the ids are those of protos/breakdown.proto:26-55. -/
noncomputable def create (id : Nat) : Option (Gen Obj) :=
  match id with
  | 1 => some oneShard
  | 2 => some objectType
  | 3 => some range
  | 7 => some velocity
  | 8 => some allButSign
  | 9 => some size
  | 10 => some camera
  | _ => none

/-! ### Names -/

/-- `Breakdown::GeneratorId_Name`. -/
def generatorName (id : Nat) : String :=
  ["UNKNOWN", "ONE_SHARD", "OBJECT_TYPE", "RANGE", "TIME_OF_DAY", "LOCATION", "WEATHER", "VELOCITY", "ALL_BUT_SIGN",
    "SIZE", "CAMERA"].getD id ""

/-- `Label::Type_Name`; `""` for numbers that are not in the enumeration. -/
def typeName (t : Nat) : String :=
  ["TYPE_UNKNOWN", "TYPE_VEHICLE", "TYPE_PEDESTRIAN", "TYPE_SIGN", "TYPE_CYCLIST"].getD t ""

/-- `Label::DifficultyLevel_Name`. -/
def levelName (l : Nat) : String := ["UNKNOWN", "LEVEL_1", "LEVEL_2"].getD l ""

/-- `ShardName` of the generators with `k` shards per type, e.g. breakdown_generator.cc:139-157. -/
def perTypeName (id k : Nat) (names : List String) (shard : Nat) : Option String :=
  let t := shard / k + 1
  if t ≤ typeMax then (names[shard % k]?).map fun n => generatorName id ++ "_" ++ typeName t ++ "_" ++ n
  else none

/-- `BreakdownGenerator::ShardName`, breakdown_generator.cc:53, 72-81, 99-102, 139-157, 191-207, 269-291 and
362-385. -/
def shardName (id shard : Nat) : Option String :=
  match id with
  | 1 => some "ONE_SHARD"
  | 2 => some (generatorName 2 ++ "_" ++ typeName (shard + 1))
  | 3 => perTypeName 3 3 ["[0, 30)", "[30, 50)", "[50, +inf)"] shard
  | 7 => perTypeName 7 5 ["STATIONARY", "SLOW", "MEDIUM", "FAST", "VERY_FAST"] shard
  | 8 => ["ALL_BUT_SIGN", "SIGN"][shard]?
  | 9 => perTypeName 9 2 ["small", "large"] shard
  | 10 => perTypeName 10 5 ["FRONT", "FRONT-LEFT", "FRONT-RIGHT", "SIDE-LEFT", "SIDE-RIGHT"] shard
  | _ => none

/-- The parts of `Config` (protos/metrics.proto) that select breakdowns; `levels[i]` is `difficulties(i).levels`. -/
structure Config where
  generators : List Nat
  levels : List (List Nat)

/-- `GetDifficultyLevels`, metrics_utils.cc:175-189; the element has to exist. -/
def difficultyLevels (c : Config) (i : Nat) : Option (List Nat) :=
  (c.levels[i]?).map fun l => if l.isEmpty then [2] else l

/-- The number of shards of a generator without the shard functions (`NumShards`). -/
def numShards (id : Nat) : Option Nat :=
  match id with
  | 1 => some 1
  | 2 => some typeMax
  | 3 => some (3 * typeMax)
  | 7 => some (5 * typeMax)
  | 8 => some 2
  | 9 => some (2 * typeMax)
  | 10 => some (5 * typeMax)
  | _ => none

/-- `GetBreakdownNamesFromConfig`, config_util.cc:32-48. -/
def breakdownNames (c : Config) : Option (List String) := do
  let per ← c.generators.zipIdx.mapM fun e : Nat × Nat => do
    let n ← numShards e.1
    let levels ← difficultyLevels c e.2
    let names ← (List.range n).mapM fun s : Nat => do
      let name ← shardName e.1 s
      pure (levels.map fun l => name ++ "_" ++ levelName l)
    pure names.flatten
  pure per.flatten

/-- `_OBJECT_TYPES`, config_util_py.py:25-26. -/
def pyObjectTypes : List Nat := [1, 2, 3, 4]

/-- The tuples of shard names, config_util_py.py:28-33. -/
def pyShardNames (id : Nat) : List String :=
  match id with
  | 3 => ["[0, 30)", "[30, 50)", "[50, +inf)"]
  | 7 => ["STATIONARY", "SLOW", "MEDIUM", "FAST", "VERY_FAST"]
  | 8 => ["ALL_BUT_SIGN", "SIGN"]
  | 9 => ["small", "large"]
  | 10 => ["FRONT", "FRONT-LEFT", "FRONT-RIGHT", "SIDE-LEFT", "SIDE-RIGHT"]
  | _ => []

/-- `_get_num_breakdown_shards`, config_util_py.py:36-68. -/
def pyNumShards (id : Nat) : Option Nat :=
  match id with
  | 1 => some 1
  | 8 => some (pyShardNames 8).length
  | 2 => some pyObjectTypes.length
  | 3 => some ((pyShardNames 3).length * pyObjectTypes.length)
  | 7 => some ((pyShardNames 7).length * pyObjectTypes.length)
  | 9 => some ((pyShardNames 9).length * pyObjectTypes.length)
  | 10 => some ((pyShardNames 10).length * pyObjectTypes.length)
  | _ => none

/-- `_get_breakdown_shard_name`, config_util_py.py:71-127. -/
def pyShardName (id shard : Nat) : Option String :=
  if id = 1 then some (generatorName id)
  else if id = 8 then (pyShardNames 8)[shard]?
  else if id = 2 then (pyObjectTypes[shard]?).map fun t => generatorName id ++ "_" ++ typeName t
  else if id = 3 ∨ id = 7 ∨ id = 9 ∨ id = 10 then do
    let n := pyShardNames id
    let t ← pyObjectTypes[shard / n.length]?
    let name ← n[shard % n.length]?
    pure (generatorName id ++ "_" ++ typeName t ++ "_" ++ name)
  else none

/-- `get_breakdown_names_from_config`, config_util_py.py:130-163. -/
def pyBreakdownNames (c : Config) : Option (List String) := do
  let per ← c.generators.zipIdx.mapM fun e : Nat × Nat => do
    let n ← pyNumShards e.1
    let names ← (List.range n).mapM fun s : Nat => do
      let levels ← c.levels[e.2]?
      let name ← pyShardName e.1 s
      if levels.isEmpty then pure [name ++ "_" ++ "LEVEL_2"]
      else pure (levels.map fun l => name ++ "_" ++ levelName l)
    pure names.flatten
  pure per.flatten

/-! ### Subsets -/

/-- `breakdown_subsets[s].push_back(i)` with its checks, metrics_utils.cc:133-136. -/
def push (subsets : List (List Nat)) (s : ℤ) (i : Nat) : Option (List (List Nat)) :=
  if 0 ≤ s ∧ s < subsets.length then some (subsets.modify s.toNat fun l => l ++ [i]) else none

/-- The loop body for one object, metrics_utils.cc:128-145. -/
def pushObject {O : Type} (g : Gen O) (isDetection : Bool) (subsets : List (List Nat)) (e : O × Nat) :
    Option (List (List Nat)) :=
  if isDetection ∧ g.gtOnly then do
    let shards ← g.matching e.1
    shards.foldlM (fun t s => push t s e.2) subsets
  else do
    let s ← g.shard e.1
    if s < g.numShards then
      if 0 ≤ s then push subsets s e.2 else some subsets
    else none

/-- The subsets of one generator, metrics_utils.cc:122-146. -/
def shardSubsets {O : Type} (g : Gen O) (isDetection : Bool) (objects : List O) : Option (List (List Nat)) :=
  objects.zipIdx.foldlM (pushObject g isDetection) (List.replicate g.numShards [])

/-- `BreakdownShardSubset`, metrics_utils.h:70-83. -/
structure Subset where
  indices : List (List Nat)
  generatorIndex : Nat
  shard : Nat
  deriving DecidableEq

/-- `BuildSubsets`, metrics_utils.cc:118-173, for generators that exist. -/
def buildSubsets {O : Type} (gens : List (Gen O)) (cutoffs : List ℚ) (score : O → ℚ) (objects : List O)
    (isGt isDetection : Bool) : Option (List Subset) := do
  let per ← gens.zipIdx.mapM fun e : Gen O × Nat => do
    let subs ← shardSubsets e.1 isDetection objects
    pure (subs.zipIdx.map fun r : List Nat × Nat =>
      (⟨if isGt then [r.1]
        else cutoffs.map fun c => r.1.filter fun i => match objects[i]? with
          | some o => decide (c ≤ score o)
          | none => false,
        e.2, r.2⟩ : Subset))
  pure per.flatten

end Verif.Breakdown
