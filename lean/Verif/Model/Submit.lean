import Verif.Model.Wire
import Verif.Model.Matcher
import Verif.Model.Ops

/-!
Model of the programs around a submission: metrics/tools/create_submission.cc, latency/wod_latency_evaluator.py,
latency/make_objects_file_from_latency_results.py and latency/compare_objects_file_to_submission_main.cc.

`none` is a failed `CHECK`, a `LOG(FATAL)`, an exception of Python or a read outside of a string.  Files are their bytes
(Model/Wire); the text file with the description of a submission is given as the message in it.
-/

namespace Verif.Submit

open Verif.Wire

/-! ## Reading an object -/

/-- The default of a `double` and of `score`, protos/metrics.proto:28. -/
def zeroDouble : Bytes := [0, 0, 0, 0, 0, 0, 0, 0]
def oneFloat : Bytes := [0, 0, 128, 63]

/-- `o.object().box()` -/
def boxOf (o : Object) : Box := ((o.label.getD {}).box).getD {}

/-- `o.score()` -/
def scoreOf (o : Object) : Bytes := o.score.getD oneFloat

/-- `o.object().type()` -/
def typeOf (o : Object) : ℕ := ((o.label.getD {}).type).getD 0

/-- The value of a field of a box. -/
def num (x : Option Bytes) : Fl := double (x.getD zeroDouble)

/-- `1e-6`, `0.03`, `0.01` and `0.05` as doubles. -/
def tiny : Bytes := [0x8D, 0xED, 0xB5, 0xA0, 0xF7, 0xC6, 0xB0, 0x3E]
def lowest : Fl := double [0xB8, 0x1E, 0x85, 0xEB, 0x51, 0xB8, 0x9E, 0x3F]
def thin : Fl := double [0x7B, 0x14, 0xAE, 0x47, 0xE1, 0x7A, 0x84, 0x3F]
def slack : Fl := double [0x9A, 0x99, 0x99, 0x99, 0x99, 0x99, 0xA9, 0x3F]

/-! ## create_submission -/

/-- `o.score() < 0.03`, create_submission.cc:174. -/
def lowScore (o : Object) : Bool := (single (scoreOf o)).lt lowest

/-- The test for NaNs, create_submission.cc:178-184. -/
def hasNan (b : Box) : Bool :=
  num b.length = .nan || num b.width = .nan || num b.height = .nan || num b.centerX = .nan ||
    num b.centerY = .nan || num b.centerZ = .nan || num b.heading = .nan

/-- `std::max(x, 1e-6)`, create_submission.cc:188-193. -/
def atLeast (x : Option Bytes) : Bytes := if (num x).lt (double tiny) then tiny else x.getD zeroDouble

/-- The changes to an object, create_submission.cc:188-193. -/
def sanitise (o : Object) : Object :=
  let l := o.label.getD {}
  let b := boxOf o
  { o with label := some { l with box := some { b with
      length := some (atLeast b.length), width := some (atLeast b.width), height := some (atLeast b.height) } } }

/-- `*submission.mutable_inference_results()->add_objects() = o`, create_submission.cc:195-197. -/
def addObject (o : Object) (s : Submission) : Submission :=
  let r := s.results.getD {}
  { s with results := some { r with objects := r.objects ++ [o] } }

/-- The loop over the objects of a file, create_submission.cc:171-198. -/
def addFile (subs : List Submission) (os : Objects) : List Submission :=
  os.objects.zipIdx.foldl (fun (subs : List Submission) (e : Object × ℕ) =>
    if lowScore e.1 then subs
    else if hasNan (boxOf e.1) then subs
    else subs.modify (e.2 % subs.length) (addObject (sanitise e.1))) subs

/-- A file without its last byte if that is a line feed, create_submission.cc:149-153. -/
def strip (content : Bytes) : Option Bytes :=
  match content.getLast? with
  | none => none
  | some b => some (if b = 10 then content.dropLast else content)

/-- `Run`, create_submission.cc:143-206, with `ValidateFlags` (104-125): the contents of the files that are written. -/
def create (inputs : List Bytes) (submission : Submission) (numShards : ℤ) : Option (List Bytes) := do
  if inputs.isEmpty then none
  if numShards ≤ 0 then none
  let files ← inputs.mapM fun content => (strip content).bind parseObjects
  if submission.method = [] ∨ submission.account = [] then none
  let subs := files.foldl addFile (List.replicate numShards.toNat submission)
  pure (subs.map writeSubmission)

/-! ## The latency evaluation -/

/-- The frame of a directory: `<context.name>/<timestamp_micros>`. -/
structure FrameId where
  context : Bytes
  timestamp : ℕ
  deriving DecidableEq

/-- What a submitted model returns: rows of a box, whose length is `width`, scores and classes. -/
structure Output where
  width : ℕ
  boxes : List (List Bytes)
  scores : List Bytes
  classes : List ℕ

/-- The checks of `process_example`, wod_latency_evaluator.py:74-79. -/
def checkOutput (r : Output) : Option Output :=
  if r.scores.length = r.boxes.length ∧ r.classes.length = r.boxes.length then some r else none

/-- The loop over the frames, wod_latency_evaluator.py:104-121: what is saved for each frame, in the order in which
the directories are listed, which is any. -/
def evaluate (run : FrameId → Output) (listing : List FrameId) : Option (List (FrameId × Output)) :=
  listing.mapM fun f => (checkOutput (run f)).map fun r => (f, r)

/-- `'\n'.join(fields)` split into lines again by `readlines`, wod_latency_evaluator.py:85-87 and
make_objects_file_from_latency_results.py:66-71. -/
def readLines : List (List Char) → List (List Char)
  | [] => []
  | [a] => if a = [] then [] else [a]
  | a :: b :: l => (a ++ ['\n']) :: readLines (b :: l)

/-- `CameraName.Name.Value`, dataset.proto:50-63. -/
def cameraNames : List (List Char) :=
  ["UNKNOWN".toList, "FRONT".toList, "FRONT_LEFT".toList, "FRONT_RIGHT".toList, "SIDE_LEFT".toList,
    "SIDE_RIGHT".toList, "REAR_LEFT".toList, "REAR".toList, "REAR_RIGHT".toList]
def cameraValue (s : List Char) : Option ℕ := cameraNames.findIdx? (· == s)

/-- The camera of a two-dimensional result, make_objects_file_from_latency_results.py:101-113. -/
def cameraOf (lines : List (List Char)) : Option ℕ :=
  match lines with
  | [f] => if "_IMAGE".toList <:+ f then cameraValue (f.take (f.length - 6)) else none
  | _ => none

/-- An object of a row, make_objects_file_from_latency_results.py:77-113.  A class that is not a type is refused. -/
def rowObject (lines : List (List Char)) (f : FrameId) (width : ℕ) (row : List Bytes) (score : Bytes) (cls : ℕ) :
    Option Object :=
  if 4 < cls then none else
  let base (b : Option Box) (camera : Option ℕ) : Object :=
    ⟨some ⟨b, some cls, []⟩, some score, some f.context, some f.timestamp, camera, []⟩
  match row with
  | [x, y, z, l, w, h, a] => if width = 7 then some (base (some ⟨some x, some y, some z, some w, some l, some h, some a⟩) none)
      else if width = 4 then none else some (base none none)
  | [x, y, l, w] => if width = 4 then
        (cameraOf lines).map fun c => base (some ⟨some x, some y, none, some w, some l, none, none⟩) (some c)
      else if width = 7 then none else some (base none none)
  | _ => if width = 7 ∨ width = 4 then none else some (base none none)

/-- The objects that are not added, make_objects_file_from_latency_results.py:115-121. -/
def skipped (o : Object) : Bool :=
  let b := boxOf o
  (single (scoreOf o)).lt lowest || (num b.length).lt thin || (num b.width).lt thin ||
    (b.height.isSome && (num b.height).lt thin)

/-- `make_object_list_from_subdir`, make_objects_file_from_latency_results.py:32-125. -/
def makeFrame (lines : List (List Char)) (e : FrameId × Output) : Option (List Object) := do
  if e.2.classes.length ≠ e.2.boxes.length then none
  if e.2.scores.length ≠ e.2.boxes.length then none
  let os ← ((e.2.boxes.zip e.2.scores).zip e.2.classes).mapM fun (r : (List Bytes × Bytes) × ℕ) =>
    rowObject lines e.1 e.2.width r.1.1 r.1.2 r.2
  pure (os.filter fun o => !skipped o)

/-- The program, make_objects_file_from_latency_results.py:128-153. -/
def makeFile (fields : List (List Char)) (saved : List (FrameId × Output)) : Option Bytes :=
  (saved.mapM (makeFrame (readLines fields))).map fun os => writeObjects ⟨os.flatten, []⟩

/-! ## The comparison -/

/-- What the comparison is given: the IoU of three-dimensional or axis-aligned boxes, and the absolute difference of
two scores. -/
structure Env where
  iou : Bool → Box → Box → ℚ
  gap : Bytes → Bytes → Fl

/-- `ReadObjectsFromFile` for one file, compare_objects_file_to_submission_main.cc:81-95.  A file that cannot be
opened has no bytes. -/
def readFile (content : Bytes) : Option (List Object) :=
  match parseObjects content with
  | some os => some os.objects
  | none => (parseSubmission content).map fun s => (s.results.getD {}).objects

/-- `ReadObjectsFromFile`, compare_objects_file_to_submission_main.cc:79-99. -/
def readFiles (contents : List Bytes) : Option (List Object) := (contents.mapM readFile).map List.flatten

/-- The frame of an object, compare_objects_file_to_submission_main.cc:131-132. -/
abbrev Key := Bytes × ℕ × ℕ
def keyOf (o : Object) : Key := (o.context.getD [], o.timestamp.getD 0, o.camera.getD 0)

/-- `score >= minimum_score && type > 0`, compare_objects_file_to_submission_main.cc:130 and 137. -/
def considered (minimum : ℚ) (o : Object) : Bool :=
  (match single (scoreOf o) with
    | .nan => false
    | .inf neg => !neg
    | .fin q => decide (minimum ≤ q)) && decide (0 < typeOf o)

/-- The map from frames to objects, compare_objects_file_to_submission_main.cc:116-142.  The frames are in the order in
which they come; the program has them in the order of their keys, which changes the order of its messages. -/
def groups (minimum : ℚ) (os : List Object) : List (Key × List Object) :=
  (os.filter (considered minimum)).foldl (fun (m : List (Key × List Object)) (o : Object) => Ops.push m (keyOf o) o) []

/-- `is_2d`, compare_objects_file_to_submission_main.cc:127-129: the last object decides; `junk` is what the variable
holds before it is set. -/
def lastHeading (junk : Bool) (os : List Object) : Bool := os.foldl (fun _ o => (boxOf o).heading.isSome) junk

/-- What the matcher reads of an object.  The Hungarian matcher does not read the score. -/
def matcherObj (o : Object) : Matcher.Obj Box := ⟨typeOf o, boxOf o, 0⟩

/-- How many detections of a frame have no equal, compare_objects_file_to_submission_main.cc:187-207: `e` is a
detection and its match. -/
def mismatch (E : Env) (full : List Object) (e : Object × Option ℕ) : Option ℕ :=
  match e.2 with
  | none => some 1
  | some j => (full[j]?).map fun o => if slack.lt (E.gap (scoreOf e.1) (scoreOf o)) then 1 else 0

/-- One round of the loop over the frames, compare_objects_file_to_submission_main.cc:161-216.
`unmatched_detections > 0.05 * num_detections` is decided exactly. -/
def compareFrame (E : Env) (latency full : List Object) : StateT (Matcher.Matcher Box) Option PUnit := do
  let _ ← Matcher.step (.setPredictions (latency.map matcherObj))
  let _ ← Matcher.step (.setGroundTruths (full.map matcherObj))
  let _ ← Matcher.step (.setPredictionSubset (List.range latency.length))
  let _ ← Matcher.step (.setGroundTruthSubset (List.range full.length))
  let out ← Matcher.step .hungarianMatch
  match out with
  | .pairs r =>
    match (latency.zip r.1).mapM (mismatch E full) with
    | none => failure
    | some l =>
      if latency.length < 20 * ((full.length - latency.length) + l.sum) then failure else pure ⟨⟩
  | _ => failure

/-- The loop over the frames, compare_objects_file_to_submission_main.cc:150-219. -/
def compareLoop (E : Env) (full : List (Key × List Object)) :
    List (Key × List Object) → StateT (Matcher.Matcher Box) Option PUnit
  | [] => pure ⟨⟩
  | e :: l =>
    match full.find? (fun f => f.1 == e.1) with
    | none => failure
    | some f => do
      compareFrame E e.2 f.2
      compareLoop E full l

/-- `Compute`, compare_objects_file_to_submission_main.cc:107-223: `some` list of the frames whose results matched, or
`none` if the program is aborted. -/
def compare (E : Env) (junk : Bool) (latency : Bytes) (full : List Bytes) (threshold minimum : ℚ) :
    Option (List Key) := do
  let ls ← readFiles [latency]
  let fs ← readFiles full
  let m := groups minimum ls
  let matcher : Matcher.Matcher Box :=
    { frame := { thresholds := List.replicate 5 threshold, defaultIou := E.iou (lastHeading junk ls) } }
  let _ ← (compareLoop E (groups minimum fs) m).run matcher
  pure (m.map Prod.fst)

end Verif.Submit
