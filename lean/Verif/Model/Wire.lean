import Mathlib.Data.Rat.Defs
import Mathlib.Data.List.Basic
import Mathlib.Algebra.Order.Field.Rat

/-!
Model of the files that the command line programs exchange: the protocol buffer encoding of `Objects`
(protos/metrics.proto:24-60), `Label` (label.proto:24-109) and `Submission` (protos/submission.proto:26-88).

The encoding itself is the library's and not code of the project; it is modelled because create_submission.cc:149-153
removes a byte from it and compare_objects_file_to_submission_main.cc:86-92 guesses the type of a file from it.  A file is
a list of bytes, a byte a number below 256.  `none` is a failed parse.  Numbers in floating point are their bits.
Messages keep the fields which the programs do not look at as they came; they are written after the others, which
changes the order of fields in a file and nothing else.
-/

namespace Verif.Wire

/-- The content of a file. -/
abbrev Bytes := List ℕ

/-! ## Fields -/

/-- A base 128 varint of at most `fuel` bytes and what follows it. -/
def readVarint : ℕ → Bytes → Option (ℕ × Bytes)
  | 0, _ => none
  | _ + 1, [] => none
  | fuel + 1, b :: r =>
    if b < 128 then some (b, r) else (readVarint fuel r).map fun e => (b - 128 + 128 * e.1, e.2)

/-- The shortest varint of a number. -/
def writeVarint (n : ℕ) : Bytes :=
  if n < 128 then [n] else (n % 128 + 128) :: writeVarint (n / 128)
decreasing_by omega

/-- The value of a field by its wire type.  The content of a group is skipped. -/
inductive Val where
  | varint (n : ℕ)
  | fixed64 (b : Bytes)
  | bytes (b : Bytes)
  | group
  | fixed32 (b : Bytes)
  deriving DecidableEq

/-- A field: its number and its value. -/
structure Field where
  num : ℕ
  val : Val
  deriving DecidableEq

/-- The first `n` bytes and the others. -/
def takeBytes (n : ℕ) (l : Bytes) : Option (Bytes × Bytes) :=
  if l.length < n then none else some (l.take n, l.drop n)

/-- A length and as many bytes.  Lengths of 2^31 - 16 and more are refused. -/
def takeSized (l : Bytes) : Option (Bytes × Bytes) :=
  (readVarint 5 l).bind fun e => if e.1 < 2 ^ 31 - 16 then takeBytes e.1 e.2 else none

/-- The fields up to the end of the input or, inside a group, up to the end of the group.  `depth` is how many groups
may still be opened; `fuel` bounds the number of tags and is the number of bytes. -/
def scanLoop : (fuel depth : ℕ) → Option ℕ → Bytes → Option (List Field × Bytes)
  | _, _, none, [] => some ([], [])
  | _, _, some _, [] => none
  | 0, _, _, _ :: _ => none
  | fuel + 1, depth, closing, b :: l =>
    (readVarint 5 (b :: l)).bind fun t =>
      let tag := t.1 % 2 ^ 32
      let num := tag / 8
      if num = 0 then none
      else match tag % 8 with
      | 0 => (readVarint 10 t.2).bind fun v =>
          (scanLoop fuel depth closing v.2).map fun r => (⟨num, .varint (v.1 % 2 ^ 64)⟩ :: r.1, r.2)
      | 1 => (takeBytes 8 t.2).bind fun v =>
          (scanLoop fuel depth closing v.2).map fun r => (⟨num, .fixed64 v.1⟩ :: r.1, r.2)
      | 2 => (takeSized t.2).bind fun v =>
          (scanLoop fuel depth closing v.2).map fun r => (⟨num, .bytes v.1⟩ :: r.1, r.2)
      | 3 => match depth with
        | 0 => none
        | d + 1 => (scanLoop fuel d (some num) t.2).bind fun v =>
            (scanLoop fuel depth closing v.2).map fun r => (⟨num, .group⟩ :: r.1, r.2)
      | 4 => if closing = some num then some ([], t.2) else none
      | 5 => (takeBytes 4 t.2).bind fun v =>
          (scanLoop fuel depth closing v.2).map fun r => (⟨num, .fixed32 v.1⟩ :: r.1, r.2)
      | _ => none

/-- The fields of a message. -/
def scan (depth : ℕ) (l : Bytes) : Option (List Field) := (scanLoop l.length depth none l).map Prod.fst

/-- The number of the wire type of a value. -/
def Val.wireType : Val → ℕ
  | .varint _ => 0
  | .fixed64 _ => 1
  | .bytes _ => 2
  | .group => 3
  | .fixed32 _ => 5

/-- The bytes of a value.  Groups are never written by these programs. -/
def Val.write : Val → Bytes
  | .varint n => writeVarint n
  | .fixed64 b => b
  | .bytes b => writeVarint b.length ++ b
  | .group => []
  | .fixed32 b => b

/-- The bytes of a field. -/
def Field.write (f : Field) : Bytes := writeVarint (f.num * 8 + f.val.wireType) ++ f.val.write

/-- The bytes of a message. -/
def write (fs : List Field) : Bytes := fs.flatMap Field.write

/-! ## Which bytes a message type accepts -/

/-- How the type of a message reads the length-delimited values of its fields: as a string, as packed 64-bit numbers,
as packed varints, or as a message. -/
inductive Schema where
  | plain
  | packed64
  | packedVarint
  | message (sub : ℕ → Schema)

/-- Packed varints. -/
def allVarints : ℕ → Bytes → Bool
  | _, [] => true
  | 0, _ :: _ => false
  | fuel + 1, b :: l => match readVarint 10 (b :: l) with
    | none => false
    | some e => allVarints fuel e.2

/-- Whether bytes parse as a value of a schema; `depth` is how many messages or groups may still be opened.  A field
whose wire type is not the declared one is unknown and is skipped. -/
def accepts (depth : ℕ) : Schema → Bytes → Bool
  | .plain, _ => true
  | .packed64, b => b.length % 8 == 0
  | .packedVarint, b => allVarints b.length b
  | .message sub, b => match scan depth b with
    | none => false
    | some fs => fs.all fun f => match f.val with
      | .bytes p => accepts (depth - 1) (sub f.num) p
      | _ => true

/-- A message without fields that are messages: `Label.Box`, `Metadata`, `Association`, `KeypointVisibility`,
`Vector2d` and `Vector3d`. -/
def flatSchema : Schema := .message fun _ => .plain

/-- `Keypoint2d` and `Keypoint3d`, protos/keypoint.proto. -/
def keypointPosition : Schema := .message fun n => if n = 1 ∨ n = 2 then flatSchema else .plain

/-- `CameraKeypoint` and `LaserKeypoint`, protos/keypoint.proto. -/
def cameraKeypoint : Schema := .message fun n => if n = 2 ∨ n = 3 then keypointPosition else .plain
def laserKeypoint : Schema := .message fun n => if n = 2 then keypointPosition else .plain

/-- `Label`, label.proto:24-109. -/
def labelSchema : Schema := .message fun n =>
  if n = 1 ∨ n = 2 ∨ n = 10 ∨ n = 12 then flatSchema
  else if n = 8 then .message fun k => if k = 1 then laserKeypoint else .plain
  else if n = 9 then .message fun k => if k = 1 then cameraKeypoint else .plain
  else .plain

/-- `Object`, protos/metrics.proto:24-47. -/
def objectSchema : Schema := .message fun n => if n = 1 then labelSchema else .plain

/-- `Polygon2dProto`: two repeated doubles and an id. -/
def polygonSchema : Schema := .message fun n => if n = 1 ∨ n = 2 then .packed64 else .plain

/-- `NoLabelZoneObject`, protos/metrics.proto:49-53. -/
def zoneSchema : Schema := .message fun n => if n = 1 then polygonSchema else .plain

/-- `Objects`, protos/metrics.proto:55-60. -/
def objectsSchema : Schema := .message fun n => if n = 1 then objectSchema else if n = 2 then zoneSchema else .plain

/-- `Submission`, protos/submission.proto:26-88. -/
def submissionSchema : Schema := .message fun n =>
  if n = 11 then objectsSchema else if n = 14 then .packedVarint else .plain

/-- How many messages may be nested by default. -/
def nesting : ℕ := 100

/-! ## Reading fields -/

/-- The values of a field, in order. -/
def varints (n : ℕ) (fs : List Field) : List ℕ :=
  fs.filterMap fun f => match f.val with | .varint v => if f.num = n then some v else none | _ => none
def doubles (n : ℕ) (fs : List Field) : List Bytes :=
  fs.filterMap fun f => match f.val with | .fixed64 v => if f.num = n then some v else none | _ => none
def floats (n : ℕ) (fs : List Field) : List Bytes :=
  fs.filterMap fun f => match f.val with | .fixed32 v => if f.num = n then some v else none | _ => none
def strings (n : ℕ) (fs : List Field) : List Bytes :=
  fs.filterMap fun f => match f.val with | .bytes v => if f.num = n then some v else none | _ => none

/-- The fields of a message inside a message: repeated occurrences are merged. -/
def merged (n : ℕ) (fs : List Field) : Option (List Field) :=
  match strings n fs with
  | [] => none
  | ps => some (ps.flatMap fun p => (scan nesting p).getD [])

/-! ## The messages -/

/-- `Label.Box`: the bits of seven doubles, label.proto:26-52. -/
structure Box where
  centerX : Option Bytes := none
  centerY : Option Bytes := none
  centerZ : Option Bytes := none
  width : Option Bytes := none
  length : Option Bytes := none
  height : Option Bytes := none
  heading : Option Bytes := none
  deriving DecidableEq

def Box.read (fs : List Field) : Box :=
  ⟨(doubles 1 fs).getLast?, (doubles 2 fs).getLast?, (doubles 3 fs).getLast?, (doubles 4 fs).getLast?,
    (doubles 5 fs).getLast?, (doubles 6 fs).getLast?, (doubles 7 fs).getLast?⟩

/-- An optional field. -/
def optional {α : Type} (n : ℕ) (mk : α → Val) : Option α → List Field
  | none => []
  | some v => [⟨n, mk v⟩]

def Box.fields (b : Box) : List Field :=
  optional 1 .fixed64 b.centerX ++ optional 2 .fixed64 b.centerY ++ optional 3 .fixed64 b.centerZ ++
    optional 4 .fixed64 b.width ++ optional 5 .fixed64 b.length ++ optional 6 .fixed64 b.height ++
    optional 7 .fixed64 b.heading

/-- `Label`: the box, the type and the other fields. -/
structure Label where
  box : Option Box := none
  type : Option ℕ := none
  rest : List Field := []
  deriving DecidableEq

/-- The fields of a label that are kept as they are.  An unknown type of object is such a field. -/
def Label.other (f : Field) : Bool :=
  match f.val with
  | .bytes _ => f.num ≠ 1
  | .varint v => f.num ≠ 3 || 4 < v
  | _ => true

def Label.read (fs : List Field) : Label :=
  ⟨(merged 1 fs).map Box.read, ((varints 3 fs).filter (· ≤ 4)).getLast?, fs.filter Label.other⟩

def Label.fields (l : Label) : List Field :=
  optional 1 (fun b : Box => .bytes (write b.fields)) l.box ++ optional 3 .varint l.type ++ l.rest

/-- `Object`: the label, the bits of the score, the frame, the camera and the other fields. -/
structure Object where
  label : Option Label := none
  score : Option Bytes := none
  context : Option Bytes := none
  timestamp : Option ℕ := none
  camera : Option ℕ := none
  rest : List Field := []
  deriving DecidableEq

def Object.other (f : Field) : Bool :=
  match f.val with
  | .bytes _ => f.num ≠ 1 && f.num ≠ 4
  | .varint v => f.num ≠ 5 && (f.num ≠ 6 || 8 < v)
  | .fixed32 _ => f.num ≠ 2
  | _ => true

def Object.read (fs : List Field) : Object :=
  ⟨(merged 1 fs).map Label.read, (floats 2 fs).getLast?, (strings 4 fs).getLast?, (varints 5 fs).getLast?,
    ((varints 6 fs).filter (· ≤ 8)).getLast?, fs.filter Object.other⟩

def Object.fields (o : Object) : List Field :=
  optional 1 (fun l : Label => .bytes (write l.fields)) o.label ++ optional 2 .fixed32 o.score ++
    optional 4 .bytes o.context ++ optional 5 .varint o.timestamp ++ optional 6 .varint o.camera ++ o.rest

/-- `Objects`: the objects and the other fields. -/
structure Objects where
  objects : List Object := []
  rest : List Field := []
  deriving DecidableEq

def Objects.other (f : Field) : Bool :=
  match f.val with
  | .bytes _ => f.num ≠ 1
  | _ => true

def Objects.read (fs : List Field) : Objects :=
  ⟨(strings 1 fs).map fun p => Object.read ((scan nesting p).getD []), fs.filter Objects.other⟩

def Objects.fields (os : Objects) : List Field :=
  (os.objects.map fun o => (⟨1, .bytes (write o.fields)⟩ : Field)) ++ os.rest

/-- `Objects::ParseFromString` -/
def parseObjects (b : Bytes) : Option Objects :=
  if accepts nesting objectsSchema b then (scan nesting b).map Objects.read else none

/-- `Objects::SerializeAsString` -/
def writeObjects (os : Objects) : Bytes := write os.fields

/-- `Submission`: the results and the other fields. -/
structure Submission where
  results : Option Objects := none
  rest : List Field := []
  deriving DecidableEq

def Submission.other (f : Field) : Bool :=
  match f.val with
  | .bytes _ => f.num ≠ 11
  | _ => true

def Submission.read (fs : List Field) : Submission :=
  ⟨(merged 11 fs).map Objects.read, fs.filter Submission.other⟩

def Submission.fields (s : Submission) : List Field :=
  s.rest ++ optional 11 (fun os : Objects => .bytes (writeObjects os)) s.results

/-- `Submission::ParseFromString` -/
def parseSubmission (b : Bytes) : Option Submission :=
  if accepts nesting submissionSchema b then (scan nesting b).map Submission.read else none

/-- `Submission::SerializeAsString` -/
def writeSubmission (s : Submission) : Bytes := write s.fields

/-- `unique_method_name` and `account_name`, empty by default. -/
def Submission.method (s : Submission) : Bytes := (strings 2 s.rest).getLast?.getD []
def Submission.account (s : Submission) : Bytes := (strings 13 s.rest).getLast?.getD []

/-! ## Numbers in floating point -/

/-- A number in floating point. -/
inductive Fl where
  | nan
  | inf (negative : Bool)
  | fin (q : ℚ)
  deriving DecidableEq

/-- `<` between numbers in floating point. -/
def Fl.lt : Fl → Fl → Bool
  | .nan, _ => false
  | _, .nan => false
  | .inf a, .inf b => a && !b
  | .inf a, .fin _ => a
  | .fin _, .inf b => !b
  | .fin p, .fin q => decide (p < q)

/-- The number of little-endian bytes. -/
def word : Bytes → ℕ
  | [] => 0
  | b :: l => b + 256 * word l

/-- The value of a float with `m` bits of mantissa and `e` bits of exponent. -/
def decodeFloat (m e : ℕ) (w : ℕ) : Fl :=
  let frac := w % 2 ^ m
  let ex := w / 2 ^ m % 2 ^ e
  let neg := w / 2 ^ (m + e) % 2 = 1
  let bias : ℤ := 2 ^ (e - 1) - 1
  let sign : ℚ := if neg then -1 else 1
  if ex = 2 ^ e - 1 then if frac = 0 then .inf neg else .nan
  else if ex = 0 then .fin (sign * frac * (2 : ℚ) ^ (1 - bias - m))
  else .fin (sign * (2 ^ m + frac : ℕ) * (2 : ℚ) ^ ((ex : ℤ) - bias - m))

/-- A `double` and a `float` by their bytes. -/
def double (b : Bytes) : Fl := decodeFloat 52 11 (word b)
def single (b : Bytes) : Fl := decodeFloat 23 8 (word b)

end Verif.Wire
