import Mathlib.Data.Rat.Floor
import Mathlib.Algebra.Order.Field.Rat
import Mathlib.Algebra.BigOperators.Group.List.Basic
import Mathlib.Data.Fintype.Basic

/-!
Model of utils/keypoint_draw.py without the calls of matplotlib and plotly, and of the labels that are grouped for it,
utils/keypoint_data.py:145-223.  Coordinates are rational numbers and sums are exact.  Python dictionaries are lists of pairs
in the order of insertion.  `none` is an exception.
-/

namespace Verif.Wireframe

/-! ## Dictionaries -/

/-- `d.get(k)`. -/
def get {α β : Type} [DecidableEq α] (d : List (α × β)) (k : α) : Option β := (d.find? fun p => decide (p.1 = k)).map Prod.snd

/-- `d[k] = v`: a key that is there keeps its place. -/
def put {α β : Type} [DecidableEq α] (d : List (α × β)) (k : α) (v : β) : List (α × β) :=
  if (get d k).isSome then d.map fun p => if p.1 = k then (k, v) else p else d ++ [(k, v)]

/-- `{k: v for k, v in l}`. -/
def dict {α β : Type} [DecidableEq α] (l : List (α × β)) : List (α × β) := l.foldl (fun d p => put d p.1 p.2) []

/-! ## Grouping of labels -/

/-- The fields of a laser label that are read; `B` are boxes and `K` messages of key points. -/
structure LaserLabel (B K : Type) where
  id : String
  type : ℤ
  box : B
  keypoints : Option K

/-- The fields of a camera label that are read. -/
structure CameraLabel (B K : Type) where
  association : Option String
  box : B
  keypoints : Option K

/-- `ObjectLabel`, keypoint_data.py:126-142: the label of the laser and, for every camera, box and key points. -/
structure Object (B K L : Type) where
  type : ℤ
  box : B
  keypoints : Option K
  camera : Option (List (ℕ × B × Option L))

/-- `getattr(message, field, None)`: reading a field of a message that is not set gives the empty message. -/
def field {K : Type} (empty : K) (k : Option K) : Option K := some (k.getD empty)

/-- `_index_laser_labels`, keypoint_data.py:145-153. -/
def indexLaser {B K : Type} (empty : K) (labels : List (LaserLabel B K)) : List (String × ℤ × B × Option K) :=
  dict (labels.map fun l => (l.id, l.type, l.box, field empty l.keypoints))

/-- `_index_camera_labels`, keypoint_data.py:162-170; camera labels are given with the name of the camera. -/
def indexCamera {B L : Type} (empty : L) (labels : List (ℕ × CameraLabel B L)) :
    List (Option String × List (ℕ × B × Option L)) :=
  labels.foldl (fun d l => put d l.2.association (put ((get d l.2.association).getD []) l.1 (l.2.box, field empty l.2.keypoints))) []

/-- `group_object_labels`, keypoint_data.py:173-191. -/
def group {B K L : Type} (noLaser : K) (noCamera : L) (laser : List (LaserLabel B K)) (camera : List (ℕ × List (CameraLabel B L))) :
    List (String × Object B K L) :=
  let c := indexCamera noCamera (camera.flatMap fun p => p.2.map fun l => (p.1, l))
  (indexLaser noLaser laser).map fun p => (p.1, ⟨p.2.1, p.2.2.1, p.2.2.2, get c (some p.1)⟩)

/-! ## Wireframes -/

variable {n : ℕ}

/-- `Point`, keypoint_data.py:56-67: location and whether the point is occluded. -/
abbrev Point (n : ℕ) := (Fin n → ℚ) × Bool

/-- `Line`, keypoint_draw.py:38-53. -/
structure Line (n : ℕ) where
  start : Fin n → ℚ
  stop : Fin n → ℚ
  color : String
  width : ℚ

/-- `Dot`, keypoint_draw.py:56-81. -/
structure Dot (n : ℕ) where
  location : Fin n → ℚ
  color : String
  size : ℚ
  name : String
  border : Option String

/-- `actual_border_color`, keypoint_draw.py:77-81: the empty string is false. -/
def Dot.actualBorder (d : Dot n) : String :=
  match d.border with
  | some b => if b = "" then d.color else b
  | none => d.color

/-- The three kinds of edges, keypoint_draw.py:113-187. -/
inductive Edge
  | solid (start stop : ℕ) (width : ℚ)
  | bicolor (start stop : ℕ) (width : ℚ)
  | multi (start stop : List ℕ) (width : ℚ)

/-- `DEFAULT_COLOR` and `OCCLUDED_COLOR`, keypoint_draw.py:33-34. -/
def defaultColor : String := "#424242"
/-- See `defaultColor`. -/
def occludedColor : String := "#000000"

/-- `dataclasses.replace(e, width=e.width * factor)`, keypoint_draw.py:324. -/
def Edge.scale (f : ℚ) : Edge → Edge
  | .solid a b w => .solid a b (w * f)
  | .bicolor a b w => .bicolor a b (w * f)
  | .multi a b w => .multi a b (w * f)

/-- `_bicolor_lines`, keypoint_draw.py:138-143. -/
def bicolorLines (start : Fin n → ℚ) (startColor : String) (stop : Fin n → ℚ) (stopColor : String) (width : ℚ) : List (Line n) :=
  let middle : Fin n → ℚ := fun i => (start i + stop i) / 2
  [⟨start, middle, startColor, width⟩, ⟨middle, stop, stopColor, width⟩]

/-- `_combine_colors`, keypoint_draw.py:162-166. -/
def combineColors : List String → String
  | [c] => c
  | _ => defaultColor

/-- `np.mean` of points; of no points it is not a number, which is refused here. -/
def mean (l : List (Fin n → ℚ)) : Option (Fin n → ℚ) :=
  if l = [] then none else some fun i => (l.map fun p => p i).sum / l.length

/-- The mean and the color of one end of a `MultipointEdge`, keypoint_draw.py:183-186. -/
def averaged (points : List (ℕ × Point n)) (colors : List (ℕ × String)) (ts : List ℕ) : Option ((Fin n → ℚ) × String) := do
  let ps ← ts.mapM (get points)
  let m ← mean (ps.map Prod.fst)
  let cs ← ts.mapM (get colors)
  pure (m, combineColors cs)

/-- `create_lines`, keypoint_draw.py:126-135, 150-159 and 176-187. -/
def createLines (points : List (ℕ × Point n)) (colors : List (ℕ × String)) : Edge → Option (List (Line n))
  | .solid a b w =>
    match get points a, get points b with
    | some p, some q => some [⟨p.1, q.1, (get colors a).getD defaultColor, w⟩]
    | _, _ => some []
  | .bicolor a b w =>
    match get points a, get points b with
    | some p, some q => some (bicolorLines p.1 ((get colors a).getD defaultColor) q.1 ((get colors b).getD defaultColor) w)
    | _, _ => some []
  | .multi as bs w =>
    if (∀ t ∈ as, (get points t).isSome) ∧ ∀ t ∈ bs, (get points t).isSome then do
      let p ← averaged points colors as
      let q ← averaged points colors bs
      pure (bicolorLines p.1 p.2 q.1 q.2 w)
    else some []

/-- `WireframeConfig`, keypoint_draw.py:272-290. -/
structure Config where
  edges : List Edge
  colors : List (ℕ × String)
  sizes : List (ℕ × ℚ)
  dotFactor : ℚ := 1
  lineFactor : ℚ := 1

/-- `KeypointType`, protos/keypoint.proto, without the prefix that `point_name`, keypoint_draw.py:307-316, removes. -/
def names : List (ℕ × String) :=
  [(0, "UNSPECIFIED"), (1, "NOSE"), (5, "LEFT_SHOULDER"), (6, "LEFT_ELBOW"), (7, "LEFT_WRIST"), (8, "LEFT_HIP"), (9, "LEFT_KNEE"),
   (10, "LEFT_ANKLE"), (13, "RIGHT_SHOULDER"), (14, "RIGHT_ELBOW"), (15, "RIGHT_WRIST"), (16, "RIGHT_HIP"), (17, "RIGHT_KNEE"),
   (18, "RIGHT_ANKLE"), (19, "FOREHEAD"), (20, "HEAD_CENTER")]

/-- The dot of a point, keypoint_draw.py:326-335. -/
def dot (c : Config) (p : ℕ × Point n) : Option (Dot n) := do
  let color ← get c.colors p.1
  let size ← get c.sizes p.1
  let name ← get names p.1
  pure ⟨p.2.1, color, size * c.dotFactor, name ++ (if p.2.2 then "?" else ""), if p.2.2 then some occludedColor else none⟩

/-- `_build_wireframe`, keypoint_draw.py:319-336. -/
def build (points : List (ℕ × Point n)) (c : Config) : Option (List (Line n) × List (Dot n)) := do
  let lines ← c.edges.mapM fun e => createLines points c.colors (e.scale c.lineFactor)
  let dots ← points.mapM (dot c)
  pure (lines.flatten, dots)

/-- `build_camera_wireframe` and `build_laser_wireframe`, keypoint_draw.py:339-352, of key points with their types. -/
def wireframe (keypoints : List (ℕ × Point n)) (c : Config) : Option (List (Line n) × List (Dot n)) := build (dict keypoints) c

/-- `_COMMON_EDGES`, keypoint_draw.py:190-213. -/
def commonEdges : List Edge :=
  [.bicolor 10 9 2, .bicolor 9 8 2, .bicolor 8 5 2, .bicolor 5 6 2, .bicolor 6 7 2, .bicolor 18 17 2, .bicolor 17 16 2,
   .bicolor 16 13 2, .bicolor 13 14 2, .bicolor 14 15 2, .bicolor 8 16 2, .bicolor 5 13 2]

/-- `_DEFAULT_CAMERA_EDGES`, keypoint_draw.py:214-220. -/
def cameraEdges : List Edge := commonEdges ++ [.bicolor 1 19 1, .multi [19] [5, 13] 1]

/-- `_DEFAULT_LASER_EDGES`, keypoint_draw.py:221-227. -/
def laserEdges : List Edge := commonEdges ++ [.bicolor 1 20 1, .multi [20] [5, 13] 1]

/-- `_DEFAULT_POINT_COLORS`, keypoint_draw.py:229-245. -/
def pointColors : List (ℕ × String) :=
  [(1, "#00FF00"), (19, "#00FFFF"), (20, "#00FFFF"), (5, "#FFA6FE"), (6, "#FFE502"), (7, "#006401"), (8, "#010067"), (9, "#95003A"),
   (10, "#007DB5"), (13, "#774D00"), (14, "#90FB92"), (15, "#0076FF"), (16, "#D5FF00"), (17, "#A75740"), (18, "#6A826C")]

/-- `_OKS_SCALES`, keypoint_draw.py:248-264, in thousandths. -/
def oksScales : List (ℕ × ℚ) :=
  [(1, 52), (5, 158), (13, 158), (6, 144), (14, 144), (7, 124), (15, 124), (8, 214), (16, 214), (9, 174), (17, 174), (10, 178),
   (18, 178), (19, 158), (20, 158)]

/-- `_default_point_sizes`, keypoint_draw.py:267-269. -/
def pointSizes : List (ℕ × ℚ) := oksScales.map fun p => (p.1, p.2 / (oksScales.map Prod.snd).foldl max 0)

/-- `DEFAULT_CAMERA_WIREFRAME_CONFIG`. -/
def cameraConfig : Config := ⟨cameraEdges, pointColors, pointSizes, 6, 1⟩
/-- `DEFAULT_LASER_WIREFRAME_CONFIG`. -/
def laserConfig : Config := ⟨laserEdges, pointColors, pointSizes, 15, 4⟩

/-- What `draw_laser_wireframe`, keypoint_draw.py:378-402, adds to the figure: the lines, and the coordinates of the dots; `np.stack`
of nothing is an error. -/
def drawLaser (w : List (Line n) × List (Dot n)) : Option (List (Line n) × List (Fin n → ℚ)) :=
  if w.2 = [] then none else some (w.1, w.2.map Dot.location)

/-! ## Cropping -/

/-- `int(x)`: towards zero. -/
def trunc (x : ℚ) : ℤ := if 0 ≤ x then ⌊x⌋ else ⌈x⌉

/-- An image. -/
structure Image (P : Type) where
  h : ℕ
  w : ℕ
  px : ℕ → ℕ → P

/-- The fields of a two-dimensional box: `length` is along x and `width` along y. -/
structure Box where
  cx : ℚ
  cy : ℚ
  length : ℚ
  width : ℚ

/-- The first and the last position along one axis, keypoint_draw.py:424-427 and 435-436. -/
def low (center size margin : ℚ) : ℕ := (max 0 (trunc (center - (1 + margin) * size / 2))).toNat
/-- See `low`. -/
def high (len : ℕ) (center size margin : ℚ) : ℤ := min ((len : ℤ) - 1) (trunc (center + (1 + margin) * size / 2))

/-- The end of a slice of an axis of size `len`: a negative one counts from the end. -/
def sliceEnd (len : ℕ) (b : ℤ) : ℕ := if b < 0 then ((len : ℤ) + b).toNat else min len b.toNat

/-- `crop_camera_keypoints`, keypoint_draw.py:405-438. -/
def crop {P : Type} (image : Image P) (keypoints : List (ℚ × ℚ)) (b : Box) (margin : ℚ) : Image P × List (ℚ × ℚ) :=
  let minX := low b.cx b.length margin
  let minY := low b.cy b.width margin
  (⟨sliceEnd image.h (high image.h b.cy b.width margin) - minY, sliceEnd image.w (high image.w b.cx b.length margin) - minX,
      fun y x => image.px (minY + y) (minX + x)⟩,
    keypoints.map fun p => (p.1 - minX, p.2 - minY))

end Verif.Wireframe
