import Mathlib.Analysis.SpecialFunctions.Trigonometric.Basic
import Mathlib.Data.List.TakeWhile

/-!
Model of utils/plot_maps.py and utils/sim_agents/visualizations.py: what is given to plotly and matplotlib.  `none` is an exception.
Coordinates in plots of maps are only copied, so points have any type; boxes have real numbers.
-/

namespace Verif.Maps

/-! ## Maps -/

/-- `FeatureType`, plot_maps.py:29-48. -/
inductive FeatureType
  | unknown | freewayLane | surfaceStreetLane | bikeLane | brokenSingleWhite | solidSingleWhite | solidDoubleWhite
  | brokenSingleYellow | brokenDoubleYellow | solidSingleYellow | solidDoubleYellow | passingDoubleYellow | roadEdgeBoundary
  | roadEdgeMedian | stopSign | crosswalk | speedBump | driveway
  deriving DecidableEq

/-- `feature_data` of `MapFeature`, protos/map.proto:76-84; types are numbers of enumerations. -/
inductive Data (P : Type)
  | lane (type : ℕ) (polyline : List P)
  | roadLine (type : ℕ) (polyline : List P)
  | roadEdge (type : ℕ) (polyline : List P)
  | stopSign (position : P)
  | crosswalk (polygon : List P)
  | speedBump (polygon : List P)
  | driveway (polygon : List P)
  | unset

/-- `MapFeature`. -/
structure Feature (P : Type) where
  id : ℤ
  data : Data P

/-- One entry of the five lists of `MapPoints`, plot_maps.py:51-69, which are always appended to together. -/
structure Pt (P : Type) where
  point : P
  type : FeatureType
  id : ℤ

/-- `lane_types`, plot_maps.py:233-238. -/
def laneTypes : ℕ → Option FeatureType
  | 0 => some .unknown
  | 1 => some .freewayLane
  | 2 => some .surfaceStreetLane
  | 3 => some .bikeLane
  | _ => none

/-- `road_line_types`, plot_maps.py:239-264; the entry of type 7 is missing. -/
def roadLineTypes : ℕ → Option FeatureType
  | 0 => some .unknown
  | 1 => some .brokenSingleWhite
  | 2 => some .solidSingleWhite
  | 3 => some .solidDoubleWhite
  | 4 => some .brokenSingleYellow
  | 5 => some .brokenDoubleYellow
  | 6 => some .solidSingleYellow
  | 8 => some .passingDoubleYellow
  | _ => none

/-- `road_edge_types`, plot_maps.py:265-269. -/
def roadEdgeTypes : ℕ → Option FeatureType
  | 0 => some .unknown
  | 1 => some .roadEdgeBoundary
  | 2 => some .roadEdgeMedian
  | _ => none

/-- `add_points`, plot_maps.py:271-284; `points[0]` of no points is an error. -/
def addPoints {P : Type} (id : ℤ) (points : List P) (type : Option FeatureType) (l : List (Pt P)) (polygon : Bool) : Option (List (Pt P)) :=
  match type with
  | none => some l
  | some t =>
    let l := l ++ points.map fun p => ⟨p, t, id⟩
    if polygon then points.head?.map fun p => l ++ [⟨p, t, id⟩] else some l

/-- The body of the loop over the features, plot_maps.py:289-337. -/
def addFeature {P : Type} (l : List (Pt P)) (f : Feature P) : Option (List (Pt P)) :=
  match f.data with
  | .lane t ps => addPoints f.id ps (laneTypes t) l false
  | .roadLine t ps => addPoints f.id ps (roadLineTypes t) l false
  | .roadEdge t ps => addPoints f.id ps (roadEdgeTypes t) l false
  | .stopSign p => addPoints f.id [p] (some .stopSign) l false
  | .crosswalk ps => addPoints f.id ps (some .crosswalk) l true
  | .speedBump ps => addPoints f.id ps (some .speedBump) l true
  | .driveway ps => addPoints f.id ps (some .driveway) l true
  | .unset => some l

/-- `line_dict`, plot_maps.py:82-101: color and dash. -/
def lineStyle : FeatureType → String × String
  | .unknown => ("black", "solid")
  | .freewayLane => ("white", "solid")
  | .surfaceStreetLane => ("royalblue", "solid")
  | .bikeLane => ("magenta", "solid")
  | .brokenSingleWhite => ("lightgray", "dash")
  | .solidSingleWhite => ("lightgray", "solid")
  | .solidDoubleWhite => ("lightgray", "solid")
  | .brokenSingleYellow => ("yellow", "dash")
  | .brokenDoubleYellow => ("yellow", "dash")
  | .solidSingleYellow => ("yellow", "solid")
  | .solidDoubleYellow => ("yellow", "solid")
  | .passingDoubleYellow => ("yellow", "dash")
  | .roadEdgeBoundary => ("green", "solid")
  | .roadEdgeMedian => ("green", "solid")
  | .stopSign => ("red", "solid")
  | .crosswalk => ("orange", "solid")
  | .speedBump => ("cyan", "solid")
  | .driveway => ("blue", "solid")

/-- A trace of the figure: markers of some size, or lines with dash and width (in tenths). -/
inductive Trace (P : Type)
  | markers (points : List P) (color : String) (size : ℕ)
  | lines (points : List P) (color dash : String) (width : ℕ)

/-- `point_type == n` for a member of an `enum.Enum`, which is not equal to any number. -/
def eqInt (_ : FeatureType) (_ : ℕ) : Bool := false

/-- The body of the loop over runs of points, plot_maps.py:143-178. -/
def trace {P : Type} (points : List P) (t : FeatureType) : Trace P :=
  let width := if eqInt t 1 || eqInt t 2 || eqInt t 3 then 25 else 15
  if eqInt t 17 then .markers points (lineStyle t).1 4 else .lines points (lineStyle t).1 (lineStyle t).2 width

/-- The loop of plot_maps.py:138-183 over maximal runs of points with one identifier; the type is that of the first point. -/
def runs {P : Type} (l : List (Pt P)) : List (Trace P) :=
  match l with
  | [] => []
  | p :: rest =>
    trace (p.point :: (rest.takeWhile fun q => q.id = p.id).map Pt.point) p.type :: runs (rest.dropWhile fun q => q.id = p.id)
  termination_by l.length
  decreasing_by
    have := (List.dropWhile_sublist (l := rest) fun q => decide (q.id = p.id)).length_le
    simp only [List.length_cons]
    omega

/-- `plot_map_points`, plot_maps.py:72-219: the scatter plot of all points with their colors, and the traces; `map_points.types[0]`
of no points is an error. -/
def plotPoints {P : Type} (l : List (Pt P)) : Option (List (P × String) × List (Trace P)) :=
  if l.isEmpty then none else some (l.map fun p => (p.point, (lineStyle p.type).1), runs l)

/-- `plot_map_features`, plot_maps.py:222-340. -/
def plotFeatures {P : Type} (features : List (Feature P)) : Option (List (P × String) × List (Trace P)) :=
  (features.foldlM addFeature []).bind plotPoints

/-! ## Simulated agents -/

/-- `patches.Rectangle(xy, width, height, angle)`: it is turned about `xy`. -/
structure Rect where
  xy : ℝ × ℝ
  width : ℝ
  height : ℝ
  angle : ℝ
  color : ℕ

/-- An index of an array of `n` elements; negative ones count from the end. -/
def index (n : ℕ) (i : ℤ) : Option ℕ :=
  if 0 ≤ i ∧ i < n then some i.toNat else if i < 0 ∧ -n ≤ i then some (i + n).toNat else none

/-- `get_bbox_patch`, visualizations.py:73-104; the angle is in degrees and `WAYMO_COLORS` has six colors. -/
noncomputable def bboxPatch (x y yaw length width : ℝ) (color : ℤ) : Option Rect :=
  let lx := -length / 2
  let ly := -width / 2
  let rx := Real.cos yaw * lx + -Real.sin yaw * ly
  let ry := Real.sin yaw * lx + Real.cos yaw * ly
  (index 6 color).map fun c => ⟨(x + rx, y + ry), length, width, yaw * (180 / Real.pi), c⟩

/-- The arrays of `get_animated_states`, one row per object and one column per step. -/
structure States where
  x : List (List ℝ)
  y : List (List ℝ)
  yaw : List (List ℝ)
  length : List (List ℝ)
  width : List (List ℝ)
  color : List (List ℤ)

/-- `a[:, t]`. -/
def column {α : Type} (a : List (List α)) (t : ℕ) : Option (List α) := a.mapM fun r => r[t]?

/-- The box of object `i`, visualizations.py:127-129. -/
noncomputable def boxOf (x y yaw length width : List ℝ) (color : List ℤ) (i : ℕ) : Option Rect := do
  bboxPatch (← x[i]?) (← y[i]?) (← yaw[i]?) (← length[i]?) (← width[i]?) (← color[i]?)

/-- `add_all_current_objects`, visualizations.py:107-130: the patches that are added. -/
noncomputable def currentObjects (x y yaw length width : List ℝ) (color : List ℤ) : Option (List Rect) :=
  (List.range x.length).mapM (boxOf x y yaw length width color)

/-- `for line in axis.patches: line.remove()`, from index `i` on: the list shrinks while it is iterated. -/
def removeFrom {α : Type} (i : ℕ) (l : List α) : List α := if h : i < l.length then removeFrom (i + 1) (l.eraseIdx i) else l
  termination_by l.length - i
  decreasing_by
    rw [List.length_eraseIdx_of_lt h]
    omega

/-- The loops of visualizations.py:164-166. -/
def removeAll {α : Type} (l : List α) : List α := (fun l => removeFrom 0 l)^[l.length] l

/-- `animate`, visualizations.py:161-170: the patches of the axis afterwards. -/
noncomputable def animate (s : States) (patches : List Rect) (t : ℕ) : Option (List Rect) := do
  let boxes ← currentObjects (← column s.x t) (← column s.y t) (← column s.yaw t) (← column s.length t) (← column s.width t)
    (← column s.color t)
  pure (removeAll patches ++ boxes)

/-- A line of the map: coordinates and opacity in tenths; all are black and dashed. -/
structure MapLine (P : Type) where
  points : List P
  alpha : ℕ

/-- `add_map`, visualizations.py:48-70; `zip(*[])` has nothing to unpack. -/
def addMap {P : Type} (features : List (Feature P)) : Option (List (MapLine P)) :=
  (features.mapM fun (f : Feature P) => show Option (List (MapLine P)) from match f.data with
    | .roadEdge _ ps => if ps.isEmpty then none else some [⟨ps, 10⟩]
    | .roadLine _ ps => if ps.isEmpty then none else some [⟨ps, 5⟩]
    | _ => some []).map List.flatten

end Verif.Maps
