import Verif.Model.RangeImage

/-!
Lanes and road edges for the sim agents metrics: wdl_limited/sim_agents_metrics/map_metric_features.py and traffic_light_features.py.

Numbers are real numbers, and so are the validity flags that are stored with them: they are `Bool` here.  `none` is an exception.  Batches of
query points only repeat the computation for one point.  `divide_no_nan` is the division of Lean, which gives 0 when the divisor is 0.
-/

namespace Verif.Road

open Verif.RangeImage (argmin)

noncomputable section

/-- `MapPoint`, protos/map.proto. -/
@[ext] structure P3 where
  x : ℝ
  y : ℝ
  z : ℝ

/-- A row of the tensor of polylines: a point and its validity. -/
structure Vertex where
  p : P3
  valid : Bool

/-- The rows that fill up a polyline. -/
def blank : Vertex := ⟨⟨0, 0, 0⟩, false⟩

def P3.sub (a b : P3) : P3 := ⟨a.x - b.x, a.y - b.y, a.z - b.z⟩

def P3.add (a b : P3) : P3 := ⟨a.x + b.x, a.y + b.y, a.z + b.z⟩

def P3.scale (t : ℝ) (a : P3) : P3 := ⟨t * a.x, t * a.y, t * a.z⟩

/-- `dot_product_2d`, geometry_utils.py. -/
def dot2 (a b : P3) : ℝ := a.x * b.x + a.y * b.y

/-- `cross_product_2d`, geometry_utils.py. -/
def cross2 (a b : P3) : ℝ := a.x * b.y - a.y * b.x

/-- `tf.linalg.norm` of the first two components. -/
def norm2 (a : P3) : ℝ := Real.sqrt (a.x ^ 2 + a.y ^ 2)

/-- `EXTREMELY_LARGE_DISTANCE`, map_metric_features.py:16. -/
def farAway : ℝ := 10 ^ 10

/-- The polylines that are kept, with their ids, map_metric_features.py:157-171: those with at least two points. -/
def kept (polylines : List (List P3)) (ids : List ℤ) : List (List P3 × ℤ) := (polylines.zip ids).filter fun l => 2 ≤ l.1.length

/-- The largest number of points, map_metric_features.py:155-162. -/
def maxLength (l : List (List P3 × ℤ)) : ℕ := l.foldl (fun m p => max m p.1.length) 0

/-- Filling up with zeros, map_metric_features.py:174-178. -/
def pad (n : ℕ) (l : List P3) : List Vertex := l.map (fun p => ⟨p, true⟩) ++ List.replicate (n - l.length) blank

/-- `tensorize_polylines`, map_metric_features.py:129-180; without any polyline `tf.stack` fails. -/
def tensorize (polylines : List (List P3)) (ids : Option (List ℤ)) : Option (List (List Vertex) × List ℤ) :=
  let ids' := ids.getD (List.replicate polylines.length 0)
  if polylines.length ≠ ids'.length then none
  else
    let k := kept polylines ids'
    if k = [] then none
    else some (k.map fun l => pad (maxLength k) l.1, k.map Prod.snd)

/-- The squared distance of two points. -/
def dist3sq (a b : P3) : ℝ := (a.x - b.x) ^ 2 + (a.y - b.y) ^ 2 + (a.z - b.z) ^ 2

open Classical in
/-- `_check_polyline_cycles` for one polyline, map_metric_features.py:196-203. -/
def isCyclic (l : List P3) : Bool :=
  match l.head?, l.getLast? with
  | some a, some b => dist3sq a b < 1
  | _, _ => false

/-- `_check_polyline_cycles`, map_metric_features.py:183-205. -/
def cycles (polylines : List (List P3)) : List Bool := (polylines.filter fun l => 2 ≤ l.length).map isCyclic

/-- A row of the tensor of polylines. -/
def vert (l : List Vertex) (i : ℕ) : Vertex := (l[i]?).getD blank

/-- `start_to_end`. -/
def edge (l : List Vertex) (i : ℕ) : P3 := (vert l (i + 1)).p.sub (vert l i).p

/-- `start_to_point`. -/
def toPoint (q : P3) (l : List Vertex) (i : ℕ) : P3 := q.sub (vert l i).p

/-- `rel_t`, map_metric_features.py:279-286 and traffic_light_features.py:262-265. -/
def relT (q : P3) (l : List Vertex) (i : ℕ) : ℝ := dot2 (toPoint q l i) (edge l i) / dot2 (edge l i) (edge l i)

/-- `tf.clip_by_value(..., 0.0, 1.0)`. -/
def clip (t : ℝ) : ℝ := min (max t 0) 1

/-! ### Signed distances -/

/-- A polyline of the tensor together with its flag `is_polyline_cyclic`. -/
structure Line where
  pts : List Vertex
  cyclic : Bool

/-- The number of segments of a polyline. -/
def Line.segs (l : Line) : ℕ := l.pts.length - 1

/-- `is_segment_valid`, map_metric_features.py:257-259. -/
def Line.ok (l : Line) (i : ℕ) : Bool := (vert l.pts i).valid && (vert l.pts (i + 1)).valid

open Classical in
/-- `tf.sign`. -/
def sign (x : ℝ) : ℝ := if x < 0 then -1 else if 0 < x then 1 else 0

/-- `n`, map_metric_features.py:288-295. -/
def Line.side (l : Line) (q : P3) (i : ℕ) : ℝ := sign (cross2 (toPoint q l.pts i) (edge l.pts i))

/-- The position before, for the concatenations of map_metric_features.py:349-358 and 370-379. -/
def Line.prior (l : Line) (i : ℕ) : ℕ := if i = 0 then (if l.cyclic then l.segs - 1 else 0) else i - 1

/-- The position after, map_metric_features.py:359-368 and 380-389. -/
def Line.next (l : Line) (i : ℕ) : ℕ := if i + 1 = l.segs then (if l.cyclic then 0 else l.segs - 1) else i + 1

open Classical in
/-- `is_locally_convex[i]`, map_metric_features.py:329-344: the first and the last segment are always taken to be neighbours. -/
def Line.convex (l : Line) (i : ℕ) : Bool :=
  0 < cross2 (edge l.pts (if i = 0 then l.segs - 1 else i - 1)) (edge l.pts (if i = l.segs then 0 else i))

open Classical in
/-- `sign_to_segment`, map_metric_features.py:391-407. -/
def Line.signAt (l : Line) (q : P3) (i : ℕ) : ℝ :=
  let n := l.side q i
  if relT q l.pts i < 0 ∧ l.ok (l.prior i) then
    (if l.convex i then max n (l.side q (l.prior i)) else min n (l.side q (l.prior i)))
  else if 1 < relT q l.pts i ∧ l.ok (l.next i) then
    (if l.convex (i + 1) then max n (l.side q (l.next i)) else min n (l.side q (l.next i)))
  else n

/-- `segment_to_point`, map_metric_features.py:297-302. -/
def Line.offset (l : Line) (q : P3) (i : ℕ) : P3 := (toPoint q l.pts i).sub ((edge l.pts i).scale (clip (relT q l.pts i)))

/-- `distance_to_segment_3d`, map_metric_features.py:303-310 and 426-430. -/
def Line.dist3 (l : Line) (stretch : ℝ) (q : P3) (i : ℕ) : ℝ :=
  if l.ok i then Real.sqrt ((l.offset q i).x ^ 2 + (l.offset q i).y ^ 2 + ((l.offset q i).z * stretch) ^ 2) else farAway

/-- `distance_to_segment_2d`, map_metric_features.py:311-316 and 431-435. -/
def Line.dist2 (l : Line) (q : P3) (i : ℕ) : ℝ := if l.ok i then norm2 (l.offset q i) else farAway

/-- All segments, map_metric_features.py:409-424. -/
def allSegs (lines : List Line) : List (Line × ℕ) := lines.flatMap fun l => (List.range l.segs).map fun i => (l, i)

/-- `_compute_signed_distance_to_polylines`, map_metric_features.py:208-445, for one point. -/
def signedDistance (stretch : ℝ) (lines : List Line) (q : P3) : Option ℝ := do
  let k := argmin ((allSegs lines).map fun s => s.1.dist3 stretch q s.2)
  let s ← (allSegs lines)[k]?
  pure (s.1.signAt q s.2 * s.1.dist2 q s.2)

/-- The tensor of the road edges, map_metric_features.py:107-109. -/
def edgeLines (polylines : List (List P3)) : Option (List Line) := do
  let t ← tensorize polylines none
  pure ((t.1.zip (cycles polylines)).map fun x => ⟨x.1, x.2⟩)

/-- The signed distance of a point to the road edges, map_metric_features.py:107-116. -/
def edgeDistance (polylines : List (List P3)) (q : P3) : Option ℝ := do
  let lines ← edgeLines polylines
  signedDistance 3 lines q

/-- The bottom corners of a box, map_metric_features.py:87-93. -/
def bottom (b : Boxes.Box) : List P3 := ((Boxes.corners b).take 4).map fun c => ⟨c 0, c 1, c 2⟩

/-- `tf.math.reduce_max`. -/
def listMax : List ℝ → Option ℝ
  | [] => none
  | [a] => some a
  | a :: l => (listMax l).map (max a)

/-- `compute_distance_to_road_edge`, map_metric_features.py:33-126, for one object and step. -/
def roadEdge (polylines : List (List P3)) (b : Boxes.Box) (valid : Bool) : Option ℝ :=
  if polylines = [] then none
  else do
    let ds ← (bottom b).mapM (edgeDistance polylines)
    let m ← listMax ds
    pure (if valid then m else -farAway)

/-! ### Traffic lights -/

/-- `distance_to_segment`, traffic_light_features.py:266-277: the sign before the product differs from the one in `Line.offset`, and only the
start of a segment needs to be valid. -/
def laneDist (q : P3) (l : List Vertex) (i : ℕ) : ℝ :=
  if (vert l i).valid then norm2 ((toPoint q l i).add ((edge l i).scale (clip (relT q l i)))) else farAway

/-- `_get_nearest_lane_segment_index`, traffic_light_features.py:230-281, with `_argmin_2d`, traffic_light_features.py:284-298.  All lanes have
`cols + 1` points. -/
def nearestSegment (q : P3) (lanes : List (List Vertex)) : ℕ × ℕ :=
  let cols := (lanes.head?.map fun l => l.length - 1).getD 0
  let k := argmin (lanes.flatMap fun l => (List.range (l.length - 1)).map fun i => laneDist q l i)
  (k / cols, k % cols)

/-- `TrafficSignalLaneState`, protos/map.proto; the height of the stop point is not used. -/
structure Signal where
  lane : ℤ
  state : ℕ
  stop : ℝ × ℝ

/-- The state and the stop point of a lane at a step, traffic_light_features.py:318-330: the last one counts, and zeros if there is none. -/
def signalAt (signals : List Signal) (lane : ℤ) : ℕ × ℝ × ℝ :=
  ((signals.filter fun s => s.lane = lane).getLast?.map fun s => (s.state, s.stop)).getD (0, 0, 0)

/-- `ts_is_stop`, traffic_light_features.py:109-113. -/
def isStop (state : ℕ) : Bool := state = 1 || state = 4

/-- `ts_lane_index`, traffic_light_features.py:117-123: the first lane with the id, or the first lane. -/
def laneIndex (laneIds : List ℤ) (lane : ℤ) : ℕ := if lane ∈ laneIds then laneIds.idxOf lane else 0

/-- The points of a lane. -/
def laneAt (lanes : List (List Vertex)) (i : ℕ) : List Vertex := (lanes[i]?).getD []

/-- `stop_point_rel_t - object_rel_t` by their two parts, traffic_light_features.py:125-187: the positions of the stop point and of the object
along the segment that is nearest to the stop point. -/
def along (lanes : List (List Vertex)) (laneIds : List ℤ) (signals : List Signal) (lane : ℤ) (xy : ℝ × ℝ) : ℝ × ℝ :=
  let l := laneAt lanes (laneIndex laneIds lane)
  let stop := (signalAt signals lane).2
  let k := (nearestSegment ⟨stop.1, stop.2, 0⟩ [l]).2
  (relT ⟨stop.1, stop.2, 0⟩ l k, relT ⟨xy.1, xy.2, 0⟩ l k)

open Classical in
/-- `object_crossed_stop_point`, traffic_light_features.py:188-208. -/
def crossed (lanes : List (List Vertex)) (laneIds : List ℤ) (signals : ℕ → List Signal) (xy : ℕ → ℝ × ℝ) (lane : ℤ) : ℕ → Bool
  | 0 => false
  | t + 1 =>
    let a := along lanes laneIds (signals t) lane (xy t)
    let b := along lanes laneIds (signals (t + 1)) lane (xy (t + 1))
    a.2 < a.1 ∧ b.1 < b.2

/-- All lanes with a signal, traffic_light_features.py:301-313; `order` is the order in which Python lists a set. -/
def signalLanes (order : List ℤ → List ℤ) (signals : List (List Signal)) : List ℤ :=
  let l := order (signals.flatMap fun s => s.map Signal.lane)
  if l = [] then [-1] else l

/-- `compute_red_light_violation`, traffic_light_features.py:20-227, for one object.  The three lists over time have the same length. -/
def redLight (order : List ℤ → List ℤ) (xy : List (ℝ × ℝ)) (valid : List Bool) (polylines : List (List P3)) (ids : List ℤ)
    (signals : List (List Signal)) : Option (List Bool) :=
  if polylines = [] ∨ signals = [] ∨ polylines.length ≠ ids.length then none
  else if xy.length ≠ valid.length ∨ xy.length ≠ signals.length then none
  else do
    let t ← tensorize polylines (some ids)
    let lanes := t.1
    let laneIds := t.2
    let pos : ℕ → ℝ × ℝ := fun k => (xy[k]?).getD (0, 0)
    let sig : ℕ → List Signal := fun k => (signals[k]?).getD []
    pure ((List.range xy.length).map fun k =>
      let current := (laneIds[(nearestSegment ⟨(pos k).1, (pos k).2, 0⟩ lanes).1]?).getD 0
      (signalLanes order signals).any fun lane =>
        (valid[k]?).getD false && current = lane && isStop (signalAt (sig k) lane).1 && lane ∈ laneIds &&
          crossed lanes laneIds sig pos lane k)

end

end Verif.Road
