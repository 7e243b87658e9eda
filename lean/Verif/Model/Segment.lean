import Verif.Model.Angles
import Verif.Model.Polygon
import Mathlib.Analysis.SpecialFunctions.Complex.Arg

/-!
Model of math/vec2d.h (the operations that segments and boxes use), math/segment2d.{h,cc} and math/box2d.{h,cc}.
Floating point numbers are real numbers.  A cached value is `none` while it is `kInvalidCacheValue`
(segment2d.h:304-305); no computed value equals that number.  `none` as a result is a failed `CHECK`.
-/

namespace Verif.Segment

open Real Verif.Polygon

/-- `Vec2d::CreateUnitFromAngle`, vec2d.h:45-50. -/
noncomputable def unitFromAngle (θ : ℝ) : Pt ℝ := (cos θ, sin θ)

/-- `Vec2d::Dot`, vec2d.h:142. -/
def dot (u v : Pt ℝ) : ℝ := u.1 * v.1 + u.2 * v.2

/-- `Vec2d::Length`, vec2d.h:78 (`std::hypot`). -/
noncomputable def len (u : Pt ℝ) : ℝ := √(u.1 ^ 2 + u.2 ^ 2)

/-- `Vec2d::Perp`, vec2d.h:157. -/
def perp (u : Pt ℝ) : Pt ℝ := (-u.2, u.1)

/-- `std::atan2(y, x)`. -/
noncomputable def atan2 (y x : ℝ) : ℝ := Complex.arg ⟨x, y⟩

/-- `Segment2d`, segment2d.h:342-352. -/
structure Seg where
  start : Pt ℝ
  stop : Pt ℝ
  heading : Option ℝ
  length : Option ℝ
  inv : Option ℝ

/-- The default constructor, segment2d.h:40. -/
def Seg.zero : Seg := ⟨(0, 0), (0, 0), some 0, some 0, some 0⟩

/-- The constructor from the ends, segment2d.h:44. -/
def Seg.ofEnds (s e : Pt ℝ) : Seg := ⟨s, e, none, none, none⟩

/-- The constructor from the centre, the direction and the length, segment2d.h:53-58. -/
noncomputable def Seg.ofDirection (center direction : Pt ℝ) (l : ℝ) : Seg :=
  ⟨center - scale (l / 2) direction, center + scale (l / 2) direction, none, some l, none⟩

/-- The constructor from the centre, the heading and the length, segment2d.h:47-50. -/
noncomputable def Seg.ofHeading (center : Pt ℝ) (h l : ℝ) : Seg :=
  { Seg.ofDirection center (unitFromAngle h) l with heading := some h }

/-- `Flip`, segment2d.h:77-84. -/
noncomputable def Seg.flip (s : Seg) : Seg :=
  ⟨s.stop, s.start, s.heading.map (fun h => Angles.normalizeAngle (h + π)), s.length, s.inv⟩

/-- One of the two vectors of `RotateVectorsAroundOrigin`, segment2d.cc:30-36. -/
noncomputable def rotate (θ : ℝ) (v : Pt ℝ) : Pt ℝ := (cos θ * v.1 - sin θ * v.2, sin θ * v.1 + cos θ * v.2)

/-- `RotateAroundOrigin`, segment2d.cc:43-54. -/
noncomputable def Seg.rotateAroundOrigin (s : Seg) (θ : ℝ) : Seg :=
  ⟨rotate θ s.start, rotate θ s.stop, s.heading.map (fun h => Angles.normalizeAngle (h + θ)), s.length, s.inv⟩

/-- `RotateAroundPoint`, segment2d.cc:56-75. -/
noncomputable def Seg.rotateAroundPoint (s : Seg) (p : Pt ℝ) (θ : ℝ) : Seg :=
  ⟨rotate θ (s.start - p) + p, rotate θ (s.stop - p) + p, s.heading.map (fun h => Angles.normalizeAngle (h + θ)),
    s.length, s.inv⟩

/-- `center`, segment2d.h:146-148. -/
noncomputable def Seg.center (s : Seg) : Pt ℝ := ((s.start.1 + s.stop.1) / 2, (s.start.2 + s.stop.2) / 2)

/-- `RotateAroundCenter`, segment2d.h:90-92. -/
noncomputable def Seg.rotateAroundCenter (s : Seg) (θ : ℝ) : Seg := s.rotateAroundPoint s.center θ

/-- `ShiftCenter`, segment2d.h:156-160. -/
def Seg.shift (s : Seg) (o : Pt ℝ) : Seg := ⟨s.start + o, s.stop + o, s.heading, s.length, s.inv⟩

/-- `MoveCenter`, segment2d.h:151-153. -/
noncomputable def Seg.moveCenter (s : Seg) (c : Pt ℝ) : Seg := s.shift (c - s.center)

/-! ## Queries with caches, by one thread -/

/-- `length`, segment2d.h:115-122: the value and the segment with the value cached. -/
noncomputable def Seg.getLength (s : Seg) : ℝ × Seg :=
  match s.length with
  | some l => (l, s)
  | none => (len (s.stop - s.start), { s with length := some (len (s.stop - s.start)) })

/-- `inv_length`, segment2d.h:125-133. -/
noncomputable def Seg.getInv (s : Seg) : ℝ × Seg :=
  match s.inv with
  | some i => (i, s)
  | none =>
    let l := s.getLength.1
    (if l = 0 then 0 else 1 / l, { s.getLength.2 with inv := some (if l = 0 then 0 else 1 / l) })

/-- `heading`, segment2d.h:164-171. -/
noncomputable def Seg.getHeading (s : Seg) : ℝ × Seg :=
  match s.heading with
  | some h => (h, s)
  | none =>
    (atan2 (s.stop.2 - s.start.2) (s.stop.1 - s.start.1),
      { s with heading := some (atan2 (s.stop.2 - s.start.2) (s.stop.1 - s.start.1)) })

/-- `cos_heading`, segment2d.h:174-181, and the first result of `trig_heading`, segment2d.cc:77-89. -/
noncomputable def Seg.cosHeading (s : Seg) : ℝ :=
  if s.getInv.1 = 0 then cos s.getHeading.1 else s.getInv.1 * (s.stop.1 - s.start.1)

/-- `sin_heading`, segment2d.h:183-190, and the second result of `trig_heading`. -/
noncomputable def Seg.sinHeading (s : Seg) : ℝ :=
  if s.getInv.1 = 0 then sin s.getHeading.1 else s.getInv.1 * (s.stop.2 - s.start.2)

/-- `Sqr`, segment2d.h:136-143. -/
noncomputable def Seg.sqr (s : Seg) : ℝ :=
  match s.length with
  | some l => l ^ 2
  | none => dot (s.start - s.stop) (s.start - s.stop)

/-- `PerpUnit`, segment2d.h:105-107.  Division of a vector is multiplication by the inverse, vec2d.h:87-90. -/
noncomputable def Seg.perpUnit (s : Seg) : Pt ℝ :=
  if s.getLength.1 = 0 then (0, 0) else scale (1 / s.getLength.1) (perp (s.stop - s.start))

/-- `Tangent`, segment2d.h:110-112. -/
noncomputable def Seg.tangent (s : Seg) : Pt ℝ :=
  if s.getLength.1 = 0 then (0, 0) else scale (1 / s.getLength.1) (s.stop - s.start)

/-! ## Queries by many threads -/

/-- The three caches. -/
inductive Cell where
  | heading
  | length
  | inv
  deriving DecidableEq

/-- Where a thread is in a query: before the load of a cell by a query for it, the store of a computed value, or at the
end with its result.  `inv_length` runs `length` first (segment2d.h:128). -/
inductive Pc where
  /-- `heading_.load` (`length_.load`, `inv_length_.load`) at the start of the query for that cell. -/
  | load (c : Cell)
  /-- `heading_.store`, `length_.store` or `inv_length_.store` of a value. -/
  | store (c : Cell) (v : ℝ)
  /-- The load of the length inside of `inv_length`. -/
  | invLoad
  /-- The store of the length inside of `inv_length`. -/
  | invStore (v : ℝ)
  /-- The query for a cell returned a value. -/
  | done (c : Cell) (v : ℝ)

/-- The memory: for every cache all values that it has had so far, first the initial one.  A relaxed load may return any
of them (`std::memory_order_relaxed`). -/
abbrev Mem := Cell → List (Option ℝ)

/-- The initial memory of a segment. -/
def Seg.mem (s : Seg) : Mem
  | .heading => [s.heading]
  | .length => [s.length]
  | .inv => [s.inv]

/-- What a query computes without a cached value. -/
noncomputable def Seg.fresh (s : Seg) : Cell → ℝ
  | .heading => atan2 (s.stop.2 - s.start.2) (s.stop.1 - s.start.1)
  | .length => len (s.stop - s.start)
  | .inv => 0

/-- Storing a value. -/
def Mem.store (m : Mem) (c : Cell) (v : ℝ) : Mem := fun d => if d = c then m d ++ [some v] else m d

/-- `1 / length`, or 0, segment2d.h:129. -/
noncomputable def inverse (l : ℝ) : ℝ := if l = 0 then 0 else 1 / l

/-- A step of one thread, segment2d.h:115-133 and 164-171. -/
inductive Step (s : Seg) : Mem × Pc → Mem × Pc → Prop where
  | hit (m : Mem) (c : Cell) (v : ℝ) : some v ∈ m c → Step s (m, .load c) (m, .done c v)
  | miss (m : Mem) (c : Cell) : c ≠ .inv → none ∈ m c → Step s (m, .load c) (m, .store c (s.fresh c))
  | write (m : Mem) (c : Cell) (v : ℝ) : Step s (m, .store c v) (m.store c v, .done c v)
  | invMiss (m : Mem) : none ∈ m .inv → Step s (m, .load .inv) (m, .invLoad)
  | invHit (m : Mem) (l : ℝ) : some l ∈ m .length → Step s (m, .invLoad) (m, .store .inv (inverse l))
  | invMissLength (m : Mem) : none ∈ m .length → Step s (m, .invLoad) (m, .invStore (s.fresh .length))
  | invWrite (m : Mem) (l : ℝ) : Step s (m, .invStore l) (m.store .length l, .store .inv (inverse l))

/-- The states that any number of threads can reach that query one segment; `T` names the threads. -/
inductive Reach {T : Type} [DecidableEq T] (s : Seg) : Mem → (T → Pc) → Prop where
  | init (q : T → Cell) : Reach s s.mem (fun t => .load (q t))
  | step {m m' : Mem} {pc : T → Pc} {p : Pc} (t : T) :
      Reach s m pc → Step s (m, pc t) (m', p) → Reach s m' (Function.update pc t p)
  | again {m : Mem} {pc : T → Pc} {c : Cell} {v : ℝ} (t : T) (d : Cell) :
      Reach s m pc → pc t = .done c v → Reach s m (Function.update pc t (.load d))

/-! ## Geometry -/

/-- `PointToSegmentDistanceSqr`, segment2d.h:363-390. -/
noncomputable def pointDistSqr (q p1 p2 : Pt ℝ) : ℝ :=
  let v1 := q - p1
  let v2 := p2 - p1
  let inv := 1 / distSqr p1 p2
  if dot v1 v2 * inv < 0 then distSqr q p1
  else if dot v1 v2 * inv > 1 then distSqr q p2
  else cp v1 v2 ^ 2 * inv

open Classical in
/-- `DistanceSqrToPoint`, segment2d.h:200-205. -/
noncomputable def Seg.distSqrToPoint (s : Seg) (q : Pt ℝ) : ℝ :=
  if s.start = s.stop then distSqr s.start q else pointDistSqr q s.start s.stop

/-- `Segment2d::kEpsilon`, segment2d.h:38. -/
noncomputable def eps : ℝ := 1 / 10 ^ 10

/-- The tests that the intersection of the lines is not on a segment, segment2d.cc:115-118 and 154-157. -/
def off (start stop pt : Pt ℝ) (t : ℝ) : Prop :=
  (t < 0 ∧ distSqr start pt > eps ^ 2) ∨ (t > 1 ∧ distSqr stop pt > eps ^ 2)

open Classical in
/-- The intersection of segments that are not parallel, segment2d.cc:106-125 and 146-161. -/
noncomputable def crossing (s o : Seg) : Option (Pt ℝ) :=
  let d := cp (s.stop - s.start) (o.stop - o.start)
  let t := cp (o.stop - o.start) (s.start - o.start) / d
  let t2 := cp (s.stop - s.start) (s.start - o.start) / d
  let pt := s.start + scale t (s.stop - s.start)
  if off s.start s.stop pt t ∨ off o.start o.stop pt t2 then none else some pt

open Classical in
/-- `Intersect`, segment2d.cc:91-126. -/
noncomputable def Seg.intersect (s o : Seg) : Option (Pt ℝ) :=
  if |cp (s.stop - s.start) (o.stop - o.start)| < eps then none else crossing s o

open Classical in
/-- `IntersectOrCoincide`, segment2d.cc:128-162. -/
noncomputable def Seg.intersectOrCoincide (s o : Seg) : Bool :=
  if |cp (s.stop - s.start) (o.stop - o.start)| < eps then
    decide (s.distSqrToPoint o.start < eps ^ 2 ∨ s.distSqrToPoint o.stop < eps ^ 2 ∨
      o.distSqrToPoint s.start < eps ^ 2 ∨ o.distSqrToPoint s.stop < eps ^ 2)
  else (crossing s o).isSome

open Classical in
/-- `MightIntersect`, segment2d.h:240-249. -/
noncomputable def Seg.mightIntersect (s o : Seg) : Bool :=
  decide (max s.start.1 s.stop.1 + eps ≥ min o.start.1 o.stop.1 ∧ min s.start.1 s.stop.1 - eps ≤ max o.start.1 o.stop.1 ∧
    max s.start.2 s.stop.2 + eps ≥ min o.start.2 o.stop.2 ∧ min s.start.2 s.stop.2 - eps ≤ max o.start.2 o.stop.2)

/-- `PointToSegmentLocation`, segment2d.h:261-270. -/
inductive Side where
  | left
  | right
  | colinear

open Classical in
/-- `SideOfPoint`, segment2d.h:285-299: the side and the signed distance. -/
noncomputable def Seg.sideOfPoint (s : Seg) (p : Pt ℝ) : Side × ℝ :=
  let d := cp (s.stop - s.start) (p - s.start)
  (if |d| ≥ eps then (if d > 0 then .left else .right) else .colinear, -d / s.getLength.1)

open Classical in
/-- `Sample`, segment2d.cc:164-177: the point and the returned flag. -/
noncomputable def Seg.sample (s : Seg) (dist : ℝ) : Option (Pt ℝ × Bool) :=
  if ¬ 0 ≤ dist then none
  else if ¬ 0 ≤ s.getLength.1 then none
  else if s.getLength.1 = 0 then some (s.start, false)
  else
    let frac := dist / s.getLength.1
    some (s.start + scale frac (s.stop - s.start), decide (frac < 1))

open Classical in
/-- The loop of `SamplePoints`, segment2d.cc:189-191, from `ratio` on; the first argument bounds its steps. -/
noncomputable def sampleLoop (start dp : Pt ℝ) (frac : ℝ) : ℕ → ℝ → List (Pt ℝ)
  | 0, _ => []
  | n + 1, ratio => if ratio < 1 then (start + scale ratio dp) :: sampleLoop start dp frac n (ratio + frac) else []

open Classical in
/-- `SamplePoints`, segment2d.cc:179-193.  The bound of the loop is larger than the number of its steps. -/
noncomputable def samplePoints (start stop : Pt ℝ) (dist : ℝ) : Option (List (Pt ℝ)) :=
  if ¬ 0 < dist then none
  else if len (stop - start) = 0 then some [start]
  else
    let frac := dist / len (stop - start)
    some (sampleLoop start (stop - start) frac (⌈1 / frac⌉₊ + 1) 0)

/-! ## Boxes -/

/-- `Box2d`, box2d.h:183-187. -/
structure Box where
  axis : Seg
  width : ℝ

/-- The constructor from the centre, box2d.h:51-52. -/
noncomputable def Box.ofCenter (center : Pt ℝ) (heading length width : ℝ) : Box := ⟨Seg.ofHeading center heading length, width⟩

/-- `Set` from a corner and a direction, box2d.cc:38-61.  Another index leaves the shift at zero. -/
noncomputable def Box.ofCornerDirection (i : ℤ) (corner direction : Pt ℝ) (length width : ℝ) : Box :=
  let w2 := scale (width * (1 / 2)) (perp direction)
  let l2 := scale (length * (1 / 2)) direction
  let shift : Pt ℝ := if i = 0 then -w2 + l2 else if i = 1 then -w2 - l2 else if i = 2 then w2 - l2 else if i = 3 then w2 + l2 else (0, 0)
  ⟨(Seg.ofDirection corner direction length).shift shift, width⟩

/-- `Set` from a corner and a heading, box2d.h:87-91. -/
noncomputable def Box.ofCorner (i : ℤ) (corner : Pt ℝ) (heading length width : ℝ) : Box :=
  Box.ofCornerDirection i corner (unitFromAngle heading) length width

open Classical in
/-- `Set` from two opposite corners, box2d.cc:63-72. -/
noncomputable def Box.ofCorners (bottomLeft topRight : Pt ℝ) : Option Box :=
  let lx := topRight.1 - bottomLeft.1
  let ly := topRight.2 - bottomLeft.2
  let heading := if lx ≥ ly then 0 else π / 2
  let center := scale (1 / 2) (bottomLeft + topRight)
  if 0 ≤ min lx ly then some ⟨Seg.ofHeading center heading (max lx ly), min lx ly⟩ else none

/-- `GetCorners`, box2d.cc:74-93. -/
noncomputable def Box.corners (b : Box) : List (Pt ℝ) :=
  let w2 := scale (b.width / 2) b.axis.perpUnit
  [b.axis.start + w2, b.axis.stop + w2, b.axis.stop - w2, b.axis.start - w2]

/-- `GetCornersInVectorCounterClockwise`, box2d.cc:95-104. -/
noncomputable def Box.cornersCcw (b : Box) : List (Pt ℝ) :=
  let c := b.corners
  [c.getD 0 (0, 0), c.getD 3 (0, 0), c.getD 2 (0, 0), c.getD 1 (0, 0)]

/-- `GetArea`, box2d.h:148. -/
noncomputable def Box.area (b : Box) : ℝ := b.width * b.axis.getLength.1

/-- `SetSize`, box2d.h:108-111. -/
noncomputable def Box.setSize (b : Box) (length width : ℝ) : Box := ⟨Seg.ofHeading b.axis.center b.axis.getHeading.1 length, width⟩

end Verif.Segment
