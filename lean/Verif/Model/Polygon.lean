import Mathlib.Algebra.Field.Basic
import Mathlib.Algebra.Order.Ring.Defs
import Mathlib.Algebra.Order.Group.Abs
import Mathlib.Order.Lattice
import Mathlib.Algebra.Group.Prod
import Mathlib.Algebra.Group.Action.Prod
import Mathlib.Data.Prod.Basic
import Mathlib.Data.List.Basic

/-!
Model of math/polygon2d.{h,cc}: convex polygons, the point-in-polygon test, the intersection of two segments, the
vertices of the intersection of two polygons and its area.

Numbers are the elements of a linearly ordered field `K`, so that the algorithm can be evaluated over the rational
numbers and reasoned about over the real numbers.  `CrossMaybeExact` (polygon2d.cc:67-151) differs from `Cross` only
in the rounding of the result, so that both are `cross4`.  The constructors of polygons and `Box2d` corners are exact.
`DCHECK`s are not modelled.  `none` is a failed `CHECK`.
-/

namespace Verif.Polygon

variable {K : Type*} [Field K] [LinearOrder K]

/-- `Vec2d`, vec2d.h. -/
abbrev Pt (K : Type*) := K × K

/-- `Vec2d::CrossProd`, vec2d.h:149-151. -/
def cp (u v : Pt K) : K := u.1 * v.2 - u.2 * v.1

/-- `Cross` of three points, polygon2d.cc:44-46. -/
def cross3 (v0 v1 v2 : Pt K) : K := cp (v1 - v0) (v2 - v0)

/-- `Cross` of four points, polygon2d.cc:49-51, and `CrossMaybeExact`, polygon2d.cc:114-151. -/
def cross4 (v0 v1 v2 v3 : Pt K) : K := cp (v1 - v0) (v3 - v2)

/-- `kCrossExactEpsilon`, polygon2d.cc:58. -/
def kCross : K := 1 / 2 ^ 50

/-- `Polygon2d::kEpsilon`, polygon2d.h:125. -/
def kEpsilon : K := 1 / 10 ^ 10

/-- A multiple of a point, `Vec2d::operator*`, vec2d.h. -/
def scale (t : K) (v : Pt K) : Pt K := (t * v.1, t * v.2)

/-- `ElemWiseMin`, vec2d.h:263-265. -/
def elemMin (u v : Pt K) : Pt K := (min u.1 v.1, min u.2 v.2)

/-- `ElemWiseMax`, vec2d.h:258-260. -/
def elemMax (u v : Pt K) : Pt K := (max u.1 v.1, max u.2 v.2)

/-- The sum of the loop of `AreaInternal`, polygon2d.cc:165-172: the cross products of the fan from the first point. -/
def fan (o : Pt K) : List (Pt K) → K
  | a :: b :: l => cross3 o a b + fan o (b :: l)
  | _ => 0

/-- Twice the area before it is cut off, polygon2d.cc:165-172. -/
def twiceArea : List (Pt K) → K
  | [] => 0
  | o :: l => fan o l

/-- `AreaInternal`, polygon2d.cc:155-177. -/
def areaInternal (pts : List (Pt K)) : K :=
  (if |twiceArea pts| ≤ kEpsilon then 0 else twiceArea pts) * (1 / 2)

/-- `Vec2d::DistanceSqrToPoint`, vec2d.h:202-205. -/
def distSqr (u v : Pt K) : K := (u.1 - v.1) ^ 2 + (u.2 - v.2) ^ 2

/-- The loop of `RemoveConsecutiveDuplicatePoints`, polygon2d.cc:184-191; `last` is the last point that was kept. -/
def dedupLoop (last : Pt K) : List (Pt K) → List (Pt K)
  | [] => []
  | a :: l => if kEpsilon ^ 2 ≤ distSqr last a then a :: dedupLoop a l else dedupLoop last l

/-- `RemoveConsecutiveDuplicatePoints`, polygon2d.cc:179-197. -/
def dedup : List (Pt K) → List (Pt K)
  | [] => []
  | a :: l =>
    let r := a :: dedupLoop a l
    if 2 ≤ r.length ∧ distSqr (r.getLastD a) a < kEpsilon ^ 2 then r.dropLast else r

/-- A polygon, polygon2d.h:137-143: the points, their number and the corners of the bounding box. -/
structure Poly (K : Type*) where
  pts : List (Pt K)
  n : ℕ
  lo : Pt K
  hi : Pt K

/-- `AxisAlignedBoundingBox`, polygon2d.cc:520-531, of a polygon that starts with `a`. -/
def bboxLo (a : Pt K) (l : List (Pt K)) : Pt K := l.foldl elemMin a
/-- See `bboxLo`. -/
def bboxHi (a : Pt K) (l : List (Pt K)) : Pt K := l.foldl elemMax a

/-- The fake points of `BuildFromPoints`, polygon2d.cc:219-228. -/
def pad : List (Pt K) → List (Pt K)
  | [a] => [a, a, a, a]
  | [a, b] => [a, b, b, a]
  | l => l

/-- `BuildFromPoints`, polygon2d.cc:213-233. -/
def build (pts : List (Pt K)) : Option (Poly K) :=
  match pad pts with
  | [] => none
  | a :: l => some ⟨a :: l, (a :: l).length, bboxLo a l, bboxHi a l⟩

/-- The constructor from points, polygon2d.cc:201-211. -/
def ofPoints (pts : List (Pt K)) : Option (Poly K) :=
  if 2 < pts.length then build (dedup pts) else none

/-- `points_[i]`. -/
def Poly.pt (P : Poly K) (i : ℕ) : Pt K := P.pts.getD i (0, 0)

/-- `Next`, polygon2d.h:78-80. -/
def Poly.next (P : Poly K) (i : ℕ) : ℕ := if i = P.n - 1 then 0 else i + 1

/-- `Prev`, polygon2d.h:75-77. -/
def Poly.prev (P : Poly K) (i : ℕ) : ℕ := if i = 0 then P.n - 1 else i - 1

/-- `Segment`, polygon2d.h:68-72. -/
def Poly.segment (P : Poly K) (i : ℕ) : Pt K := P.pt (P.next i) - P.pt i

/-- The loop that halves the range, polygon2d.cc:251-259; the first argument bounds the number of its steps. -/
def bisect (P : Poly K) (p : Pt K) : ℕ → ℕ → ℕ → ℕ × ℕ
  | 0, s, e => (s, e)
  | fuel + 1, s, e =>
    if 10 < e - s then
      let mid := (e + s) / 2
      if 0 ≤ cp (P.pt mid - P.pt 0) (p - P.pt 0) then bisect P p fuel mid e else bisect P p fuel s mid
    else (s, e)

/-- The edges `s, …, e - 2` of the loop at polygon2d.cc:260-265; the first argument is the number of steps left. -/
def edgesLeft (P : Poly K) (p : Pt K) : ℕ → ℕ → Bool
  | 0, _ => true
  | k + 1, i => if cp (P.pt (i + 1) - P.pt i) (p - P.pt i) < 0 then false else edgesLeft P p k (i + 1)

/-- `PointInside`, polygon2d.cc:235-271. -/
def pointInside (P : Poly K) (p : Pt K) : Bool :=
  if P.n < 3 then false
  else if p.1 < P.lo.1 ∨ p.2 < P.lo.2 ∨ p.1 > P.hi.1 ∨ p.2 > P.hi.2 then false
  else
    let r := bisect P p P.n 0 P.n
    if edgesLeft P p (r.2 - 1 - r.1) r.1 = false then false
    else if r.1 < r.2 ∧ cp (P.segment (r.2 - 1)) (p - P.pt (r.2 - 1)) < 0 then false
    else true

/-- `ColinearSegmentPointIntersection`, polygon2d.cc:279-290. -/
def colinearPoint (p0 p1 q : Pt K) : Option (Pt K) :=
  if (elemMin p0 p1).1 ≤ q.1 ∧ q.1 ≤ (elemMax p0 p1).1 ∧ (elemMin p0 p1).2 ≤ q.2 ∧ q.2 ≤ (elemMax p0 p1).2 then some q
  else none

/-- `copysign(1.0, det)` of a number that is not zero, polygon2d.cc:310. -/
def sgn (det : K) : K := if det < 0 then -1 else 1

/-- One of the two tests of `ExactIntersection` that a parameter lies between 0 and 1, polygon2d.cc:315-324 and
328-337: `t` is the parameter times `det`, `rt` the same number counted from the other end. -/
def inRange (det t rt : K) : Bool :=
  if t * sgn det < 0 ∨ t * sgn det > |det| + max |det| 1 * kCross then false
  else if t * sgn det > |det| - max |det| 1 * kCross then
    if rt * sgn det < 0 then false else true
  else true

/-- `ExactIntersection`, polygon2d.cc:295-342. -/
def exactIntersection (p0 p1 q0 q1 : Pt K) (det : K) : Option (Pt K) :=
  if det = 0 then
    if cross4 p0 p1 p0 q0 ≠ 0 then none
    else colinearPoint q0 q1 p0 <|> colinearPoint q0 q1 p1 <|> colinearPoint p0 p1 q0 <|> colinearPoint p0 p1 q1
  else if inRange det (cross4 p0 q0 q1 q0) (cross4 p1 q1 q0 q1) = false then none
  else if inRange det (cross4 p0 p1 p0 q0) (cross4 p1 p0 p1 q1) = false then none
  else some (p0 + scale (max 0 (min 1 (cross4 p0 q0 q1 q0 / det))) (p1 - p0))

/-- `ExactSegmentIntersection`, polygon2d.cc:348-355. -/
def segmentIntersection (p0 p1 q0 q1 : Pt K) : Option (Pt K) :=
  exactIntersection p0 p1 q0 q1 (cross4 p0 p1 q1 q0)

/-- `append_convex_point`, polygon2d.cc:391-396. -/
def append (p : Pt K) (l : List (Pt K)) : List (Pt K) :=
  match l with
  | [] => [p]
  | a :: _ => if p ≠ a ∧ p ≠ l.getLastD a then l ++ [p] else l

/-- The variables of the loop of `ComputeIntersectionVertices`, polygon2d.cc:382-403: the starts of the current edges,
the flags and the points found so far. -/
structure St (K : Type*) where
  pi : ℕ
  qi : ℕ
  pin : Bool
  qin : Bool
  cps : List (Pt K)

/-- `det`, polygon2d.cc:411. -/
def St.det (P Q : Poly K) (s : St K) : K :=
  cross4 (P.pt s.pi) (P.pt (P.next s.pi)) (Q.pt (Q.next s.qi)) (Q.pt s.qi)

/-- The intersection of the current edges, polygon2d.cc:412. -/
def St.inter (P Q : Poly K) (s : St K) : Option (Pt K) :=
  exactIntersection (P.pt s.pi) (P.pt (P.next s.pi)) (Q.pt s.qi) (Q.pt (Q.next s.qi)) (s.det P Q)

/-- The side of the end of the edge of `P` with respect to the edge of `Q`, polygon2d.cc:425 and 437. -/
def St.sideP (P Q : Poly K) (s : St K) : K :=
  cross4 (Q.pt (Q.next s.qi)) (Q.pt s.qi) (P.pt (P.next s.pi)) (Q.pt s.qi)

/-- The side of the end of the edge of `Q` with respect to the edge of `P`, polygon2d.cc:438. -/
def St.sideQ (P Q : Poly K) (s : St K) : K :=
  cross4 (P.pt (P.next s.pi)) (P.pt s.pi) (Q.pt (Q.next s.qi)) (P.pt s.pi)

/-- Recording an intersection, polygon2d.cc:422-431. -/
def St.mark (P Q : Poly K) (s : St K) (x : Pt K) : St K :=
  let inside := decide (0 ≤ s.sideP P Q)
  ⟨s.pi, s.qi, inside, !inside, append x s.cps⟩

/-- `advance_p`, polygon2d.cc:436-438. -/
def St.advanceP (P Q : Poly K) (s : St K) : Bool :=
  if 0 ≤ s.det P Q then decide (s.sideP P Q < 0) else decide (0 ≤ s.sideQ P Q)

/-- The end of the body of the loop, polygon2d.cc:440-456. -/
def St.advance (P Q : Poly K) (s : St K) : St K :=
  if s.advanceP P Q then
    ⟨P.next s.pi, s.qi, s.pin, s.qin, if s.pin then append (P.pt (P.next s.pi)) s.cps else s.cps⟩
  else
    ⟨s.pi, Q.next s.qi, s.pin, s.qin, if s.qin then append (Q.pt (Q.next s.qi)) s.cps else s.cps⟩

/-- The loop once an intersection has been found, polygon2d.cc:405-457; the argument is the number of iterations left.
`none` means that the loop ended without returning. -/
def run2 (P Q : Poly K) : ℕ → St K → Option (List (Pt K))
  | 0, _ => none
  | k + 1, s =>
    match s.inter P Q with
    | some x =>
      if 2 < s.cps.length ∧ some x = s.cps.head? then some s.cps
      else run2 P Q k ((s.mark P Q x).advance P Q)
    | none => run2 P Q k (s.advance P Q)

/-- The loop until the first intersection is found, polygon2d.cc:405-457.  Upon the first intersection the counter of
the loop is reset, so that `total` iterations follow the current one (polygon2d.cc:416-421).  `none` means that the
loop ended without an intersection; otherwise the result of `run2`. -/
def run1 (P Q : Poly K) (total : ℕ) : ℕ → St K → Option (Option (List (Pt K)))
  | 0, _ => none
  | k + 1, s =>
    match s.inter P Q with
    | some x => some (run2 P Q total ((s.mark P Q x).advance P Q))
    | none => run1 P Q total k (s.advance P Q)

/-- `MaybeHasIntersectionWith`, polygon2d.cc:506-518. -/
def maybeIntersect (P Q : Poly K) : Bool :=
  if P.lo.1 > Q.hi.1 ∨ Q.lo.1 > P.hi.1 ∨ P.lo.2 > Q.hi.2 ∨ Q.lo.2 > P.hi.2 then false else true

/-- `ComputeIntersectionVertices`, polygon2d.cc:360-496. -/
def vertices (P Q : Poly K) : List (Pt K) :=
  if maybeIntersect P Q = false then []
  else
    match run1 P Q (P.n + Q.n) ((P.n + Q.n) * 2) ⟨0, 0, false, false, []⟩ with
    | some (some l) => l
    | some none => []
    | none =>
      if P.pts.all (pointInside Q) then P.pts
      else if Q.pts.all (pointInside P) then Q.pts
      else []

/-- `ComputeIntersectionArea`, polygon2d.cc:498-504. -/
def intersectionArea (P Q : Poly K) : K :=
  let l := vertices P Q
  if l.length < 3 then 0 else areaInternal l

/-! ## Boxes -/

/-- The corners of a box in counter-clockwise order, box2d.cc:74-104, of a box made from its centre, the cosine and
sine of its heading, its length and its width (segment2d.h:53-58 and 105-107): rear left, rear right, front right,
front left. -/
def boxCorners (c d : Pt K) (length width : K) : List (Pt K) :=
  let offset := scale (length / 2) d
  let start := c - offset
  let stop := c + offset
  let u : Pt K := if length = 0 then (0, 0) else scale (1 / length) (-(stop - start).2, (stop - start).1)
  let w2 := scale (width / 2) u
  [start + w2, start - w2, stop - w2, stop + w2]

/-- The polygon of a box, polygon2d.h:45-49. -/
def ofBox (c d : Pt K) (length width : K) : Option (Poly K) := build (boxCorners c d length width)

/-! ## Moving polygons -/

/-- `ShiftCenter`, polygon2d.cc:533-539. -/
def Poly.shift (P : Poly K) (o : Pt K) : Poly K := ⟨P.pts.map (· + o), P.n, P.lo + o, P.hi + o⟩

/-- `Transform`, polygon2d.cc:541-557, given the cosine and sine of the angle; `zero` tells that the angle is zero. -/
def Poly.transform (P : Poly K) (zero : Bool) (cosa sina : K) (center offset : Pt K) : Option (Poly K) :=
  if zero then some (P.shift offset)
  else
    build (P.pts.map (fun p =>
      let x := p.1 - center.1
      let y := p.2 - center.2
      (x * cosa - y * sina + (center + offset).1, x * sina + y * cosa + (center + offset).2)))

/-- `AreaNoValidityCheck`, polygon2d.cc:273, and `Area`, polygon2d.h:86. -/
def Poly.area (P : Poly K) : K := areaInternal P.pts

/-! ## The test for convexity -/

/-- Setting the flags `has_ccw_direction` and `has_cw_direction`, polygon2d.cc:590-594 and 613-617. -/
def sawTurn (f : Bool × Bool) (x : K) : Bool × Bool :=
  if x > kEpsilon then (true, f.2) else if x < -kEpsilon then (f.1, true) else f

/-- The first loop of `IsConvexHull`, polygon2d.cc:584-596, on the cross products at the points from the current one
on. -/
def turns (f : Bool × Bool) : List K → Option (Bool × Bool)
  | [] => some f
  | x :: l => if (sawTurn f x).1 && (sawTurn f x).2 then none else turns (sawTurn f x) l

/-- The inner loop of `IsConvexHull`, polygon2d.cc:604-625, on the cross products of the fan; the last component of the
result is `conclusive`. -/
def fanTurns (f : Bool × Bool) : List K → Option ((Bool × Bool) × Bool)
  | [] => some (f, true)
  | x :: l =>
    if x > kEpsilon ∨ x < -kEpsilon then
      if (sawTurn f x).1 && (sawTurn f x).2 then none else fanTurns (sawTurn f x) l
    else some (f, false)

/-- The loop over the reference points, polygon2d.cc:600-626. -/
def refs (pts : List (Pt K)) (f : Bool × Bool) : List (Pt K) → Option (Bool × Bool)
  | [] => some f
  | r :: l =>
    match fanTurns f ((pts.drop 1).zipWith (fun a b => cross3 r a b) (pts.drop 2)) with
    | none => none
    | some (g, conclusive) => if conclusive then some g else refs pts g l

/-- The cross products at the points, polygon2d.cc:587-589. -/
def cornerTurns (pts : List (Pt K)) : List K :=
  (List.range pts.length).map (fun i =>
    cross3 (pts.getD (if i = 0 then pts.length - 1 else i - 1) (0, 0)) (pts.getD i (0, 0))
      (pts.getD (if i = pts.length - 1 then 0 else i + 1) (0, 0)))

/-- `IsConvexHull`, polygon2d.cc:579-631: `none` if the function returns false, otherwise the value of
`counter_clockwise`. -/
def isConvexHull (pts : List (Pt K)) : Option Bool :=
  match turns (false, false) (cornerTurns pts) with
  | none => none
  | some f =>
    match refs pts f pts with
    | none => none
    | some g => some (!g.2)

end Verif.Polygon
