import Verif.Model.RangeImage

/-!
Model of utils/geometry_utils.py, for one pair of boxes and one polygon at a time: the batch dimensions only repeat the
computation.  Floating point numbers are real numbers.  `none` is a NaN, which a unit vector along an edge of length zero gives.
-/

namespace Verif.Planar

open Verif.RangeImage (argmin)

noncomputable section

/-- A point or a vector, `[x, y]`. -/
abbrev P := ℝ × ℝ

/-- `cross_product_2d`, geometry_utils.py:248-259. -/
def cross (a b : P) : ℝ := a.1 * b.2 - a.2 * b.1

/-- `dot_product_2d`, geometry_utils.py:262-273. -/
def dot (a b : P) : ℝ := a.1 * b.1 + a.2 * b.2

/-- `tf.linalg.norm`. -/
def norm (a : P) : ℝ := Real.sqrt (a.1 ^ 2 + a.2 ^ 2)

/-- `rotate_2d_points`, geometry_utils.py:276-297. -/
def rotate (p : P) (yaw : ℝ) : P :=
  (Real.cos yaw * p.1 - Real.sin yaw * p.2, Real.sin yaw * p.1 + Real.cos yaw * p.2)

/-- A vector divided by its length, geometry_utils.py:202-205 and 240-242. -/
def unit (e : P) : Option P := if norm e = 0 then none else some (e.1 / norm e, e.2 / norm e)

/-- `_get_downmost_edge_in_box`, geometry_utils.py:170-207: the index of the first lowest corner, and the direction of the edge
that starts there. -/
def downmost (box : List P) : Option (ℕ × P) := do
  let i := argmin (box.map Prod.snd)
  let a ← box[i]?
  let b ← box[(i + 1) % 4]?
  let d ← unit (b - a)
  pure (i, d)

/-- `point_order_1`, geometry_utils.py:49. -/
def order1 : List ℕ := [0, 0, 1, 1, 2, 2, 3, 3]

/-- `point_order_2`, geometry_utils.py:50. -/
def order2 : List ℕ := [0, 1, 1, 2, 2, 3, 3, 0]

/-- The corners in the given order, shifted to begin at the given corner, geometry_utils.py:75-88. -/
def pick (box : List P) (order : List ℕ) (start : ℕ) : Option (List P) := order.mapM fun k => box[(k + start) % 4]?

/-- `minkowski_sum_of_box_and_box_points`, geometry_utils.py:25-90. -/
def minkowskiSum (a b : List P) : Option (List P) := do
  let d ← downmost a
  let e ← downmost b
  let p ← pick a (if 0 ≤ cross d.2 e.2 then order2 else order1) d.1
  let q ← pick b (if 0 ≤ cross d.2 e.2 then order1 else order2) e.1
  pure (List.zipWith (· + ·) p q)

/-- The edges of a polygon, each with its two ends, geometry_utils.py:229-235. -/
def edges (poly : List P) : List (P × P) := poly.zip (poly.drop 1 ++ poly.take 1)

/-- The signed distance of a point to the line of an edge, positive to the right of the edge, geometry_utils.py:243-245 and
131-132. -/
def perp (q : P) (e : P × P) : Option ℝ := do
  let t ← unit (e.2 - e.1)
  pure (-(-t.2 * (q - e.1).1 + t.1 * (q - e.1).2))

/-- The distance of a point to the line of an edge, if its projection is on the edge, geometry_utils.py:140-154.  Infinity is
left out: `none` as the inner value. -/
def edgeDistance (q : P) (e : P × P) : Option (Option ℝ) := do
  let t ← unit (e.2 - e.1)
  let d ← perp q e
  let r := dot t (q - e.1) / norm (e.2 - e.1)
  pure (if 0 ≤ r ∧ r ≤ 1 then some |d| else none)

/-- The smallest element of a list. -/
def least : List ℝ → Option ℝ
  | [] => none
  | a :: l => some (l.foldl min a)

/-- `signed_distance_from_point_to_convex_polygon`, geometry_utils.py:93-167. -/
def signedDistance (q : P) (poly : List P) : Option ℝ := do
  let ps ← (edges poly).mapM (perp q)
  let ds ← (edges poly).mapM (edgeDistance q)
  let m ← least (ds.filterMap id ++ poly.map fun v => norm (q - v))
  pure (if ∀ d ∈ ps, d ≤ 0 then -m else m)

end

end Verif.Planar
