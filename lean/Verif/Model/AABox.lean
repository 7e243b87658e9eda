import Mathlib.Algebra.Order.Field.Basic
import Mathlib.Data.List.Sort
import Mathlib.Data.Prod.Lex

/-!
Model of math/aabox2d.h: axis aligned boxes and the tree that finds overlapping boxes.

Coordinates are in an ordered field.  `none` is an access outside of a vector.
-/

namespace Verif.AABox

variable {α : Type} [Field α] [LinearOrder α]

/-- `AABox2d`, aabox2d.h:31-155: centre and half offsets. -/
structure Box (α : Type) where
  cx : α
  cy : α
  hx : α
  hy : α

/-- `Init`, aabox2d.h:56-61. -/
def Box.init (minx miny maxx maxy : α) : Box α :=
  ⟨(minx + maxx) / 2, (miny + maxy) / 2, (maxx - minx) / 2, (maxy - miny) / 2⟩

/-- `OverlapAxis`, aabox2d.h:149-151. -/
def overlapAxis (c1 h1 c2 h2 : α) : Bool := decide (|c1 - c2| ≤ h1 + h2)

/-- `Overlap`, aabox2d.h:81-84. -/
def Box.overlap (a b : Box α) : Bool := overlapAxis a.cx a.hx b.cx b.hx && overlapAxis a.cy a.hy b.cy b.hy

/-- `ComputeIntersectionArea`, aabox2d.h:86-93. -/
def Box.intersectionArea (a b : Box α) : α :=
  if !(a.overlap b) then 0
  else
    let left := max (a.cx - a.hx) (b.cx - b.hx)
    let right := min (a.cx + a.hx) (b.cx + b.hx)
    let top := max (a.cy - a.hy) (b.cy - b.hy)
    let bottom := min (a.cy + a.hy) (b.cy + b.hy)
    (left - right) * (top - bottom)

/-- `Union`, aabox2d.h:95-116, with `GetMin` and `GetMax`, lines 63-71. -/
def Box.union (a b : Box α) : Box α :=
  let minx := if b.cx - b.hx < a.cx - a.hx then b.cx - b.hx else a.cx - a.hx
  let maxx := if b.cx + b.hx > a.cx + a.hx then b.cx + b.hx else a.cx + a.hx
  let miny := if b.cy - b.hy < a.cy - a.hy then b.cy - b.hy else a.cy - a.hy
  let maxy := if b.cy + b.hy > a.cy + a.hy then b.cy + b.hy else a.cy + a.hy
  Box.init minx miny maxx maxy

/-- `Inside`, aabox2d.h:125-127. -/
def Box.inside (a : Box α) (x y : α) : Bool := decide (|x - a.cx| ≤ a.hx) && decide (|y - a.cy| ≤ a.hy)

/-- `DistanceSqrToPoint`, aabox2d.h:132-139. -/
def Box.distanceSqr (a : Box α) (x y : α) : α :=
  let dx := max 0 (max (x - (a.cx + a.hx)) ((a.cx - a.hx) - x))
  let dy := max 0 (max (y - (a.cy + a.hy)) ((a.cy - a.hy) - y))
  dx * dx + dy * dy

/-! ## `AABox2dTree`, aabox2d.h:158-262 -/

/-- A node with its descendants (the code keeps all nodes in a vector and refers to them by position). -/
inductive Tree (α : Type) where
  | leaf (bounds : Box α) (children : List Nat)
  | inner (bounds : Box α) (left right : Tree α)

/-- The bounds of the boxes with the given indices, aabox2d.h:201-205; none without indices. -/
def bounds (boxes : List (Box α)) : List Nat → Option (Box α)
  | [] => none
  | i :: is => is.foldlM (fun (b : Box α) j => (boxes[j]?).map b.union) =<< boxes[i]?

/-- The key `(sorted[i].first, sorted[i].second)`, aabox2d.h:218-226. -/
def sortKey (boxes : List (Box α)) (level i : Nat) : Option (α × Nat) :=
  (boxes[i]?).map (fun b => (if level % 2 = 0 then b.cx else b.cy, i))

/-- `operator<=` of pairs, as used by `std::sort`. -/
def keyLe (a b : α × Nat) : Bool := decide (a.1 < b.1 ∨ (a.1 = b.1 ∧ a.2 ≤ b.2))

/-- `BuildTreeRecursive`, aabox2d.h:196-250. The recursion depth is bounded by `fuel`; see `build`. -/
def buildRec (boxes : List (Box α)) : Nat → Nat → List Nat → Option (Tree α)
  | 0, _, _ => none
  | fuel + 1, level, idx =>
    match bounds boxes idx with
    | none => none
    | some b =>
      if idx.length < 5 then some (.leaf b idx)
      else
        match idx.mapM (sortKey boxes level) with
        | none => none
        | some keys =>
          let sorted := (keys.mergeSort keyLe).map Prod.snd
          match buildRec boxes fuel (level + 1) (sorted.take (idx.length / 2)),
              buildRec boxes fuel (level + 1) (sorted.drop (idx.length / 2)) with
          | some l, some r => some (.inner b l r)
          | _, _ => none

/-- `BuildTree`, aabox2d.h:166-179; the recursion is at most as deep as there are boxes. -/
def build (boxes : List (Box α)) : Option (Tree α) := buildRec boxes (boxes.length + 1) 0 (List.range boxes.length)

/-- `CollectOverlapsRecursive`, aabox2d.h:251-270. -/
def collectRec (boxes : List (Box α)) (box : Box α) (index : Nat) : Tree α → List Nat
  | .leaf b children =>
    if !(box.overlap b) then []
    else children.filter (fun i => decide (i ≠ index) && (match boxes[i]? with | some c => box.overlap c | none => false))
  | .inner b l r =>
    if !(box.overlap b) then []
    else collectRec boxes box index l ++ collectRec boxes box index r

/-- `CollectOverlaps`, aabox2d.h:182-185, on a tree built from the boxes. -/
def collectOverlaps (boxes : List (Box α)) (index : Nat) : Option (List Nat) :=
  match build boxes, boxes[index]? with
  | some t, some box => some (collectRec boxes box index t)
  | _, _ => none

end Verif.AABox
