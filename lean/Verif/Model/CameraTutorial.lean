import Mathlib.Algebra.Order.Floor.Ring
import Mathlib.Data.Real.Archimedean

/-!
Model of the code of tutorial/tutorial_camera_only.ipynb (in /repo): cells 8, 21, 23, 33, 36 and 40.  Floating point numbers are
real numbers.  The projection of the corners of a box, cell 22, is a parameter.  `none` is an exception.
-/

namespace Verif.CameraTutorial

noncomputable section

/-! ## Submissions -/

/-- A box: center, length, width, height and heading. -/
structure Box where
  x : ℝ
  y : ℝ
  z : ℝ
  l : ℝ
  w : ℝ
  h : ℝ
  heading : ℝ

/-- `metrics_pb2.Object` as it is made here. -/
structure Obj where
  context : String
  time : ℕ
  box : Box
  type : ℕ
  id : String
  score : ℝ

/-- `x, y, z, l, w, h, heading = boxes[i]`: another number of elements is an error. -/
def unpack : List ℝ → Option Box
  | [x, y, z, l, w, h, heading] => some ⟨x, y, z, l, w, h, heading⟩
  | _ => none

/-- `label_pb2.Label.Type.Name(cls)`: numbers above 4 have no name. -/
def typeOf (cls : ℕ) : Option ℕ := if cls ≤ 4 then some cls else none

/-- `make_inference_objects`, cell 33. -/
def makeObjects (context : String) (time : ℕ) (boxes : List (List ℝ)) (classes : List ℕ) (scores : List ℝ) : Option (List Obj) :=
  (List.range boxes.length).mapM fun (i : ℕ) => do
    let row ← boxes[i]?
    let box ← unpack row
    let cls ← classes[i]?
    let score ← scores[i]?
    let type ← typeOf cls
    pure ⟨context, time, box, type, toString cls ++ "_" ++ toString i, score⟩

/-- The inner loop of cell 36: objects are dealt out to the shards in turn; `k` is `obj_counter`. -/
def deal {O : Type} (n : ℕ) : ℕ → List (List O) → List O → Option (List (List O))
  | _, shards, [] => some shards
  | k, shards, o :: os => if n = 0 then none else deal n (k + 1) (shards.modify (k % n) (· ++ [o])) os

/-- Cell 36: all objects of all frames of all contexts. -/
def submit {O : Type} (n : ℕ) (predictions : List (List (List O))) : Option (List (List O)) :=
  deal n 0 (List.replicate n []) (predictions.flatten.flatten)

/-! ## Evaluation -/

/-- A ground truth as it is read in cell 40. -/
structure Truth where
  context : String
  time : ℕ
  camera : String
  points : ℕ
  level : ℕ
  type : ℕ
  cameraBox : Box

/-- The tensors of `eval_dict`. -/
structure Eval where
  predFrame : List ℕ
  predBox : List Box
  predType : List ℕ
  predScore : List ℝ
  gtFrame : List ℕ
  gtBox : List Box
  gtType : List ℕ
  gtLevel : List ℕ

/-- The ground truths that are kept, `parse_metrics_objects_binary_files`, cell 40. -/
def kept (g : Truth) : Bool := g.camera ≠ "" ∧ g.points ≠ 0

/-- `parse_metrics_objects_binary_files`, cell 40: level UNKNOWN is 0 and becomes LEVEL_2. -/
def parse (truths : List Truth) (predictions : List Obj) : Eval :=
  let gs := truths.filter kept
  { predFrame := predictions.map Obj.time
    predBox := predictions.map Obj.box
    predType := predictions.map Obj.type
    predScore := predictions.map Obj.score
    gtFrame := gs.map Truth.time
    gtBox := gs.map Truth.cameraBox
    gtType := gs.map Truth.type
    gtLevel := gs.map fun g => if g.level = 0 then 2 else g.level }

/-! ## Drawn boxes -/

/-- The parts of a label that are read in cell 23; `corners` are its eight projected corners with whether they could be
projected, or `none` if there is no `camera_synced_box`. -/
structure Label where
  corners : Option (List (ℝ × ℝ × Bool))
  points : ℕ
  topPoints : ℕ

/-- `FILTER_AVAILABLE`, cell 8. -/
def filterAvailable (labels : List Label) : Bool := labels.any fun l => l.topPoints ≠ 0

/-- `np.clip`. -/
def clip (x lo hi : ℝ) : ℝ := min (max x lo) hi

/-- The minimum and maximum of an array; an empty one is an error. -/
def minOf : List ℝ → Option ℝ
  | [] => none
  | a :: l => some (l.foldl min a)

def maxOf : List ℝ → Option ℝ
  | [] => none
  | a :: l => some (l.foldl max a)

/-- A rectangle: corner and extent. -/
structure Rect where
  x : ℝ
  y : ℝ
  w : ℝ
  h : ℝ

/-- What is drawn for one label in two dimensions, cells 21 and 23: `some none` is nothing. -/
def rectOf (available : Bool) (width height : ℝ) (label : Label) : Option (Option Rect) :=
  match label.corners with
  | none => some none
  | some cs =>
    if (available = true ∧ label.topPoints = 0) ∨ (available = false ∧ label.points = 0) then some none
    else if ¬ (cs.all fun c => c.2.2) then some none
    else do
      let us := cs.map fun c => clip c.1 0 width
      let vs := cs.map fun c => clip c.2.1 0 height
      let u0 ← minOf us
      let u1 ← maxOf us
      let v0 ← minOf vs
      let v1 ← maxOf vs
      if u1 - u0 = 0 ∨ v1 - v0 = 0 then some none else some (some ⟨u0, v0, u1 - u0, v1 - v0⟩)

/-- `show_projected_camera_synced_boxes`, cell 23. -/
def rects (width height : ℝ) (labels : List Label) : Option (List Rect) := do
  let l ← labels.mapM (rectOf (filterAvailable labels) width height)
  pure (l.filterMap id)

/-- `int` of a number that is not negative. -/
def trunc (x : ℝ) : ℤ := ⌊x⌋

/-- The ends of the edges, `draw_3d_wireframe_box`, cell 21. -/
def edges : List (ℕ × ℕ) := [(0, 1), (1, 2), (2, 3), (3, 0), (4, 5), (5, 6), (6, 7), (7, 4), (0, 4), (1, 5), (2, 6), (3, 7)]

/-- The lines of the wireframe between clipped corners, cells 21 and 23. -/
def wireframe (width height : ℝ) (cs : List (ℝ × ℝ)) : Option (List ((ℤ × ℤ) × ℤ × ℤ)) :=
  edges.mapM fun e => do
    let a ← cs[e.1]?
    let b ← cs[e.2]?
    pure ((trunc (clip a.1 0 width), trunc (clip a.2 0 height)), trunc (clip b.1 0 width), trunc (clip b.2 0 height))

end

end Verif.CameraTutorial
