import Mathlib.Analysis.SpecialFunctions.Sqrt
import Mathlib.Algebra.Order.Floor.Ring
import Mathlib.Data.Real.Basic

/-!
Model of the code of tutorial/tutorial_vision_based_e2e_driving.ipynb (in /repo): cells 11, 15, 21, 24, 29, 31, 32, 34 and 36.
Floating point numbers are real numbers, images and calibrations are of any types.  `none` is an exception.
-/

namespace Verif.E2ETutorial

noncomputable section

/-! ## Pictures -/

/-- The body of the loop of `return_front3_cameras`, cell 11: images and calibrations come with their camera names.  A camera
without image is left out; a calibration that is missing at the index of the image is an IndexError. -/
def pick {I C : Type} (images : List (ℕ × I)) (cals : List (ℕ × C)) (name : ℕ) : Option (Option (I × ℕ × C)) :=
  match images.findIdx? fun p => p.1 = name with
  | none => some none
  | some i => do
    let img ← images[i]?
    let cal ← cals[i]?
    pure (some (img.2, cal))

/-- `return_front3_cameras`, cell 11: FRONT_LEFT is 2, FRONT is 1 and FRONT_RIGHT is 3. -/
def front3 {I C : Type} (images : List (ℕ × I)) (cals : List (ℕ × C)) : Option (List I × List (ℕ × C)) := do
  let l ← [2, 1, 3].mapM (pick images cals)
  let l := l.filterMap id
  pure (l.map Prod.fst, l.map Prod.snd)

/-- `int` of a real number: towards zero. -/
def trunc (x : ℝ) : ℤ := if 0 ≤ x then ⌊x⌋ else ⌈x⌉

/-- A disc, `cv2.circle(image, center, size, color, -1)`. -/
structure Disc where
  x : ℤ
  y : ℤ
  radius : ℕ
  deriving DecidableEq

/-- `draw_points_on_image`, cell 15, of the projections (u, v, ok) of cell 21. -/
def drawn (points : List (ℝ × ℝ × Bool)) (size : ℕ) : List Disc := points.map fun p => ⟨trunc p.1, trunc p.2.1, size⟩

/-! ## Shards -/

/-- `math.ceil(a / b)`, cell 24, without floating point. -/
def ceilDiv (a b : ℕ) : ℕ := (a + b - 1) / b

/-- Cell 24: no shards are a ZeroDivisionError. -/
def shards {P : Type} (predictions : List P) (n : ℕ) : Option (List (List P)) :=
  if n = 0 then none
  else
    let k := ceilDiv predictions.length n
    some ((List.range n).map fun i => (predictions.drop (i * k)).take ((i + 1) * k - i * k))

/-! ## Displacement -/

/-- The length of a difference of two points, `np.linalg.norm(..., axis=-1)`, cell 29. -/
def dist (p q : ℝ × ℝ) : ℝ := Real.sqrt ((p.1 - q.1) ^ 2 + (p.2 - q.2) ^ 2)

/-- numpy's broadcasting of one axis: equal lengths, or one of them is 1. -/
def broadcast {A B C : Type} (f : A → B → C) (a : List A) (b : List B) : Option (List C) :=
  if a.length = b.length then some (List.zipWith f a b)
  else match a, b with
    | [x], b => some (b.map fun y => f x y)
    | a, [y] => some (a.map fun x => f x y)
    | _, _ => none

/-- `average_distance_per_step`, cell 29, of one proposal. -/
def averageDistance (prediction observed : List (ℝ × ℝ)) (mask : List Bool) : Option ℝ := do
  let d ← broadcast dist prediction observed
  let m ← broadcast (fun x (b : Bool) => if b then x else 0) d mask
  pure (m.sum / max (mask.count true : ℝ) 1)

/-- `np.stack([pos_x, pos_y], axis=1)`: other lengths are an error. -/
def stackXY (x y : List ℝ) : Option (List (ℝ × ℝ)) := if x.length = y.length then some (x.zip y) else none

/-- The dictionary of cell 31: later entries replace earlier ones. -/
def dict {T : Type} (l : List (String × T)) : String → Option T := l.foldl (fun d p => Function.update d p.1 (some p.2)) fun _ => none

/-- Cell 32: the average displacement of each frame. -/
def ades (truth : List (String × List (ℝ × ℝ))) (predictions : List (String × List (ℝ × ℝ))) : Option (List ℝ) :=
  truth.mapM fun g => do
    let p ← dict predictions g.1
    averageDistance p g.2 (List.replicate g.2.length true)

/-! ## The rated frames -/

/-- The parts of `E2EDFrame` that are read in cells 34 and 36: scores of the preferred trajectories and past velocities. -/
structure Frame where
  scores : List ℝ
  velX : List ℝ
  velY : List ℝ

/-- Cell 34: the first frame whose first trajectory has a score; `none` is Python's `None`. -/
def rated (frames : List Frame) : Option Frame := frames.find? fun f => match f.scores with
  | [] => false
  | s :: _ => decide (s ≠ -1)

/-- The initial speeds of cell 36: `data` is a global variable, the last frame that was read. -/
def initialSpeeds (data : Frame) (list : List Frame) : Option (List ℝ) := list.mapM fun _ => do
  let x ← data.velX.getLast?
  let y ← data.velY.getLast?
  pure (Real.sqrt (x ^ 2 + y ^ 2))

end

end Verif.E2ETutorial
