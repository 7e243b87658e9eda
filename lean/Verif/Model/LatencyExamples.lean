import Verif.Model.Boxes
import Mathlib.Analysis.Complex.Trigonometric

/-!
# The example submissions of the latency challenge

Model of the examples in latency/examples (paths relative to /repo/src/waymo_open_dataset), up to the networks themselves: what
goes into a network, and what is made of its detections.

* Numbers are real.  A range image is the list of its rows.
* The detections of a network are a list; a fixed batch dimension of one is left out.
* `none` is an exception.
-/

namespace Verif.LatencyExamples

open Verif.Boxes
open scoped Matrix

noncomputable section

/-! ### Detections in images -/

/-- The four numbers of a box as a network gives them. -/
structure Corners where
  c0 : ℝ
  c1 : ℝ
  c2 : ℝ
  c3 : ℝ

/-- A detection of a network. -/
structure Det where
  corners : Corners
  score : ℝ
  cls : ℤ

/-- A box of the challenge: latency/README.md:15. -/
structure Box4 where
  cx : ℝ
  cy : ℝ
  length : ℝ
  width : ℝ

/-- A detection of the challenge. -/
structure Out where
  box : Box4
  score : ℝ
  cls : ℤ

/-- `label_conversion_map`, 2d_challenge/tensorflow/wod_latency_submission/model.py:55-63 and
2d_challenge/pytorch/wod_latency_submission/__init__.py:41-49. -/
def labelMap : List (ℤ × ℤ) := [(1, 2), (2, 4), (3, 1), (4, 1), (6, 1), (8, 1), (13, 3)]

/-- `translate_label_to_wod`, model.py:44-64 and __init__.py:30-50. -/
def translate (label : ℤ) : ℤ :=
  match labelMap.find? fun p => p.1 == label with
  | none => -1
  | some p => p.2

/-- The boxes of the TensorFlow example, model.py:101-105; the image has `h` rows and `w` columns. -/
def tfBox (h w : ℕ) (c : Corners) : Box4 :=
  ⟨(c.c3 + c.c1) * h / 2, (c.c2 + c.c0) * w / 2, (c.c3 - c.c1) * h, (c.c2 - c.c0) * w⟩

/-- What `run_model` of the TensorFlow example makes of the detections, model.py:85-111.  Classes are cast to 8 bits;
`np.vectorize` needs an element. -/
def runTf (h w : ℕ) (ds : List Det) : Option (List Out) :=
  if ds = [] then none
  else some ((ds.filter fun d => decide (0 < translate (d.cls % 256))).map fun d =>
    ⟨tfBox h w d.corners, d.score, translate (d.cls % 256)⟩)

/-- The boxes of the PyTorch example, __init__.py:86-90. -/
def torchBox (c : Corners) : Box4 := ⟨(c.c3 + c.c1) / 2, (c.c2 + c.c0) / 2, c.c3 - c.c1, c.c2 - c.c0⟩

/-- What `run_model` of the PyTorch example makes of the detections, __init__.py:71-96: the detections have no batch
dimension, so `[0, ...]` is the first of them, and the selection gives one row or none. -/
def runTorch (ds : List Det) : Option (List Out) :=
  match ds with
  | [] => none
  | d :: _ => some (if 0 < translate d.cls then [⟨torchBox d.corners, d.score, translate d.cls⟩] else [])

/-! ### Point clouds -/

/-- A pixel of a range image: latency/README.md:27. -/
structure Pixel where
  range : ℝ
  intensity : ℝ
  elongation : ℝ
  pos : V3

/-- `range_image[range_image[..., 0] > 0]`, tensorflow/multiframe/wod_latency_submission/model.py:149 and
pytorch/from_saved_model/submission/lib/wod_latency_submission/__init__.py:78. -/
def valid (image : List (List Pixel)) : List Pixel :=
  open Classical in image.flatten.filter fun p => decide (0 < p.range)

/-- `transform_point_cloud`, tensorflow/multiframe/wod_latency_submission/model.py:37-73. -/
def transformPointCloud (pc : List Pixel) (oldPose newPose : M4) : List Pixel :=
  pc.map fun p =>
    let global := rotationPart oldPose *ᵥ p.pos + translationPart oldPose
    { p with pos := (rotationPart newPose)ᵀ *ᵥ (global - translationPart newPose) }

/-- A frame: its range image and its pose. -/
structure Frame where
  image : List (List Pixel)
  pose : M4

/-- The loop of `run_model`, tensorflow/multiframe/wod_latency_submission/model.py:141-158; `frames` gives the frame of a suffix. -/
def combine (frames : Fin 3 → Frame) : List Pixel :=
  let newest := (frames 0).pose
  ([0, 1, 2].foldl (fun (clouds : List (List Pixel)) (k : Fin 3) =>
    let cloud := valid (frames k).image
    clouds ++ [if clouds = [] then cloud else transformPointCloud cloud (frames k).pose newest]) []).flatten

/-- A point for the PV-RCNN network. -/
structure Point5 where
  pos : V3
  intensity : ℝ
  elongation : ℝ

/-- `DATA_FIELDS`, pytorch/from_saved_model/submission/lib/wod_latency_submission/__init__.py:31-36. -/
def dataFields : List String := ["TOP", "REAR", "FRONT", "SIDE_LEFT", "SIDE_RIGHT"].map (· ++ "_" ++ "RANGE_IMAGE_FIRST_RETURN")

/-- `_process_inputs`, pytorch/from_saved_model/submission/lib/wod_latency_submission/__init__.py:62-85: the points. -/
def processInputs (input : String → Option (List (List Pixel))) : Option (List Point5) := do
  let points ← dataFields.mapM fun f => (input f).map fun image =>
    (valid image).map fun p => (⟨p.pos, p.intensity, p.elongation⟩ : Point5)
  pure (points.flatten.map fun p => { p with intensity := Real.tanh p.intensity })

/-- The inputs of `Model.predict`, tensorflow/from_saved_model/wod_latency_submission/model.py:59-72 and 98-101: the normalized
channels and the coordinates of each pixel; `loaded` tells if the model was initialized. -/
def savedModelInput (loaded : Bool) (image : List (List Pixel)) : Option (List (List (V3 × V3))) :=
  if loaded then
    some (image.map fun row => row.map fun p =>
      (![p.range * (1 / 75), Real.tanh p.intensity, p.elongation * (1 / (3 / 2))], p.pos))
  else none

end

end Verif.LatencyExamples
