import Mathlib.Data.List.Basic
import Mathlib.Algebra.BigOperators.Group.List.Basic

/-!
# Pictures of camera segmentation and the choice of frames

Model of the rest of utils/camera_segmentation_utils.py (paths relative to /repo/src/waymo_open_dataset); the labels
themselves are in Panoptic.

* An array is given by its dimensions and its elements in row-major order.
* Elements of labels are integers; `wrap` is what the type of the instance labels makes of a result: nothing for a signed
  type that is wide enough, the remainder for an unsigned one.  Colors have 8 bits.
* Two labels have the same shape once squeezed; NumPy would also broadcast some others.
* `none` is an exception.
-/

namespace Verif.SegView

/-! ### Colors -/

/-- Red, green and blue. -/
structure Color where
  r : ℤ
  g : ℤ
  b : ℤ
  deriving DecidableEq

/-- An assignment to elements of type `np.uint8`. -/
def u8 (x : ℤ) : ℤ := x % 256

/-- A color as `np.uint8`. -/
def Color.u8 (c : Color) : Color := ⟨SegView.u8 c.r, SegView.u8 c.g, SegView.u8 c.b⟩

/-- `_generate_color_map`, camera_segmentation_utils.py:350-369; `d` are the items of the mapping. -/
def colorMap (d : List (ℕ × Color)) : Option (List Color) :=
  match (d.map Prod.fst).max? with
  | none => none
  | some m => some (d.foldl (fun rows p => rows.set p.1 p.2.u8) (List.replicate (m + 1) ⟨0, 0, 0⟩))

/-- `SEGMENTATION_COLOR_MAP`, camera_segmentation_utils.py:37-67, with the numbers of protos/camera_segmentation.proto. -/
def segmentationColors : List (ℕ × Color) := [(0, ⟨0, 0, 0⟩), (1, ⟨102, 102, 102⟩), (2, ⟨0, 0, 142⟩), (3, ⟨0, 0, 70⟩),
  (4, ⟨0, 60, 100⟩), (5, ⟨61, 133, 198⟩), (6, ⟨119, 11, 32⟩), (7, ⟨0, 0, 230⟩), (8, ⟨111, 168, 220⟩), (9, ⟨220, 20, 60⟩),
  (10, ⟨255, 0, 0⟩), (11, ⟨180, 0, 0⟩), (12, ⟨127, 96, 0⟩), (13, ⟨91, 15, 0⟩), (14, ⟨230, 145, 56⟩), (15, ⟨153, 153, 153⟩),
  (16, ⟨234, 153, 153⟩), (17, ⟨246, 178, 107⟩), (18, ⟨250, 170, 30⟩), (19, ⟨70, 70, 70⟩), (20, ⟨128, 64, 128⟩),
  (21, ⟨234, 209, 220⟩), (22, ⟨217, 210, 233⟩), (23, ⟨244, 35, 232⟩), (24, ⟨107, 142, 35⟩), (25, ⟨70, 130, 180⟩),
  (26, ⟨102, 102, 102⟩), (27, ⟨102, 102, 102⟩), (28, ⟨102, 102, 102⟩)]

/-- An array with elements of some type. -/
structure Arr (α : Type) where
  dims : List ℕ
  data : List α

/-- `if label.shape[-1] == 1: label = np.squeeze(label, axis=-1)`, camera_segmentation_utils.py:388-389 and 417-420; an
array without dimensions has no last one. -/
def squeeze {α : Type} (l : Arr α) : Option (Arr α) :=
  match l.dims.getLast? with
  | none => none
  | some n => some (if n = 1 then ⟨l.dims.dropLast, l.data⟩ else l)

/-- `rows[i]`: negative numbers count from the end. -/
def row {α : Type} (rows : List α) (i : ℤ) : Option α :=
  if 0 ≤ i then rows[i.toNat]? else if 0 ≤ i + rows.length then rows[(i + rows.length).toNat]? else none

/-- `semantic_label_to_rgb`, camera_segmentation_utils.py:374-390: the last dimension of the picture, of size three, is left
out, an element is a color. -/
def semanticToRgb (semantic : Arr ℤ) (map : List Color) : Option (Arr Color) := do
  let l ← squeeze semantic
  let colors ← l.data.mapM (row map)
  pure ⟨l.dims, colors⟩

/-- `ins_noise`, camera_segmentation_utils.py:425, of one pixel. -/
def noise (wrap : ℤ → ℤ) (prime delta inst : ℤ) : ℤ := wrap (wrap (inst * prime) % (delta * 2) - delta)

/-- The color of one pixel, camera_segmentation_utils.py:425-429; the sum is assigned to 8 bits before it is clipped. -/
def instanceColor (wrap : ℤ → ℤ) (prime delta : ℤ) (c : Color) (inst : ℤ) : Color :=
  ⟨c.r, max 0 (min 255 (u8 (if 0 < inst then wrap (c.g + noise wrap prime delta inst) else c.g))), c.b⟩

/-- `panoptic_label_to_rgb`, camera_segmentation_utils.py:393-433; `[:, :, 1]` needs a picture of three dimensions. -/
def panopticToRgb (wrap : ℤ → ℤ) (semantic inst : Arr ℤ) (map : List Color) (prime delta : ℤ) : Option (Arr Color) := do
  let s ← squeeze semantic
  let i ← squeeze inst
  let image ← semanticToRgb s map
  guard (image.dims.length = 2 ∧ image.dims = i.dims)
  pure ⟨image.dims, List.zipWith (instanceColor wrap prime delta) image.data i.data⟩

/-! ### Frames -/

/-- The first image of a frame: whether it has a label, and the sequence of the label. -/
structure Image where
  labelled : Bool
  sequence : String

/-- A frame, with the label of its first image if it has images. -/
structure Frame where
  name : ℕ
  first : Option Image

/-- The loop of `load_frames_with_labels_from_dataset`, camera_segmentation_utils.py:524-536. -/
def loadLoop (k : ℤ) : List Frame → List Frame → Option String → Option (List Frame × Option String)
  | [], acc, s => some (acc, s)
  | f :: rest, acc, s =>
    match f.first with
    | none => none
    | some i =>
      if i.labelled then
        let acc := acc ++ [f]
        let s := s.getD i.sequence
        if i.sequence ≠ s ∨ k ≤ acc.length then some (acc, some s) else loadLoop k rest acc (some s)
      else loadLoop k rest acc s

/-- `load_frames_with_labels_from_dataset`, camera_segmentation_utils.py:505-538. -/
def load (frames : List Frame) (k : ℤ) : Option (List Frame × Option String) := loadLoop k frames [] none

end Verif.SegView
