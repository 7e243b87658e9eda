import Verif.Model.Clouds

/-!
Model of the code of tutorial/tutorial_3d_semseg.ipynb (in /repo) that makes labels of points and submissions: cells 14, 21, 23,
24, 25 and 29.  Frames and range images are those of `Verif.Clouds`.  Serialization and compression are libraries and so
parameters.  `none` is an exception.
-/

namespace Verif.SemsegTutorial

open Verif.Clouds

noncomputable section

/-! ## Labels of points -/

/-- The loop body of `convert_range_image_to_point_cloud_labels`, cell 14. -/
def labelsOf (s : Parsed) (index : ℕ) (c : Calibration) : Option (List (List ℤ)) := do
  let l ← s.ranges c.name
  let ri ← l[index]?
  let x ← reshape ri
  match s.segs c.name with
  | some sl => do
    let g ← sl[index]?
    let y ← reshape g
    gatherImage y (hits x)
  | none => pure (List.replicate (hits x).length [0, 0])

/-- `convert_range_image_to_point_cloud_labels`, cell 14. -/
def toLabels (f : Frame) (s : Parsed) (index : ℕ) : Option (List (List (List ℤ))) :=
  (f.calibrations.insertionSort fun a b => a.name ≤ b.name).mapM (labelsOf s index)

/-! ## Arrays -/

/-- A numpy array: the elements row by row, as many as the shape has. -/
structure Array (α : Type) where
  shape : List ℕ
  data : List α
  whole : data.length = shape.prod

/-- What serialization and compression do to the messages. -/
structure Packing (α : Type) where
  pack : Raw α → Bytes
  unpack : Bytes → Option (Raw α)
  /-- What a message field makes of an element; `none` is an element that it refuses. -/
  field : α → Option α

/-- `compress_array`, cell 21. -/
def compress {α : Type} (P : Packing α) (a : Array α) : Option Bytes := do
  let d ← a.data.mapM P.field
  pure (P.pack ⟨d, a.shape⟩)

/-- `decompress_array`, cell 21. -/
def decompress {α : Type} (P : Packing α) (b : Bytes) : Option (Array α) := do
  let m ← P.unpack b
  if h : m.data.length = m.dims.prod then pure ⟨m.dims, m.data, h⟩ else none

/-- A 32-bit integer field refuses other integers. -/
def int32 (z : ℤ) : Option ℤ := if -2 ^ 31 ≤ z ∧ z < 2 ^ 31 then some z else none

/-! ## The dummy submission -/

/-- `TOP_LIDAR_ROW_NUM`, `TOP_LIDAR_COL_NUM`, cell 22. -/
def rows : ℕ := 64
def cols : ℕ := 2650

/-- `get_range_image_point_indexing`, cell 23; pixels outside of the grid are an IndexError.  The pairs are column and row. -/
def indexing (s : Parsed) (index : ℕ) : Option (List (ℕ × ℕ)) := do
  let l ← s.ranges 1
  let ri ← l[index]?
  let x ← reshape ri
  (hits x).mapM fun p => if p.1 < rows ∧ p.2 < cols then some (p.2, p.1) else none

/-- `range_image_pred[points[:, 1], points[:, 0], 1] = dummy_class` on an array of zeros, cell 24. -/
def paint (points : List (ℕ × ℕ)) (cls : ℤ) : List ℤ :=
  points.foldl (fun d p => d.set ((p.2 * cols + p.1) * 2 + 1) cls) (List.replicate (rows * cols * 2) 0)

theorem paint_length (points : List (ℕ × ℕ)) (cls : ℤ) : (paint points cls).length = rows * cols * 2 := by
  have : ∀ (at_ : ℕ × ℕ → ℕ) (l : List (ℕ × ℕ)) (d : List ℤ), (l.foldl (fun d p => d.set (at_ p) cls) d).length = d.length := by
    intro at_ l
    induction l with
    | nil => intro d; rfl
    | cons p l ih => intro d; rw [List.foldl_cons, ih, List.length_set]
  unfold paint
  exact (this (fun p => _) _ _).trans List.length_replicate

/-- The picture of a return. -/
def painted (points : List (ℕ × ℕ)) (cls : ℤ) : Array ℤ :=
  ⟨[rows, cols, 2], paint points cls, by rw [paint_length]; simp [List.prod_cons, Nat.mul_assoc]⟩

/-- A frame of the dataset: the parts that are read here. -/
structure Labelled where
  context : String
  timestamp : ℕ
  frame : Frame

/-- `SegmentationFrame`: name of the lidar, and its compressed labels. -/
structure SegFrame where
  context : String
  timestamp : ℕ
  lasers : List Laser

/-- `dummy_semseg_for_one_frame`, cell 24. -/
def dummy (D : Codec) (P : Packing ℤ) (f : Labelled) (cls : ℤ := 14) : Option SegFrame := do
  let s ← parse D f.frame
  let p1 ← indexing s 0
  let p2 ← indexing s 1
  let b1 ← compress P (painted p1 cls)
  let b2 ← compress P (painted p2 cls)
  pure ⟨f.context, f.timestamp, [{ name := 1, ret1 := { seg := b1 }, ret2 := { seg := b2 } }]⟩

/-- The condition in cell 25: `frame.lasers[0].ri_return1.segmentation_label_compressed`. -/
def isLabelled (f : Labelled) : Option Bool := (f.frame.lasers[0]?).map fun l => decide (l.ret1.seg ≠ [])

/-- The loop of cell 25 over the frames of all files. -/
def validation (D : Codec) (P : Packing ℤ) : List Labelled → Option (List SegFrame)
  | [] => some []
  | f :: fs => do
    let b ← isLabelled f
    if b then do
      let g ← dummy D P f
      let gs ← validation D P fs
      pure (g :: gs)
    else validation D P fs

/-- Python's sequences of strings: a tuple is never equal to a list. -/
inductive Seq where
  | tuple (l : List String)
  | list (l : List String)
  deriving DecidableEq

/-- `x.rstrip().split(',')`, cell 29; `strip` and `split` are the methods of strings. -/
def entry (rstrip : String → String) (split : String → List String) (line : String) : Seq := .list (split (rstrip line))

/-- The loop of cell 29: `if (context_name, str(timestamp)) in context_name_timestamp_tuples`. -/
def testing (D : Codec) (P : Packing ℤ) (rstrip : String → String) (split : String → List String) (lines : List String) :
    List Labelled → Option (List SegFrame)
  | [] => some []
  | f :: fs =>
    if Seq.tuple [f.context, toString f.timestamp] ∈ lines.map (entry rstrip split) then do
      let g ← dummy D P f
      let gs ← testing D P rstrip split lines fs
      pure (g :: gs)
    else testing D P rstrip split lines fs

end

end Verif.SemsegTutorial
