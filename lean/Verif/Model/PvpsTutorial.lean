import Mathlib.Data.List.Basic

/-!
Model of the code of tutorial/tutorial_2d_pvps.ipynb (in /repo): cells 9, 10, 12, 13, 15, 17, 19, 22, 27, 28 and 29.  Pictures are lists of rows of one
channel; decoding a picture is a parameter that gives its size.  `none` is an exception.
-/

namespace Verif.PvpsTutorial

/-- An image of a frame: the number of its camera, its segmentation label, whether this has a panoptic label, its sequence and the encoded picture. -/
structure Image (L J : Type) where
  name : ℕ
  label : L
  labelled : Bool
  sequence : String
  jpeg : J

structure Frame (L J : Type) where
  context : String
  time : ℕ
  images : List (Image L J)

/-! ## Labelled frames -/

/-- The loop of cell 9: `found` are the frames found so far, `sequence` is `sequence_id`. -/
def collect {L J : Type} : List (Frame L J) → Option String → List (Frame L J) → Option (List (Frame L J))
  | found, _, [] => some found
  | found, sequence, frame :: frames => do
    let image ← frame.images[0]?
    if image.labelled then
      let found := found ++ [frame]
      let sequence := sequence.getD image.sequence
      if image.sequence ≠ sequence ∨ 2 < found.length then some found else collect found (some sequence) frames
    else collect found sequence frames

/-- `camera_left_to_right_order`, cells 10 and 13: SIDE_LEFT, FRONT_LEFT, FRONT, FRONT_RIGHT, SIDE_RIGHT. -/
def order : List ℕ := [4, 2, 1, 3, 5]

/-- A dictionary made of pairs: the last one counts. -/
def lookup {V : Type} (pairs : List (ℕ × V)) (k : ℕ) : Option V := (pairs.reverse.find? fun p => p.1 = k).map Prod.snd

/-- The values of a frame in the order of the cameras, cells 10, 13, 22 and 27. -/
def ordered {V : Type} (pairs : List (ℕ × V)) : Option (List V) := order.mapM (lookup pairs)

/-- Cell 10. -/
def protosOrdered {L J : Type} (frames : List (Frame L J)) : Option (List (List L)) :=
  frames.mapM fun f => ordered (f.images.map fun i => (i.name, i.label))

/-- The label that is decoded as the one of the front camera, cell 15: `CameraName.FRONT` is 1. -/
def front {L : Type} (protos : List (List L)) : Option L := do
  let first ← protos[0]?
  first[1]?

/-- `ungroup_row`, cell 12: the cells are those of the global variable `r`. A row is a list of columns of the same length with names; the keys overwrite
columns of the same name, so the result is kept as the pairs of columns followed by keys. -/
def ungroup {V : Type} (r : List (String × List V)) (keys : List (String × V)) (_row : List (String × List V)) : List (List (String × V)) :=
  match r with
  | [] => []
  | _ => (List.range ((r.map fun c => c.2.length).foldl min (r.head?.elim 0 fun c => c.2.length))).map fun (i : ℕ) =>
      (r.filterMap fun c => c.2[i]?.map fun v => (c.1, v)) ++ keys

/-! ## Panorama -/

/-- `_pad_to_common_shape`, cell 19, of a picture of rows of width `w`: numpy refuses negative paddings. -/
def pad (w : ℕ) (label : List (List ℕ)) : Option (List (List ℕ)) :=
  if 1280 < label.length then none else some (List.replicate (1280 - label.length) (List.replicate w 0) ++ label)

/-- `np.concatenate(..., axis=1)` of pictures with 1280 rows. -/
def beside (labels : List (List (List ℕ))) : List (List ℕ) := (List.range 1280).map fun (y : ℕ) => (labels.map fun l => (l[y]?).getD []).flatten

/-- Cell 19: one row of pictures of the panorama; a picture is given with its width. -/
def strip (labels : List (ℕ × List (List ℕ))) : Option (List (List ℕ)) := do
  let padded ← labels.mapM fun l => pad l.1 l.2
  pure (beside padded)

/-- Cell 19: `np.concatenate(..., axis=0)` refuses rows of pictures of different widths. -/
def panorama (frames : List (List (ℕ × List (List ℕ)))) : Option (List (List ℕ)) := do
  let strips ← frames.mapM strip
  if (frames.map fun f => (f.map Prod.fst).sum).Pairwise (· = ·) ∧ frames ≠ [] then some strips.flatten else none

/-- Cell 17: five pictures belong to a frame; an incomplete frame is an error. -/
def groups {A : Type} (flat : List A) : Option (List (List A)) :=
  ((List.range flat.length).filter fun i => i % 5 = 0).mapM fun (i : ℕ) => (List.range 5).mapM fun (j : ℕ) => flat[i + j]?

/-! ## Submissions -/

/-- `CameraSegmentationFrame` as made in cell 27: the prediction has all pixels 0, so its size is enough. -/
structure Seg where
  context : String
  time : ℕ
  camera : ℕ
  height : ℕ
  width : ℕ
  divisor : ℕ
  sequence : String
deriving DecidableEq

/-- `_load_dataset_for_one_test_shard`, cell 27. -/
def loadShard {L J : Type} (valid : Option (List String)) (frames : List (Frame L J)) : List (Frame L J) × String :=
  (match valid with
   | none => frames
   | some ts => frames.filter fun f => decide (toString f.time ∈ ts),
   ((frames.map Frame.context).find? fun c => c ≠ "").getD "")

/-- `_generate_predictions_for_one_test_shard`, cell 27; an empty list of times is the same as none. -/
def generate {L J : Type} (decode : J → Option (ℕ × ℕ)) (valid : Option (List String)) (frames : List (Frame L J)) : Option (List Seg) := do
  let valid := match valid with
    | some [] => none
    | v => v
  let (test, context) := loadShard valid frames
  let images ← test.mapM fun f => ordered (f.images.map fun i => (i.name, i.jpeg))
  let times ← test.mapM fun f => ordered (f.images.map fun i => (i.name, f.time))
  let cameras := test.map fun _ => order
  let preds ← images.flatten.mapM decode
  pure ((preds.zip (times.flatten.zip cameras.flatten)).map fun p => ⟨context, p.2.1, p.2.2, p.1.1, p.1.2, 1000, context⟩)

/-- `str.replace` of a pattern that is not empty. -/
def replace (p q : List Char) : ℕ → List Char → List Char
  | 0, l => l
  | _, [] => []
  | n + 1, c :: l => if p <+: c :: l then q ++ replace p q n ((c :: l).drop p.length) else c :: replace p q n l

/-- `'.tfrecord'`. -/
def tfrecord : List Char := ['.', 't', 'f', 'r', 'e', 'c', 'o', 'r', 'd']

/-- `'_with_camera_labels.tfrecord'`. -/
def ending : List Char :=
  ['_', 'w', 'i', 't', 'h', '_', 'c', 'a', 'm', 'e', 'r', 'a', '_', 'l', 'a', 'b', 'e', 'l', 's'] ++ tfrecord

/-- `'_camera_segmentation_submission.binproto'`. -/
def ending' : List Char :=
  ['_', 'c', 'a', 'm', 'e', 'r', 'a', '_', 's', 'e', 'g', 'm', 'e', 'n', 't', 'a', 't', 'i', 'o', 'n', '_', 's', 'u', 'b', 'm', 'i', 's', 's', 'i', 'o', 'n'] ++
    ['.', 'b', 'i', 'n', 'p', 'r', 'o', 't', 'o']

/-- `'segment-'`. -/
def segment : List Char := ['s', 'e', 'g', 'm', 'e', 'n', 't', '-']

/-- `_save_submission_to_file`, cell 27: the name of the file; the name of the data has no directories here. -/
def saveName (basename : List Char) : Option (List Char) :=
  if tfrecord <:+: basename then
    some (replace ending ending' basename.length basename)
  else none

/-- `context_names_dict`, cell 29: the times of each context, contexts in the order of their first lines. -/
def contexts (lines : List (String × String)) : List (String × List String) :=
  lines.foldl (fun (d : List (String × List String)) (l : String × String) =>
    if l.1 ∈ d.map Prod.fst then d.map fun e => if e.1 = l.1 then (e.1, e.2 ++ [l.2]) else e else d ++ [(l.1, [l.2])]) []

/-- The folder of submissions: `none` if it does not exist. -/
abbrev Folder := Option (List (List Char))

/-- `os.removedirs` at the start of cells 28 and 29: a directory with files in it is an error. -/
def removeDirs : Folder → Option Folder
  | none => some none
  | some [] => some none
  | some (_ :: _) => none

/-- Writing a file. -/
def save (folder : Folder) (name : List Char) : Folder :=
  match folder with
  | none => some [name]
  | some files => some (if name ∈ files then files else files ++ [name])

/-- Cell 29, without the contents of the files. -/
def saveAll (folder : Folder) (names : List String) : Option Folder := do
  let folder ← removeDirs folder
  names.foldlM (fun folder context => do
    let name ← saveName (segment ++ context.toList ++ ending)
    pure (save folder name)) folder

end Verif.PvpsTutorial
