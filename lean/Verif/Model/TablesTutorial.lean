import Verif.Model.Frame

/-!
The tables of tutorial/tutorial_v2.ipynb, cells 4, 7, 9, 11, 13 and 25, with the simplifications of `Verif.Frame`.  Cells are counted from zero.
-/

namespace Verif.TablesTutorial

open Verif.Frame

variable {V : Type} [DecidableEq V]

/-- Cell 4: camera images with their boxes. -/
def imagesWithBoxes (cs : Cells V) (images boxes : Table V) : Option (Table V) := merge cs images boxes false false false true "key."

/-- Cell 7: the boxes of each object. -/
def trajectories (cs : Cells V) (boxes : Table V) : Option (Table V) := groupBy cs ["key.segment_context_name", "key.laser_object_id"] boxes

/-- Cells 9 and 11: objects with their camera boxes and images; in cell 11 those are optional. -/
def objects (cs : Cells V) (optional : Bool) (association camBoxes images laserBoxes : Table V) : Option (Table V) := do
  let a ← merge cs camBoxes images false false false false "key."
  let b ← merge cs association a false false false false "key."
  merge cs b laserBoxes optional false false false "key."

/-- Cells 9 and 11: the lasers of a frame with its objects. -/
def frames (cs : Cells V) (lasers objs : Table V) : Option (Table V) := merge cs lasers objs false false true true "key."

/-- Cell 13: objects with key points. -/
def keypointObjects (cs : Cells V) (association camBoxes images keypoints laserBoxes : Table V) : Option (Table V) := do
  let a ← merge cs camBoxes images false false false false "key."
  let a ← merge cs a keypoints false false false false "key."
  let b ← merge cs association a false false false false "key."
  merge cs b laserBoxes false false false false "key."

/-- Cells 9 and 11: the number of objects that is printed, the length of a column of lists. -/
def found (lengthOf : V → Option ℕ) (cs : Cells V) (t : Table V) (row : List V) : Option ℕ := lengthOf (cell cs t row "key.laser_object_id")

/-- Cell 25: images of one camera with their boxes. -/
def oneCamera (cs : Cells V) (camera : V) (images boxes : Table V) : Option (Table V) :=
  pandasMerge cs .inner ["key.segment_context_name", "key.frame_timestamp_micros", "key.camera_name"]
    ⟨images.cols, images.rows.filter fun r => cell cs images r "key.camera_name" = camera⟩ boxes

end Verif.TablesTutorial
