import Verif.Model.Panoptic
import Verif.Model.Extract

/-!
Model of the functions of utils/camera_segmentation_utils.py (paths relative to /repo/src/waymo_open_dataset) that accept both
`CameraSegmentationLabel` messages and `CameraSegmentationLabelComponent`s: `_iterate_over_mapping` (114-133),
`decode_single_panoptic_label_from_proto` (208-220) and `decode_multi_frame_panoptic_labels_from_protos` (223-239).  The decoders of
16 and 8 bit PNG images are parameters; images that cannot be decoded are not modelled.
-/

namespace Verif.PanopticV2

open Verif.Panoptic Verif.Extract

/-- The decoders of `tf.io.decode_png`, camera_segmentation_utils.py:219-220 and 333. -/
structure Png where
  wide : List UInt8 → List ℕ
  narrow : List UInt8 → List ℕ

/-- `_iterate_over_mapping` for a component, camera_segmentation_utils.py:119-129: `zip` ends with the shortest list. -/
def iterate : List ℤ → List ℤ → List Bool → List Mapping
  | l :: ls, g :: gs, t :: ts => ⟨l, g, t⟩ :: iterate ls gs ts
  | _, _, _ => []

/-- A message as the functions see it: `_iterate_over_mapping`, camera_segmentation_utils.py:130-131, gives its mappings; `label.num_cameras_covered` of
line 332 is false if empty. -/
def ofMessage (p : Png) (l : SegLabel) : Frame :=
  { seq := String.ofList (l.sequence.getD [])
    divisor := l.divisor.getD 0
    label := p.wide l.image
    mapping := l.mapping.map fun m => ⟨m.1.getD 0, m.2.1.getD 0, m.2.2.getD false⟩
    coverage := if l.coverage = [] then none else some (p.narrow l.coverage)
    component := false }

/-- A component as the functions see it. -/
def ofComponent (p : Png) (c : SegLabel2) : Frame :=
  { seq := String.ofList c.sequence
    divisor := c.divisor
    label := p.wide c.image
    mapping := iterate c.locals c.globals c.tracked
    coverage := if c.coverage = [] then none else some (p.narrow c.coverage)
    component := true }

/-- `decode_multi_frame_panoptic_labels_from_segmentation_labels`, camera_segmentation_utils.py:242-347, of messages; its deprecated alias `decode_multi_frame_panoptic_labels_from_protos`,
lines 223-239, passes its arguments on. -/
def decodeMessages (p : Png) (ls : List SegLabel) (global sequential : Bool) (new : Option ℤ) := decodeMulti (ls.map (ofMessage p)) global sequential new

/-- The same for components. -/
def decodeComponents (p : Png) (cs : List SegLabel2) (global sequential : Bool) (new : Option ℤ) := decodeMulti (cs.map (ofComponent p)) global sequential new

end Verif.PanopticV2
