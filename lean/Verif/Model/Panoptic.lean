import Mathlib.Data.List.Sort
import Mathlib.Data.List.Dedup

/-!
Panoptic camera labels: utils/camera_segmentation_utils.py.

An image is the list of its pixels: every operation here works pixel by pixel.  PNG encoding and decoding are taken to be
lossless and are left out.  The integer types of NumPy 1.23 are kept where they can lose information: a panoptic label has 32
bits, and assigning a Python integer to an element of an array keeps its lowest bits.  `none` is an exception.  A Python `set` is
the list of its elements in the order in which they were added; no result depends on that order.
-/

namespace Verif.Panoptic

/-- `np.uint32` -/
def u32 : ℕ := 2 ^ 32

/-! ### One label -/

/-- `decode_semantic_and_instance_labels_from_panoptic_label`, camera_segmentation_utils.py:70-85: semantic and instance labels. -/
def decode (l : List ℕ) (divisor : ℤ) : Option (List ℕ × List ℕ) :=
  if divisor ≤ 0 then none
  else some (l.map (· / divisor.toNat), l.map (· % divisor.toNat))

/-- One pixel of `encode_semantic_and_instance_labels_to_panoptic_label`, camera_segmentation_utils.py:107-111, for a divisor
that fits in 32 bits. -/
def encodePx (divisor semantic inst : ℕ) : ℕ := (semantic % u32 * divisor + inst % u32) % u32

/-- `encode_semantic_and_instance_labels_to_panoptic_label`, camera_segmentation_utils.py:88-111. -/
def encode (semantic inst : List ℕ) (divisor : ℕ) : List ℕ := List.zipWith (encodePx divisor) semantic inst

/-! ### Relabelling -/

/-- `np.unique` -/
def unique (l : List ℤ) : List ℤ := l.dedup.insertionSort (· ≤ ·)

/-- The new labels of `skimage.segmentation.relabel_sequential`: zero stays zero, the rest is counted from one. -/
def outVals (ins : List ℤ) : List ℤ :=
  if ins.head? = some 0 then 0 :: (List.range' 1 (ins.length - 1)).map Int.ofNat
  else (List.range' 1 ins.length).map Int.ofNat

/-- `skimage.segmentation.relabel_sequential`: the new labels and the pairs of the inverse map (new label, old label).
Negative labels and empty arrays are errors. -/
def relabel (l : List ℤ) : Option (List ℤ × List (ℤ × ℤ)) := do
  if l = [] ∨ ∃ x ∈ l, x < 0 then none
  else
    let ins := unique l
    let outs := outVals ins
    let new ← l.mapM fun x => (ins.zip outs).lookup x
    pure (new, outs.zip ins)

/-! ### Labels of several frames -/

/-- dataset.proto:295-301 -/
structure Mapping where
  loc : ℤ
  glob : ℤ
  tracked : Bool
  deriving DecidableEq

/-- A `CameraSegmentationLabel` (dataset.proto:274-312) or a `CameraSegmentationLabelComponent`
(v2/perception/segmentation.py:55-92, `component`).  `label` holds the pixels of `panoptic_label`. -/
structure Frame where
  seq : String
  divisor : ℤ
  label : List ℕ
  mapping : List Mapping
  coverage : Option (List ℕ)
  component : Bool
  deriving DecidableEq

/-- `set.update` -/
def update (s : List ℤ) (l : List ℤ) : List ℤ := l.foldl (fun s x => if x ∈ s then s else s ++ [x]) s

/-- Adding the ids of a frame to those of its sequence: camera_segmentation_utils.py:163-169. -/
def addIds (d : List (String × List ℤ)) (seq : String) (ids : List ℤ) : List (String × List ℤ) :=
  match d with
  | [] => [(seq, update [] ids)]
  | (s, l) :: rest => if s = seq then (s, update l ids) :: rest else (s, l) :: addIds rest seq ids

/-- The set of global ids of each sequence: camera_segmentation_utils.py:159-169.  The test of line 161 is true for an empty
repeated field of a message; a component always passes it. -/
def globalIds (frames : List Frame) : List (String × List ℤ) :=
  frames.foldl (fun d f => if f.mapping = [] ∧ ¬ f.component then d else addIds d f.seq (f.mapping.map Mapping.glob)) []

/-- `max` of a list -/
def maxOf : List ℤ → Option ℤ
  | [] => none
  | x :: l => some (l.foldl max x)

/-- Offsetting the ids of each sequence: camera_segmentation_utils.py:176-184. -/
def offsets (cumulative : ℤ) : List (String × List ℤ) → Option (List (String × List ℤ))
  | [] => some []
  | (s, ids) :: rest => do
    let m ← maxOf ids
    let r ← offsets (cumulative + m) rest
    pure ((s, ids.map (· + cumulative)) :: r)

/-- The dictionary of dictionaries as a list of its entries: sequence, original id, remapped id. -/
abbrev Remap := List ((String × ℤ) × ℤ)

/-- `_remap_global_ids`, camera_segmentation_utils.py:136-206. -/
def remapGlobalIds (frames : List Frame) (sequential : Bool) : Option Remap := do
  let ids := globalIds frames
  if ids = [] then pure []
  else
    let off ← offsets 0 ids
    let all := (off.map Prod.snd).flatten
    let remapped ← if sequential then (relabel all).map Prod.fst else some all
    let keys := (ids.map fun x => x.2.map fun i => (x.1, i)).flatten
    pure (keys.zip remapped)

/-! ### Decoding several frames -/

/-- The number of values of an element of the instance labels: dividing 16 bit labels by a number of at most 16 bits gives 16
bit labels. -/
def width (divisor : ℤ) : ℕ := if divisor < 65536 then 2 ^ 16 else u32

/-- The loop over the mappings for one pixel, camera_segmentation_utils.py:321-325: the new instance label and the tracked mask. -/
def remapPx (r : Remap) (seq : String) (w : ℕ) (inst : ℕ) :
    List Mapping → ℕ × ℕ → Option (ℕ × ℕ)
  | [], acc => some acc
  | m :: rest, acc => do
    let g ← r.lookup (seq, m.glob)
    let acc := if (inst : ℤ) = m.loc then ((g % (w : ℤ)).toNat, if m.tracked then 1 else 0) else acc
    remapPx r seq w inst rest acc

/-- One frame of `decode_multi_frame_panoptic_labels_from_segmentation_labels`, camera_segmentation_utils.py:302-340: panoptic
label, tracked mask and camera coverage.  The mapping is looked up for every pixel instead of once; an image without pixels has no
maximum and is an error. -/
def decodeFrame (r : Option Remap) (divisor : ℤ) (f : Frame) : Option (List ℕ × List ℕ × List ℕ) := do
  let (semantic, inst) ← decode f.label f.divisor
  let new ← match r with
    | some r => inst.mapM fun i => remapPx r f.seq (width f.divisor) i f.mapping (i, 0)
    | none => some (inst.map fun i => (i, 0))
  let top ← maxOf (inst.map Int.ofNat)
  if top ≥ divisor then none
  else pure (encode semantic (new.map Prod.fst) divisor.toNat, new.map Prod.snd, f.coverage.getD (inst.map fun _ => 1))

/-- The divisor of the output, camera_segmentation_utils.py:282-299. -/
def outDivisor (frames : List Frame) (r : Option Remap) (new : Option ℤ) : Option ℤ :=
  match new with
  | some d => some d
  | none => do
    let f ← frames.head?
    match r with
    | none => pure f.divisor
    | some [] => pure f.divisor
    | some r =>
      let m ← maxOf (r.map Prod.snd)
      pure (max f.divisor m)

/-- The mapping of line 289, if asked for. -/
def remapIf (frames : List Frame) (global sequential : Bool) : Option (Option Remap) :=
  if global then (remapGlobalIds frames sequential).map some else some none

/-- `decode_multi_frame_panoptic_labels_from_segmentation_labels`, camera_segmentation_utils.py:242-347. -/
def decodeMulti (frames : List Frame) (global sequential : Bool) (new : Option ℤ) :
    Option (List (List ℕ × List ℕ × List ℕ) × ℤ) := do
  let r ← remapIf frames global sequential
  let d ← outDivisor frames r new
  let out ← frames.mapM (decodeFrame r d)
  pure (out, d)

/-! ### Saving -/

/-- `save_panoptic_label_to_proto`, camera_segmentation_utils.py:436-502. -/
def save (label : List ℕ) (divisor : ℤ) (seq : String) (new : ℕ) : Option Frame := do
  let (semantic, inst) ← decode label divisor
  let (sequential, inverse) ← relabel (inst.map Int.ofNat)
  let top ← maxOf sequential
  let d := max new (top.toNat + 1)
  let out := encode semantic (sequential.map Int.toNat) d
  let high ← maxOf (out.map Int.ofNat)
  if high ≥ 65535 then none
  else pure ⟨seq, d, out, (inverse.filter fun x => ¬ (x.2 = 0 ∨ x.1 = 0)).map fun x => ⟨x.1, x.2, false⟩, none, false⟩

end Verif.Panoptic
