import Verif.Model.Boxes
import Verif.Model.Pca
import Mathlib.Data.List.Dedup
import Mathlib.Data.List.Sort
import Mathlib.Data.Nat.Bitwise

/-!
Range images: utils/range_image_utils.py, for one element of a batch at a time unless a definition says otherwise.

Floating point numbers are real numbers, except intensities: they are the 32 bits of a float, because the code truncates the bits.
`none` is an exception or a failed assertion.  Functions on tensors are given for one pixel or one point; applying them to all pixels
is left out where it only repeats the computation.
-/

namespace Verif.RangeImage

open Verif.Boxes

noncomputable section

/-! ### Packing the features of a point -/

/-- `_RANGE_TO_METERS`, range_image_utils.py:60. -/
def metres : ℝ := 585532144 / 100000000000

/-- `_encode_range` and `_encode_elongation`, range_image_utils.py:63-77 and 133-147: the number of bits is the argument. -/
def encodeGrid (bits : ℕ) (r : ℝ) : Option ℕ :=
  if 0 ≤ r / metres ∧ r / metres ≤ 2 ^ bits - 1 then some ⌊r / metres⌋₊ else none

/-- `_decode_range` and `_decode_elongation`, range_image_utils.py:80-89 and 150-159. -/
def decodeGrid (n : ℕ) : ℝ := n * metres

/-- `_encode_intensity`, range_image_utils.py:92-111, on the bits of a float. -/
def encodeIntensity (bits : ℕ) : ℕ := (bits >>> 16) % 2 ^ 16

/-- `_decode_intensity`, range_image_utils.py:114-130: the bits of a float. -/
def decodeIntensity (code : ℕ) : ℕ := (code <<< 16) % 2 ^ 32

/-- The features of a point: range, bits of the intensity, elongation. -/
structure Feature where
  range : ℝ
  intensity : ℕ
  elongation : ℝ

/-- The packed features. -/
structure Packed where
  range : ℕ
  intensity : ℕ
  elongation : ℕ
  deriving DecidableEq

/-- `encode_lidar_features`, range_image_utils.py:162-192. -/
def encodeFeatures (f : Feature) : Option Packed := do
  let r ← encodeGrid 16 f.range
  let i := encodeIntensity f.intensity
  let e ← encodeGrid 8 f.elongation
  let shifted := (r <<< 16) % 2 ^ 32
  pure ⟨r, shifted ||| i, shifted ||| e⟩

/-- `decode_lidar_features`, range_image_utils.py:195-215. -/
def decodeFeatures (p : Packed) : Feature :=
  ⟨decodeGrid p.range, decodeIntensity (p.intensity &&& 0xFFFF), decodeGrid (p.elongation &&& 0xFF)⟩

/-! ### Scattering -/

/-- `scatter_nd_with_pool`, range_image_utils.py:218-253, as a function from the row and the column.  `pool` gets the values of a cell
in their order.  `tf.scatter_nd` adds values with equal indices and fails for indices outside of the image.  The order of the
result of `tf.unique` has no influence. -/
def scatter {α : Type} [AddCommMonoid α] (idx : List (ℤ × ℤ)) (vals : List α) (height width : ℤ) (pool : List α → α) :
    Option (ℤ → ℤ → α) :=
  let codes := idx.map fun p => p.1 * width + p.2
  let unique := codes.dedup
  let entries := unique.map fun u =>
    ((u / width, u % width), pool (((codes.zip vals).filter fun x => x.1 = u).map Prod.snd))
  if entries.all fun e => 0 ≤ e.1.1 ∧ e.1.1 < height ∧ 0 ≤ e.1.2 ∧ e.1.2 < width then
    some fun r c => ((entries.filter fun e => e.1 = (r, c)).map Prod.snd).sum
  else none

/-- `tf.math.unsorted_segment_min` for one segment that is not empty. -/
def segMin {α : Type} [LinearOrder α] [Zero α] : List α → α
  | [] => 0
  | a :: l => l.foldl min a

/-- `tf.math.unsorted_segment_max` for one segment that is not empty. -/
def segMax {α : Type} [LinearOrder α] [Zero α] : List α → α
  | [] => 0
  | a :: l => l.foldl max a

/-! ### From pixels to points -/

/-- `tf.atan2`. -/
def atan2 (y x : ℝ) : ℝ := Complex.arg ⟨x, y⟩

/-- The yaw of the sensor, range_image_utils.py:286 and 543-544. -/
def azCorrection (extrinsic : M4) : ℝ := atan2 (extrinsic 1 0) (extrinsic 0 0)

/-- The azimuth of a column, range_image_utils.py:288-291. -/
def azimuth (extrinsic : M4) (width : ℕ) (col : ℕ) : ℝ :=
  ((((width : ℝ) - col) - 1 / 2) / width * 2 - 1) * Real.pi - azCorrection extrinsic

/-- `compute_range_image_polar`, range_image_utils.py:256-299, for one pixel: azimuth, inclination, range. -/
def polar (extrinsic : M4) (inclination : List ℝ) (width : ℕ) (row col : ℕ) (range : ℝ) : Option (ℝ × ℝ × ℝ) := do
  let i ← inclination[row]?
  pure (azimuth extrinsic width col, i, range)

/-- The point in the frame of the sensor, range_image_utils.py:336-350. -/
def sensorPoint (p : ℝ × ℝ × ℝ) : V3 :=
  ![Real.cos p.1 * Real.cos p.2.1 * p.2.2, Real.sin p.1 * Real.cos p.2.1 * p.2.2, Real.sin p.2.1 * p.2.2]

/-- `compute_range_image_cartesian`, range_image_utils.py:302-385, for one pixel. -/
def cartesian (p : ℝ × ℝ × ℝ) (extrinsic : M4) (pixelPose framePose : Option M4) : Option V3 :=
  let q := apply extrinsic (sensorPoint p)
  match pixelPose with
  | none => some q
  | some pose =>
    let q := apply pose q
    match framePose with
    | none => none
    | some frame => do
      let back ← inv frame
      pure (apply back q)

/-- `extract_point_cloud_from_range_image`, range_image_utils.py:610-647, for one pixel. -/
def extract (extrinsic : M4) (inclination : List ℝ) (width : ℕ) (row col : ℕ) (range : ℝ) (pixelPose framePose : Option M4) :
    Option V3 := do
  let p ← polar extrinsic inclination width row col range
  cartesian p extrinsic pixelPose framePose

/-! ### From points to pixels -/

/-- `tf.argmin`: the position of the first smallest element. -/
def argmin : List ℝ → ℕ
  | [] => 0
  | [_] => 0
  | a :: b :: l => if ∀ x ∈ b :: l, a ≤ x then 0 else argmin (b :: l) + 1

/-- `tf.norm`. -/
def norm3 (p : V3) : ℝ := Real.sqrt (p 0 ^ 2 + p 1 ^ 2 + p 2 ^ 2)

/-- The row of a point in the frame of the sensor, range_image_utils.py:531-540. -/
def rowOf (inclination : List ℝ) (p : V3) : ℕ :=
  let i := atan2 (p 2) (Real.sqrt (p 0 ^ 2 + p 1 ^ 2))
  argmin (inclination.map fun x => |i - x|)

/-- Bringing the azimuth into the range from -π to π, range_image_utils.py:548-553. -/
def wrap (a : ℝ) : ℝ :=
  let b := a - (if a > Real.pi then 1 else 0) * 2 * Real.pi
  b + (if a < -Real.pi then 1 else 0) * 2 * Real.pi

/-- The column of an azimuth, range_image_utils.py:556-559. -/
def colOf (width : ℕ) (a : ℝ) : ℤ :=
  Pca.roundEven ((width : ℝ) - 1 + 1 / 2 - (a + Real.pi) / (2 * Real.pi) * width)

/-- The pixel and the range of a point, range_image_utils.py:520-569, with the assertions of lines 561-564. -/
def project (extrinsic : M4) (inclination : List ℝ) (width : ℕ) (p : V3) : Option ((ℤ × ℤ) × ℝ) := do
  let toSensor ← inv extrinsic
  let q := apply toSensor p
  let a := wrap (atan2 (q 1) (q 0) + azCorrection extrinsic)
  let col := colOf width a
  if 0 ≤ col ∧ col < width then pure ((((rowOf inclination q : ℕ) : ℤ), col), norm3 q) else none

/-- `build_range_image_from_point_cloud`, range_image_utils.py:475-607, without features.  The assertions look at all points, also
at those beyond `numPoints`.  Numbers of points are not negative. -/
def build (extrinsic : M4) (inclination : List ℝ) (height width : ℕ) (points : List V3) (numPoints : ℕ) :
    Option (ℤ → ℤ → ℝ) := do
  let ps ← points.mapM (project extrinsic inclination width)
  scatter ((ps.map Prod.fst).take numPoints) ((ps.map Prod.snd).take numPoints) height width segMin

/-- Pooling packed features: `unsorted_segment_min` works on each of them separately. -/
def packMin (l : List (ℕ × ℕ × ℕ)) : ℕ × ℕ × ℕ :=
  (segMin (l.map fun x => x.1), segMin (l.map fun x => x.2.1), segMin (l.map fun x => x.2.2))

/-- The image of packed features, range_image_utils.py:584-599; each point comes with the bits of its intensity and its elongation. -/
def buildFeatures (extrinsic : M4) (inclination : List ℝ) (height width : ℕ) (points : List (V3 × ℕ × ℝ)) (numPoints : ℕ) :
    Option (ℤ → ℤ → Feature) := do
  let ps ← points.mapM fun x => project extrinsic inclination width x.1
  let fs ← (ps.zip points).mapM fun x => encodeFeatures ⟨x.1.2, x.2.2.1, x.2.2.2⟩
  let image ← scatter ((ps.map Prod.fst).take numPoints)
    ((fs.map fun f => (f.range, f.intensity, f.elongation)).take numPoints) height width packMin
  pure fun r c => let v := image r c; decodeFeatures ⟨v.1, v.2.1, v.2.2⟩

/-! ### Depth images -/

/-- The projection of a point into one camera, range_image_utils.py:435-450: `none` if the point is not seen by it.  The six numbers are
camera, x, y of the two projections. -/
def selected (camera : ℤ) (cp : (ℤ × ℤ × ℤ) × (ℤ × ℤ × ℤ)) : Option (ℤ × ℤ) :=
  if cp.1.1 = camera then some cp.1.2
  else if cp.2.1 = camera then some cp.2.2
  else none

/-- `build_camera_depth_image`, range_image_utils.py:388-472, with `unsorted_segment_min`; each point comes with its projections. -/
def depthImage (points : List (V3 × ((ℤ × ℤ × ℤ) × (ℤ × ℤ × ℤ)))) (extrinsic : M4) (height width : ℤ) (camera : ℤ) :
    Option (ℤ → ℤ → ℝ) := do
  let toCamera ← inv extrinsic
  let seen := points.filterMap fun x => (selected camera x.2).map fun xy => ((xy.2, xy.1), norm3 (apply toCamera x.1))
  scatter (seen.map Prod.fst) (seen.map Prod.snd) height width segMin

/-! ### Cropping -/

/-- The windows, range_image_utils.py:681-689: left ends. -/
def windows (width new : ℤ) (shift : List ℤ) : Option (List ℤ) :=
  let left := shift.map fun i => (width - new) / 2 + i
  if left.all fun l => 0 ≤ l ∧ l + new ≤ width then some left else none

/-- `crop_range_image`, range_image_utils.py:650-696.  An image is a list of rows of the given width. -/
def crop {α : Type} (images : List (List (List α))) (width : ℕ) (new : ℤ) (shift : Option (List ℤ)) :
    Option (List (List (List α))) := do
  if (width : ℤ) = new then some images
  else if new < 1 then none
  else if new ≥ width then none
  else do
    let left ← windows width new (shift.getD (images.map fun _ => 0))
    if left.length < images.length then none
    else pure ((images.zip left).map fun x => x.1.map fun row => (row.drop x.2.toNat).take new.toNat)

/-- `compute_inclination`, range_image_utils.py:699-718. -/
def inclinations (lo hi : ℝ) (height : ℕ) : List ℝ :=
  (List.range height).map fun (k : ℕ) => (1 / 2 + (k : ℝ)) / height * (hi - lo) + lo

end

end Verif.RangeImage
