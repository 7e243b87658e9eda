import Verif.Model.Tiling
import Mathlib.Algebra.Order.Floor.Ring
import Mathlib.Algebra.BigOperators.Fin
import Mathlib.Data.List.OfFn

/-!
Model of utils/compression/pca_codec.py: quantisation, the linear transformation and the codec.  The floats are the
elements of an ordered field with a floor function and are exact.  `none` is an exception or, for a quantisation
factor 0, a division by zero whose result is not a number.  Shapes that only work by broadcasting are treated as errors.
For `fit_pca` see PcaFit, for the JSON serialisation of the configuration CodecJson.
-/

namespace Verif.Pca

variable {K : Type} [Field K] [LinearOrder K] [FloorRing K]

/-- `tf.round`: to the nearest integer, halves to the even one. -/
def roundEven (x : K) : ℤ :=
  if x - ⌊x⌋ < 1 / 2 then ⌊x⌋
  else if 1 / 2 < x - ⌊x⌋ then ⌊x⌋ + 1
  else if ⌊x⌋ % 2 = 0 then ⌊x⌋ else ⌊x⌋ + 1

/-- `tf.clip_by_value`. -/
def clip (lo hi x : K) : K := max (min x hi) lo

/-- `tf.int32.min` and `tf.int32.max`. -/
def int32Min : ℤ := -2147483648
/-- See `int32Min`. -/
def int32Max : ℤ := 2147483647

/-- `Codec._quantize` for one coefficient, pca_codec.py:202-209. -/
def quantize (q x : K) : Option ℤ :=
  if q = 0 then none else some (roundEven (clip (int32Min * q) (int32Max * q) x / q))

/-- `Codec._inv_quantize` for one coefficient, pca_codec.py:211-212. -/
def invQuantize (q : K) (n : ℤ) : K := q * n

/-- `bucketed_quantization` for one dimension, pca_codec.py:98-112: the largest absolute value divided by the number
of buckets. `np.max` of no values is an error. -/
def bucketed (column : List K) (n : Nat) : Option K :=
  match column.map fun x => |x| with
  | [] => none
  | a :: l => if n = 0 then none else some (l.foldl max a / n)

/-- `PcaParams` for vectors of size `n` and `m` components, pca_codec.py:30-47; the eigenvalues are not used. -/
structure Params (K : Type) (m n : Nat) where
  mean : Fin n → K
  std : Fin n → K
  vectors : Fin m → Fin n → K

variable {m n : Nat}

/-- `Pca.transform` for one tile, pca_codec.py:89-91. -/
def transform (p : Params K m n) (x : Fin n → K) : Fin m → K :=
  fun i => ∑ k, p.vectors i k * ((x k - p.mean k) / p.std k)

/-- `Pca.inverse_transform` for one tile, pca_codec.py:93-95. -/
def inverse (p : Params K m n) (c : Fin m → K) : Fin n → K :=
  fun k => (∑ i, p.vectors i k * c i) * p.std k + p.mean k

/-- `Code`, pca_codec.py:115-129. -/
structure Code (K : Type) (m : Nat) where
  reference : List K
  values : List (Fin m → ℤ)
  shape : List Nat

/-- `CodecConfig`, pca_codec.py:132-138. -/
structure Config (K : Type) (m n : Nat) where
  pca : Params K m n
  quantization : Fin m → K
  tile : Nat

/-- The mean of channel `c` over all pixels, pca_codec.py:165. -/
def channelMean (data : Tensor K) (h w c : Nat) : K :=
  (((List.range h).flatMap fun y => (List.range w).map fun x => (data.get? [y, x, c]).getD 0).sum) / ((h * w : ℕ) : K)

/-- `codec_extract_tiles`, pca_codec.py:150-168. -/
def codecExtract (data : Tensor K) (tile : Nat) : Option (List K × Tensor K) :=
  match data.shape with
  | [h, w, d] => do
    let ref := (List.range d).map (channelMean data h w)
    let off ← Tensor.ofFn? [h, w, d] fun idx => do
      let v ← data.get? idx
      let r ← ref[idx.getD 2 0]?
      pure (v - r)
    let tiles ← Tiling.extractTiles off tile
    pure (ref, tiles)
  | _ => none

/-- The rows of a matrix with `n` columns. -/
def rows (n : Nat) (t : Tensor K) : Option (List (Fin n → K)) :=
  match t.shape with
  | [r, c] => if c = n then some ((List.range r).map fun i k => (t.get? [i, k]).getD 0) else none
  | _ => none

/-- A matrix with the given rows. -/
def ofRows (l : List (Fin n → K)) : Tensor K := ⟨[l.length, n], l.flatMap List.ofFn⟩

/-- `Codec._quantize` for one tile. -/
def quantizeRow (q : Fin m → K) (x : Fin m → K) : Option (Fin m → ℤ) :=
  if ∃ i, q i = 0 then none else some fun i => (quantize (q i) (x i)).getD 0

/-- `Codec.encode`, pca_codec.py:214-230. -/
def encode (c : Config K m n) (data : Tensor K) : Option (Code K m) := do
  let (ref, tiles) ← codecExtract data c.tile
  let rs ← rows n tiles
  let vs ← (rs.map (transform c.pca)).mapM (quantizeRow c.quantization)
  pure ⟨ref, vs, data.shape⟩

/-- `codec_combine_tiles`, pca_codec.py:171-184. -/
def codecCombine (ref : List K) (tiles : Tensor K) (shape : List Nat) (tile : Nat) : Option (Tensor K) := do
  let h ← shape[0]?
  let w ← shape[1]?
  let off ← Tiling.combineTiles tiles h w tile
  Tensor.ofFn? off.shape fun idx => do
    let v ← off.get? idx
    let r ← ref[idx.getD 2 0]?
    pure (v + r)

/-- `Codec.decode`, pca_codec.py:232-248. -/
def decode (c : Config K m n) (code : Code K m) : Option (Tensor K) :=
  codecCombine code.reference
    (ofRows (code.values.map fun v => inverse c.pca fun i => invQuantize (c.quantization i) (v i))) code.shape c.tile

end Verif.Pca
