import Verif.Model.Pca

/-!
Model of v2/perception/utils/object_asset_codec.py and of the shaped columns of v2/perception/object_asset.py.  The
floats are the elements of an ordered field and are exact, as in `Verif.Pca`; `none` is an exception.  The table of
`iter_ray_samples` is the list of its rows; a row has the four cells of the two rays.
-/

namespace Verif.Assets

variable {Key K : Type}

/-- `_ValueShapeMixin` and `CameraRayImage`, object_asset.py:31-81: a column of values and a column with the
shape. -/
structure Shaped (K : Type) where
  values : List K
  shape : List Nat
  deriving DecidableEq

/-- `tensor`, object_asset.py:38-39, and `numpy`, 42-43: an error if the values do not fill the shape.  A size -1, which the
libraries would fill in, is not covered. -/
def Shaped.tensor (s : Shaped K) : Option (Tensor K) :=
  if s.values.length = s.shape.prod then some ⟨s.shape, s.values⟩ else none

/-- `CameraRayImage(values=t.numpy().ravel().tolist(), shape=t.shape.as_list())`, object_asset_codec.py:91-98. -/
def Shaped.ofTensor (t : Tensor K) : Shaped K := ⟨t.data, t.shape⟩

/-- `ObjectAssetRayComponent`, object_asset.py:209-228. -/
structure Rays (Key K : Type) where
  key : Key
  rayOrigin : Option (Shaped K)
  rayDirection : Option (Shaped K)

/-- `ObjectAssetRayCompressedComponent`, object_asset.py:232-256. -/
structure Compressed (Key K : Type) where
  key : Key
  reference : List K
  quantizedValues : List ℤ
  shape : List Nat

/-- `tf.concat` and `np.concatenate` along the last of three axes, object_asset_codec.py:31-34 and 66.  Tensors of
other ranks are refused here; the code would refuse them in `codec_extract_tiles` (pca_codec.py:163). -/
def concatLast (a b : Tensor K) : Option (Tensor K) :=
  match a.shape, b.shape with
  | [h, w, d], [h', w', d'] =>
    if h = h' ∧ w = w' then
      Tensor.ofFn? [h, w, d + d'] fun idx => match idx with
        | [y, x, k] => if k < d then a.get? [y, x, k] else b.get? [y, x, k - d]
        | _ => none
    else none
  | _, _ => none

/-- One of the two parts of `tf.split(vec, num_or_size_splits=[3, 3], axis=-1)`, object_asset_codec.py:88. -/
def part (t : Tensor K) (h w from_ : Nat) : Option (Tensor K) :=
  Tensor.ofFn? [h, w, 3] fun idx => match idx with
    | [y, x, k] => t.get? [y, x, from_ + k]
    | _ => none

/-- `tf.split(vec, num_or_size_splits=[3, 3], axis=-1)`, object_asset_codec.py:88: the last axis has to have size 6. -/
def splitRays (t : Tensor K) : Option (Tensor K × Tensor K) :=
  match t.shape with
  | [h, w, 6] => do
    let o ← part t h w 0
    let d ← part t h w 3
    pure (o, d)
  | _ => none

/-- `tf.reshape(tf.constant(values), (-1, m))`, object_asset_codec.py:81-84: the rows; an error if the values do not
fill them or if `m` is zero. -/
def regroup (m : Nat) (values : List ℤ) : Option (List (Fin m → ℤ)) :=
  if m = 0 ∨ values.length % m ≠ 0 then none
  else some ((List.range (values.length / m)).map fun r i => values.getD (r * m + i.val) 0)

/-- `_parse_rays`, object_asset_codec.py:27-34, of a row with the cells of the two rays. -/
def sample (origin direction : Shaped K) : Option (Tensor K) := do
  let o ← origin.tensor
  let d ← direction.tensor
  concatLast o d

/-- `iter_ray_samples`, object_asset_codec.py:37-48. -/
def samples (rows : List (Shaped K × Shaped K)) : Option (List (Tensor K)) := rows.mapM fun r => sample r.1 r.2

variable [Field K] [LinearOrder K] [FloorRing K] {m n : Nat}

/-- `ObjectAssetRayCodec.encode`, object_asset_codec.py:60-73. -/
def encode (c : Pca.Config K m n) (src : Rays Key K) : Option (Compressed Key K) := do
  let o ← src.rayOrigin
  let d ← src.rayDirection
  let o ← o.tensor
  let d ← d.tensor
  let vec ← concatLast o d
  let code ← Pca.encode c vec
  pure ⟨src.key, code.reference, code.values.flatMap List.ofFn, code.shape⟩

/-- `ObjectAssetRayCodec.decode`, object_asset_codec.py:75-99. -/
def decode (c : Pca.Config K m n) (src : Compressed Key K) : Option (Rays Key K) := do
  let values ← regroup m src.quantizedValues
  let vec ← Pca.decode c ⟨src.reference, values, src.shape⟩
  let (o, d) ← splitRays vec
  pure ⟨src.key, some (Shaped.ofTensor o), some (Shaped.ofTensor d)⟩

end Verif.Assets
