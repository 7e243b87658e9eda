import Verif.Model.Tensor

/-!
Model of utils/compression/tiling.py.  `none` is an exception: an error of TensorFlow, a division by zero or the
`ValueError` of `combine_tiles`.  Simplification: `_ceil` (lines 20-21) works on a float32 and is exact here, so images
with more than 2^23 tiles along a side are not covered.
-/

namespace Verif.Tiling

variable {α : Type}

/-- `num_tiles_y` and `num_tiles_x`, tiling.py:46-52: the quotient, rounded up. -/
def numTiles (size tile : Nat) : Nat := (size + tile - 1) / tile

/-- `padded_height` and `padded_width`, tiling.py:58-64. -/
def padded (size tile : Nat) : Nat := numTiles size tile * tile

/-- Source index of `tf.pad` with mode `REFLECT` at the end of an axis of the given size (tiling.py:99). -/
def mirror (size i : Nat) : Nat := if i < size then i else 2 * (size - 1) - i

/-- `tf.pad(data, [[0, p], [0, q], [0, 0]], mode='REFLECT')`, tiling.py:94-99: the padding has to be smaller than
the axis. -/
def padReflect (t : Tensor α) (h w d ph pw : Nat) : Option (Tensor α) :=
  if ph - h < h ∧ pw - w < w ∧ 0 < d then
    Tensor.ofFn? [ph, pw, d] fun idx => match idx with
      | [y, x, k] => t.get? [mirror h y, mirror w x, k]
      | _ => none
  else none

/-- `tf.transpose(t, [0, 2, 1, 3, 4])`, tiling.py:110 and 150. -/
def transpose02134 (t : Tensor α) : Option (Tensor α) :=
  match t.shape with
  | [a, b, c, d, e] => Tensor.ofFn? [a, c, b, d, e] fun idx => match idx with
      | [i, k, j, l, m] => t.get? [i, j, k, l, m]
      | _ => none
  | _ => none

/-- `extract_tiles`, tiling.py:82-111. -/
def extractTiles (data : Tensor α) (tile : Nat) : Option (Tensor α) :=
  match data.shape with
  | [h, w, d] =>
    if tile = 0 then none
    else do
      let p ← padReflect data h w d (padded h tile) (padded w tile)
      let pre ← p.reshape [numTiles h tile, tile, numTiles w tile, tile, d]
      let t5 ← transpose02134 pre
      t5.reshape [numTiles h tile * numTiles w tile, tile * tile * d]
  | _ => none

/-- `padded[:h, :w, :]`, tiling.py:152. -/
def crop (t : Tensor α) (h w : Nat) : Option (Tensor α) :=
  match t.shape with
  | [ph, pw, d] => Tensor.ofFn? [min h ph, min w pw, d] t.get?
  | _ => none

/-- `combine_tiles`, tiling.py:114-152. -/
def combineTiles (tiles : Tensor α) (h w tile : Nat) : Option (Tensor α) :=
  match tiles.shape.getLast? with
  | none => none
  | some last =>
    if tile = 0 then none
    else
      let d := last / (tile * tile)
      if last ≠ tile * tile * d then none
      else do
        let t5 ← tiles.reshape [numTiles h tile, numTiles w tile, tile, tile, d]
        let pre ← transpose02134 t5
        let p ← pre.reshape [padded h tile, padded w tile, d]
        crop p h w

end Verif.Tiling
