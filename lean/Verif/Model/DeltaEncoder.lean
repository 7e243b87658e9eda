import Verif.Model.Common

/-!
Model of `utils/compression/delta_encoder.py` (lines 27-212).

An image is a numpy array of shape `(h, w, c)`; it is modelled by its shape and a total function on
the valid indices.  The zlib and protobuf layers are taken to be lossless, except that the
`Metadata.quant_precision` field is a 32 bit float (protos/compressed_lidar.proto, message
`Metadata`), which is modelled by `toF32`.
-/

namespace Verif.DeltaEncoder

/-- A numpy array of shape `(h, w, c)`. -/
structure Image (α : Type) where
  h : Nat
  w : Nat
  c : Nat
  px : Fin h → Fin w → Fin c → α

/-- The `quant_precision` argument: `Union[float, list[float]]`, delta_encoder.py:28. -/
inductive Precision where
  | scalar (q : ℚ)
  | list (qs : List ℚ)

/-- The `DeltaEncodedData` message, protos/compressed_lidar.proto:70-82. -/
structure Stream where
  residual : List ℤ
  mask : List ℤ
  shape : Nat × Nat × Nat
  precision : List ℚ
  deriving DecidableEq

/-- delta_encoder.py:43-61, the argument check of `compress`: the per channel precision list or
`ValueError`. -/
def checkPrecision (c : Nat) : Precision → Except Exc (List ℚ)
  | .scalar q => if q ≤ 0 then .error .valueError else .ok (List.replicate c q)
  | .list qs =>
    if qs.length ≠ c then .error .valueError
    else if qs.any (fun q => decide (q ≤ 0)) then .error .valueError
    else .ok qs

/-- delta_encoder.py:63-67: every channel is divided by its precision and rounded.  `qs` has one
entry per channel when this is reached. -/
def quantise (x : Image ℚ) (qs : List ℚ) : Image ℤ where
  h := x.h
  w := x.w
  c := x.c
  px i j ch := roundHalfEven (x.px i j ch / (qs.getD ch 0))

/-- `np.transpose(x, [2, 0, 1]).reshape(-1)`, delta_encoder.py:191-192 and 207-208. -/
def flattenCHW {α : Type} (x : Image α) : List α :=
  (List.finRange x.c).flatMap fun ch =>
    (List.finRange x.h).flatMap fun i =>
      (List.finRange x.w).map fun j => x.px i j ch

/-- `np.diff`. -/
def diffs : List ℤ → List ℤ
  | a :: b :: r => (b - a) :: diffs (b :: r)
  | _ => []

/-- Positions `k` with `x[k+1] ≠ x[k]`, i.e. `np.where(np.not_equal(x[1:], x[:-1]))[0]`,
delta_encoder.py:150. -/
def changes : List Nat → List ℤ
  | a :: b :: r =>
    if a = b then (changes (b :: r)).map (· + 1) else 0 :: (changes (b :: r)).map (· + 1)
  | _ => []

/-- `_rlencode`, delta_encoder.py:136-158.  `x[0]` of an empty array raises IndexError. -/
def rlencode (x : List Nat) : Except Exc (List ℤ) :=
  let starts := 0 :: (changes x).map (· + 1)
  let lengths := diffs (starts ++ [(x.length : ℤ)])
  match x with
  | [] => .error .indexError
  | a :: _ => .ok (if a = 0 then 0 :: lengths else lengths)

/-- The loop of `_rldecode`, delta_encoder.py:173-178, started with `cur`.  `[cur] * l` is empty
for negative `l`, as `Int.toNat` makes it. -/
def rldecodeFrom (cur : Nat) : List ℤ → List Nat
  | [] => []
  | l :: ls => List.replicate l.toNat cur ++ rldecodeFrom (1 - cur) ls

/-- `_rldecode`, delta_encoder.py:161-178. -/
def rldecode (lengths : List ℤ) : List Nat := rldecodeFrom 1 lengths

/-- `_compute_mask`, delta_encoder.py:181-194. -/
def computeMask (x : Image ℤ) : Except Exc (List ℤ) :=
  rlencode ((flattenCHW x).map fun v => if v ≠ 0 then 1 else 0)

/-- `_compute_residual`, delta_encoder.py:197-212: the first non-zero entry, then the differences
of consecutive ones. -/
def computeResidual (x : Image ℤ) : List ℤ :=
  match (flattenCHW x).filter (· ≠ 0) with
  | [] => []
  | a :: r => a :: diffs (a :: r)

/-- `_compute_metadata`, delta_encoder.py:104-121, including the narrowing to 32 bit floats done
by the protobuf field. -/
def computeMetadata (qs : List ℚ) (h w c : Nat) : Except Exc (Nat × Nat × Nat × List ℚ) :=
  if h > 65535 ∨ w > 65535 ∨ c > 65535 then .error .valueError
  else .ok (h, w, c, qs.map toF32)

/-- `compress`, delta_encoder.py:27-74.  The second component is the caller's array after the call:
line 63 binds `range_image_round` to the very array passed in, so lines 64-67 overwrite it. -/
def compress (x : Image ℚ) (p : Precision) : Except Exc Stream × Image ℚ :=
  match checkPrecision x.c p with
  | .error e => (.error e, x)
  | .ok qs =>
    let r := quantise x qs
    let after : Image ℚ := { h := x.h, w := x.w, c := x.c, px := fun i j ch => (r.px i j ch : ℚ) }
    match computeMask r with
    | .error e => (.error e, after)
    | .ok m =>
      match computeMetadata qs x.h x.w x.c with
      | .error e => (.error e, after)
      | .ok (h, w, c, fs) =>
        (.ok { residual := computeResidual r, mask := m, shape := (h, w, c), precision := fs }, after)

/-- `np.cumsum`, started with `acc`. -/
def cumsumFrom (acc : ℤ) : List ℤ → List ℤ
  | [] => []
  | d :: ds => (acc + d) :: cumsumFrom (acc + d) ds

/-- `decoded_mask[decoded_mask > 0] = decoded_residuals`, delta_encoder.py:95.  numpy raises
ValueError when the counts differ (its broadcast of a single value is not modelled: it cannot
occur on output of `compress`). -/
def fillMask : List Nat → List ℤ → Except Exc (List ℤ)
  | [], [] => .ok []
  | [], _ :: _ => .error .valueError
  | m :: ms, vs =>
    if m > 0 then
      match vs with
      | [] => .error .valueError
      | v :: vs' => (fillMask ms vs').map (v :: ·)
    else (fillMask ms vs).map ((m : ℤ) :: ·)

/-- `np.transpose(np.reshape(l, (c, h, w)), [1, 2, 0])`, delta_encoder.py:96-98; reshape raises
ValueError on a size mismatch. -/
def unflattenCHW {α : Type} (h w c : Nat) (l : List α) : Except Exc (Image α) :=
  if hl : l.length = c * (h * w) then
    .ok { h := h, w := w, c := c,
          px := fun i j ch => l[ch.val * (h * w) + (i.val * w + j.val)]'(by
            rw [hl]
            have h1 : i.val * w + j.val < h * w := by
              calc i.val * w + j.val < i.val * w + w := by omega
                _ = (i.val + 1) * w := by rw [Nat.add_mul]; omega
                _ ≤ h * w := Nat.mul_le_mul_right _ i.isLt
            calc ch.val * (h * w) + (i.val * w + j.val) < ch.val * (h * w) + h * w := by omega
              _ = (ch.val + 1) * (h * w) := by rw [Nat.add_mul]; omega
              _ ≤ c * (h * w) := Nat.mul_le_mul_right _ ch.isLt) }
  else .error .valueError

/-- `decompress`, delta_encoder.py:77-101.  `precision[c]` raises IndexError when the list is too
short. -/
def decompress (s : Stream) : Except Exc (Image ℚ) :=
  match fillMask (rldecode s.mask) (cumsumFrom 0 s.residual) with
  | .error e => .error e
  | .ok filled =>
    match unflattenCHW s.shape.1 s.shape.2.1 s.shape.2.2 filled with
    | .error e => .error e
    | .ok img =>
      if img.c ≤ s.precision.length then
        .ok { h := img.h, w := img.w, c := img.c,
              px := fun i j ch => (img.px i j ch : ℚ) * s.precision.getD ch 0 }
      else .error .indexError

end Verif.DeltaEncoder
