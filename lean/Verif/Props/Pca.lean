import Verif.Model.Pca
import Verif.Props.Tiling
import Mathlib.Algebra.Order.BigOperators.Group.Finset
import Mathlib.Algebra.Order.Floor.Ring
import Mathlib.Data.Rat.Floor
import Mathlib.Tactic.Linarith
import Mathlib.Tactic.Ring
import Mathlib.Tactic.FieldSimp
import Mathlib.Tactic.Positivity
import Mathlib.Tactic.IntervalCases

/-!
C05: quantisation of the embedding codec; C64: quantisation factors from buckets; C65: encode, then decode.
-/

namespace Verif.Pca

open Tensor

variable {K : Type} [Field K] [LinearOrder K] [IsStrictOrderedRing K] [FloorRing K]

theorem roundEven_near (x : K) : |(roundEven x : K) - x| ≤ 1 / 2 := by
  have h1 := Int.floor_le x
  have h2 := Int.lt_floor_add_one x
  unfold roundEven
  split_ifs with a b c <;> rw [abs_le] <;> push_cast <;> constructor <;> linarith

theorem roundEven_intCast (n : ℤ) : roundEven (n : K) = n := by
  unfold roundEven
  rw [Int.floor_intCast, if_pos (by rw [sub_self]; norm_num)]

theorem roundEven_le {x : K} {n : ℤ} (h : x ≤ n) : roundEven x ≤ n := by
  have h0 := abs_le.mp (roundEven_near x)
  have h1 : (roundEven x : K) < (n : K) + 1 := by linarith [h0.2, (by norm_num : (1 : K) / 2 < 1)]
  have h2 : roundEven x < n + 1 := by exact_mod_cast h1
  omega

theorem le_roundEven {x : K} {n : ℤ} (h : (n : K) ≤ x) : n ≤ roundEven x := by
  have h0 := abs_le.mp (roundEven_near x)
  have h1 : (n : K) - 1 < (roundEven x : K) := by linarith [h0.1, (by norm_num : (1 : K) / 2 < 1)]
  have h2 : n - 1 < roundEven x := by exact_mod_cast h1
  omega

theorem clip_mem {lo hi x : K} (h : lo ≤ hi) : lo ≤ clip lo hi x ∧ clip lo hi x ≤ hi :=
  ⟨le_max_right _ _, max_le (min_le_right _ _) h⟩

theorem clip_of_mem {lo hi x : K} (h1 : lo ≤ x) (h2 : x ≤ hi) : clip lo hi x = x := by
  rw [clip, min_eq_left h2, max_eq_left h1]

theorem int32_le : (int32Min : K) ≤ int32Max := by
  exact_mod_cast (by decide : int32Min ≤ int32Max)

/-- C05: with a positive factor the code is an int32. -/
theorem quantize_int32 (q x : K) (hq : 0 < q) :
    ∃ c, quantize q x = some c ∧ int32Min ≤ c ∧ c ≤ int32Max := by
  have hm := clip_mem (x := x) (mul_le_mul_of_nonneg_right (int32_le (K := K)) hq.le)
  refine ⟨_, if_neg hq.ne', le_roundEven ?_, roundEven_le ?_⟩
  · rw [le_div_iff₀ hq]; exact hm.1
  · rw [div_le_iff₀ hq]; exact hm.2

/-- C05: a coefficient in range comes back within half a step. -/
theorem quantize_near (q x : K) (hq : 0 < q) (h1 : int32Min * q ≤ x) (h2 : x ≤ int32Max * q) :
    ∃ c, quantize q x = some c ∧ |invQuantize q c - x| ≤ q / 2 := by
  refine ⟨_, if_neg hq.ne', ?_⟩
  rw [clip_of_mem h1 h2, invQuantize]
  have h := roundEven_near (x / q)
  have e : q * (roundEven (x / q) : K) - x = q * ((roundEven (x / q) : K) - x / q) := by field_simp
  rw [e, abs_mul, abs_of_pos hq]
  calc q * |(roundEven (x / q) : K) - x / q| ≤ q * (1 / 2) := mul_le_mul_of_nonneg_left h hq.le
    _ = q / 2 := by ring

/-- C05: a coefficient beyond the range comes back as the end of the range. -/
theorem quantize_above (q x : K) (hq : 0 < q) (h : int32Max * q ≤ x) :
    ∃ c, quantize q x = some c ∧ invQuantize q c = int32Max * q := by
  refine ⟨_, if_neg hq.ne', ?_⟩
  have hc : clip (int32Min * q) (int32Max * q) x = int32Max * q := by
    rw [clip, min_eq_right h, max_eq_left (mul_le_mul_of_nonneg_right (int32_le (K := K)) hq.le)]
  rw [hc, mul_div_cancel_right₀ _ hq.ne', roundEven_intCast, invQuantize, mul_comm]

/-- C05: likewise below. -/
theorem quantize_below (q x : K) (hq : 0 < q) (h : x ≤ int32Min * q) :
    ∃ c, quantize q x = some c ∧ invQuantize q c = int32Min * q := by
  refine ⟨_, if_neg hq.ne', ?_⟩
  have hc : clip (int32Min * q) (int32Max * q) x = int32Min * q := by
    rw [clip, max_eq_right]
    exact (min_le_left _ _).trans h
  rw [hc, mul_div_cancel_right₀ _ hq.ne', roundEven_intCast, invQuantize, mul_comm]

/-- C05: codes survive: what was de-quantised is quantised to the same code. -/
theorem quantize_invQuantize (q : K) (c : ℤ) (hq : 0 < q) (h1 : int32Min ≤ c) (h2 : c ≤ int32Max) :
    quantize q (invQuantize q c) = some c := by
  have a1 : (int32Min : K) * q ≤ q * c := by
    rw [mul_comm q]; exact mul_le_mul_of_nonneg_right (by exact_mod_cast h1) hq.le
  have a2 : q * c ≤ (int32Max : K) * q := by
    rw [mul_comm q]; exact mul_le_mul_of_nonneg_right (by exact_mod_cast h2) hq.le
  rw [quantize, if_neg hq.ne', invQuantize, clip_of_mem a1 a2, mul_div_cancel_left₀ _ hq.ne', roundEven_intCast]

theorem foldl_max_ge (l : List K) : ∀ a, a ≤ l.foldl max a ∧ (∀ x ∈ l, x ≤ l.foldl max a) ∧
    (l.foldl max a = a ∨ l.foldl max a ∈ l) := by
  induction l with
  | nil => intro a; simp
  | cons b l ih =>
    intro a
    obtain ⟨h1, h2, h3⟩ := ih (max a b)
    rw [List.foldl_cons]
    refine ⟨(le_max_left _ _).trans h1, ?_, ?_⟩
    · intro x hx
      rcases List.mem_cons.mp hx with rfl | hx
      · exact (le_max_right _ _).trans h1
      · exact h2 x hx
    · rcases h3 with h3 | h3
      · rcases max_choice a b with h | h
        · left; rw [h3, h]
        · right; rw [h3, h]; simp
      · right; simp [h3]

/-- C64: the factor that `bucketed_quantization` chooses for a column with a non-zero value is positive, and all
values of the column get codes between minus and plus the number of buckets; the value of largest magnitude gets the
extreme code, so all buckets are used. -/
theorem bucketed_codes_partial (column : List K) (n : Nat) (hn : 0 < n) (hmax : (n : ℤ) ≤ int32Max)
    (hnz : ∃ x ∈ column, x ≠ 0) :
    ∃ q, bucketed column n = some q ∧ 0 < q ∧
      (∀ x ∈ column, ∃ c, quantize q x = some c ∧ -(n : ℤ) ≤ c ∧ c ≤ n) ∧
      ∃ x ∈ column, ∃ c, quantize q x = some c ∧ |c| = n := by
  have hnK : (0 : K) < n := by exact_mod_cast hn
  obtain ⟨x0, hx0, hx0'⟩ := hnz
  cases hcol : column.map fun x => |x| with
  | nil =>
    have := congrArg List.length hcol
    rw [List.length_map] at this
    rw [List.length_eq_zero_iff.mp this] at hx0
    cases hx0
  | cons a l =>
    obtain ⟨g1, g2, g3⟩ := foldl_max_ge l a
    set M := l.foldl max a with hM
    have hle : ∀ x ∈ column, |x| ≤ M := by
      intro x hx
      have : |x| ∈ column.map fun x => |x| := List.mem_map_of_mem hx
      rw [hcol] at this
      rcases List.mem_cons.mp this with h | h
      · rw [h]; exact g1
      · exact g2 _ h
    have hMpos : 0 < M := (abs_pos.mpr hx0').trans_le (hle x0 hx0)
    have hq : 0 < M / n := div_pos hMpos hnK
    have hval : ∀ x ∈ column, quantize (M / n) x = some (roundEven (x / (M / n))) := by
      intro x hx
      have hx1 := abs_le.mp (hle x hx)
      have e : M = (n : K) * (M / n) := by field_simp
      have b1 : M ≤ int32Max * (M / n) := by
        have : (n : K) ≤ int32Max := by exact_mod_cast hmax
        calc M = (n : K) * (M / n) := e
          _ ≤ int32Max * (M / n) := mul_le_mul_of_nonneg_right this hq.le
      have b2 : (int32Min : K) * (M / n) ≤ -M := by
        have : (int32Min : K) ≤ -(int32Max : K) := by exact_mod_cast (by decide : int32Min ≤ -int32Max)
        calc (int32Min : K) * (M / n) ≤ -(int32Max : K) * (M / n) := mul_le_mul_of_nonneg_right this hq.le
          _ = -((int32Max : K) * (M / n)) := by ring
          _ ≤ -M := neg_le_neg b1
      rw [quantize, if_neg hq.ne', clip_of_mem (b2.trans hx1.1) (hx1.2.trans b1)]
    refine ⟨M / n, ?_, hq, ?_, ?_⟩
    · unfold bucketed
      rw [hcol]
      simp only [Nat.pos_iff_ne_zero.mp hn, if_false]
      rfl
    · intro x hx
      have hx1 := abs_le.mp (hle x hx)
      refine ⟨_, hval x hx, le_roundEven ?_, roundEven_le ?_⟩
      · rw [le_div_iff₀ hq]; push_cast
        calc -(n : K) * (M / n) = -M := by field_simp
          _ ≤ x := hx1.1
      · rw [div_le_iff₀ hq]; push_cast
        calc x ≤ M := hx1.2
          _ = (n : K) * (M / n) := by field_simp
    · have hin : M ∈ column.map fun x => |x| := by
        rw [hcol]
        rcases g3 with h | h
        · rw [h]; simp
        · simp [h]
      obtain ⟨x, hx, hxM⟩ := List.mem_map.mp hin
      refine ⟨x, hx, _, hval x hx, ?_⟩
      rcases abs_choice x with h | h
      · have : x / (M / n) = ((n : ℤ) : K) := by
          have hx' : x = M := by rw [← hxM, h]
          rw [hx']
          push_cast
          have : M ≠ 0 := hMpos.ne'
          field_simp
        rw [this, roundEven_intCast]
        exact abs_of_nonneg (by omega)
      · have : x / (M / n) = ((-(n : ℤ) : ℤ) : K) := by
          have hx' : x = -M := by rw [← hxM, h, neg_neg]
          rw [hx']
          push_cast
          have : M ≠ 0 := hMpos.ne'
          field_simp
        rw [this, roundEven_intCast, abs_neg]
        exact abs_of_nonneg (by omega)

/-- C64 needs a non-zero value: for a column of zeros the factor is 0 and nothing can be quantised with it. -/
theorem bucketed_zero_column_violated : bucketed [(0 : ℚ), 0] 8 = some 0 ∧ quantize (0 : ℚ) 0 = none := by decide +kernel

variable {m n : Nat}

/-- Specification: the part of a tile that the components can express. -/
def project (p : Params K m n) (x : Fin n → K) : Fin n → K :=
  fun k => (∑ i, p.vectors i k * ∑ j, p.vectors i j * ((x j - p.mean j) / p.std j)) * p.std k + p.mean k

/-- All coefficients of the tile are in the range of the codes. -/
def InRange (c : Config K m n) (x : Fin n → K) : Prop :=
  ∀ i, int32Min * c.quantization i ≤ transform c.pca x i ∧ transform c.pca x i ≤ int32Max * c.quantization i

/-- The bound on the error of value `k` of a tile. -/
def bound (c : Config K m n) (k : Fin n) : K := |c.pca.std k| * ∑ i, |c.pca.vectors i k| * (c.quantization i / 2)

/-- C65 for a tile: quantised and transformed back it is its projection up to the bound. -/
theorem tile_error (c : Config K m n) (hq : ∀ i, 0 < c.quantization i) (x : Fin n → K) (hx : InRange c x) :
    ∃ v, quantizeRow c.quantization (transform c.pca x) = some v ∧
      ∀ k, |inverse c.pca (fun i => invQuantize (c.quantization i) (v i)) k - project c.pca x k| ≤ bound c k := by
  have hv : quantizeRow c.quantization (transform c.pca x) =
      some fun i => (quantize (c.quantization i) (transform c.pca x i)).getD 0 := by
    rw [quantizeRow, if_neg]
    rintro ⟨i, hi⟩
    exact (hq i).ne' hi
  refine ⟨_, hv, ?_⟩
  intro k
  have hnear : ∀ i, |invQuantize (c.quantization i) ((quantize (c.quantization i) (transform c.pca x i)).getD 0) -
      transform c.pca x i| ≤ c.quantization i / 2 := by
    intro i
    obtain ⟨code, h1, h2⟩ := quantize_near _ _ (hq i) (hx i).1 (hx i).2
    rw [h1]
    exact h2
  unfold inverse project bound
  rw [add_sub_add_right_eq_sub, ← sub_mul, ← Finset.sum_sub_distrib, abs_mul, mul_comm]
  apply mul_le_mul_of_nonneg_left _ (abs_nonneg _)
  refine (Finset.abs_sum_le_sum_abs _ _).trans (Finset.sum_le_sum fun i _ => ?_)
  rw [← mul_sub, abs_mul]
  exact mul_le_mul_of_nonneg_left (hnear i) (abs_nonneg _)

/-- With orthonormal columns (as many orthonormal eigenvectors as values) and positive deviations nothing is lost by
projecting. -/
theorem project_eq (p : Params K m n) (hstd : ∀ k, p.std k ≠ 0)
    (hE : ∀ k j, ∑ i, p.vectors i k * p.vectors i j = if k = j then 1 else 0) (x : Fin n → K) : project p x = x := by
  funext k
  unfold project
  have : ∑ i, p.vectors i k * ∑ j, p.vectors i j * ((x j - p.mean j) / p.std j) = (x k - p.mean k) / p.std k := by
    calc _ = ∑ i, ∑ j, p.vectors i k * p.vectors i j * ((x j - p.mean j) / p.std j) := by
          apply Finset.sum_congr rfl
          intro i _
          rw [Finset.mul_sum]
          apply Finset.sum_congr rfl
          intro j _
          ring
      _ = ∑ j, ∑ i, p.vectors i k * p.vectors i j * ((x j - p.mean j) / p.std j) := Finset.sum_comm
      _ = ∑ j, (if k = j then 1 else 0) * ((x j - p.mean j) / p.std j) := by
          apply Finset.sum_congr rfl
          intro j _
          rw [← Finset.sum_mul, hE]
      _ = _ := by simp
  rw [this, div_mul_cancel₀ _ (hstd k), sub_add_cancel]

theorem flatMap_ofFn_length (l : List (Fin n → K)) : (l.flatMap List.ofFn).length = l.length * n := by
  induction l with
  | nil => simp
  | cons a l ih => rw [List.flatMap_cons, List.length_append, ih, List.length_ofFn, List.length_cons]; ring

theorem flatMap_ofFn_get (l : List (Fin n → K)) : ∀ r (k : Fin n), r < l.length →
    (l.flatMap List.ofFn)[r * n + k]? = (l[r]?).map fun f => f k := by
  induction l with
  | nil => intro r k h; simp at h
  | cons a l ih =>
    intro r k h
    rw [List.flatMap_cons]
    cases r with
    | zero =>
      rw [Nat.zero_mul, Nat.zero_add, List.getElem?_append_left (by rw [List.length_ofFn]; exact k.2)]
      simp
    | succ r =>
      rw [List.getElem?_append_right (by rw [List.length_ofFn, Nat.succ_mul]; omega), List.length_ofFn,
        show (r + 1) * n + ↑k - n = r * n + k by rw [Nat.succ_mul]; omega, ih r k (by simpa using h)]
      simp

theorem ofRows_wf (l : List (Fin n → K)) : (ofRows l).WF := by
  unfold WF ofRows
  rw [flatMap_ofFn_length]
  simp

theorem ofRows_get (l : List (Fin n → K)) (r : Nat) (k : Fin n) (h : r < l.length) :
    (ofRows l).get? [r, k] = (l[r]?).map fun f => f k := by
  rw [Tensor.get?, if_pos (by unfold ofRows; exact within_iff2.mpr ⟨h, k.2⟩)]
  rw [← flatMap_ofFn_get l r k h]
  simp [ofRows, offset]

/-- The values of the tile at `(ty, tx)`, mirrored at the border, minus the means of the channels. -/
def tileOf (img : Tensor K) (h w d tile n : Nat) (ty tx : Nat) : Fin n → K := fun q =>
  let k := q.val % d
  let px := q.val / d % tile
  let py := q.val / d / tile
  (img.get? [Tiling.mirror h (ty * tile + py), Tiling.mirror w (tx * tile + px), k]).getD 0 - channelMean img h w k

theorem codecExtract_spec {img : Tensor K} {h w d tile : Nat} (L : Tiling.Legal img h w d tile) :
    ∃ tiles, codecExtract img tile = some ((List.range d).map (channelMean img h w), tiles) ∧ tiles.WF ∧
      tiles.shape = [Tiling.numTiles h tile * Tiling.numTiles w tile, tile * tile * d] ∧
      ∀ ty tx, ty < Tiling.numTiles h tile → tx < Tiling.numTiles w tile → ∀ q : Fin (tile * tile * d),
        tiles.get? [ty * Tiling.numTiles w tile + tx, q] = some (tileOf img h w d tile (tile * tile * d) ty tx q) := by
  obtain ⟨off, o1, o2, o3, o4⟩ := ofFn?_ok [h, w, d] (fun idx => do
      let v ← img.get? idx
      let r ← ((List.range d).map (channelMean img h w))[idx.getD 2 0]?
      pure (v - r)) (by
    intro idx hi
    obtain ⟨y, x, k, rfl, h1, h2, h3⟩ := exists_of_within3 hi
    obtain ⟨v, hv⟩ := get?_isSome L.wf (by rw [L.shape]; exact hi)
    refine ⟨v - channelMean img h w k, ?_⟩
    simp only [hv, Option.bind_eq_bind, Option.bind_some, List.getD_cons_succ, List.getD_cons_zero]
    rw [List.getElem?_map, List.getElem?_range h3]
    rfl)
  have L' : Tiling.Legal off h w d tile := ⟨o3, o2, L.tilePos, L.height, L.width, L.depth⟩
  obtain ⟨tiles, t1, t2, t3, t4⟩ := Tiling.extractTiles_spec L'
  refine ⟨tiles, ?_, t3, t2, ?_⟩
  · unfold codecExtract
    rw [L.shape]
    exact Option.bind_eq_some_iff.mpr ⟨off, o1, Option.bind_eq_some_iff.mpr ⟨tiles, t1, rfl⟩⟩
  · intro ty tx hty htx q
    have hd := L.depth
    have ht := L.tilePos
    have hk : q.val % d < d := Nat.mod_lt _ hd
    have hpx : q.val / d % tile < tile := Nat.mod_lt _ ht
    have hpy : q.val / d / tile < tile := by
      apply Nat.div_lt_of_lt_mul
      apply Nat.div_lt_of_lt_mul
      exact q.2.trans_eq (Nat.mul_comm _ _)
    have e : (q.val / d / tile * tile + q.val / d % tile) * d + q.val % d = q.val := by
      rw [Nat.mul_comm (q.val / d / tile), Nat.div_add_mod, Nat.mul_comm, Nat.div_add_mod]
    have := t4 ty tx _ _ _ hty htx hpy hpx hk
    rw [e] at this
    rw [this]
    have m1 := Tiling.mirror_lt L.height (Tiling.mul_add_lt hty hpy)
    have m2 := Tiling.mirror_lt L.width (Tiling.mul_add_lt htx hpx)
    have hin : within [Tiling.mirror h (ty * tile + q.val / d / tile), Tiling.mirror w (tx * tile + q.val / d % tile), q.val % d]
        [h, w, d] = true := within_iff3.mpr ⟨m1, m2, hk⟩
    rw [o4 _ hin]
    obtain ⟨v, hv⟩ := get?_isSome L.wf (by rw [L.shape]; exact hin)
    unfold tileOf
    simp only [hv, Option.bind_eq_bind, Option.bind_some, List.getD_cons_succ, List.getD_cons_zero, Option.getD_some]
    rw [List.getElem?_map, List.getElem?_range hk]
    rfl

/-- Position of channel `k` of pixel `(y, x)` in its tile. -/
def posInTile (d tile y x k : Nat) : Nat := (y % tile * tile + x % tile) * d + k

theorem posInTile_lt {d tile y x k : Nat} (ht : 0 < tile) (hk : k < d) : posInTile d tile y x k < tile * tile * d :=
  Tiling.mul_add_lt (Tiling.mul_add_lt (Nat.mod_lt _ ht) (Nat.mod_lt _ ht)) hk

/-- C65: encoding a legal image succeeds if the coefficients are in range; the code has the shape of the image, one
code per tile, and the mean of each channel; decoding it gives an image of the same shape that differs from the
projection of the image by at most the bound, at every pixel and channel. -/
theorem decode_encode {h w d tile m : Nat} (c : Config K m (tile * tile * d)) (hc : c.tile = tile)
    (hq : ∀ i, 0 < c.quantization i) {img : Tensor K} (L : Tiling.Legal img h w d tile)
    (hr : ∀ ty tx, ty < Tiling.numTiles h tile → tx < Tiling.numTiles w tile →
      InRange c (tileOf img h w d tile (tile * tile * d) ty tx)) :
    ∃ code out, encode c img = some code ∧ decode c code = some out ∧ code.shape = [h, w, d] ∧
      code.values.length = Tiling.numTiles h tile * Tiling.numTiles w tile ∧
      code.reference = (List.range d).map (channelMean img h w) ∧ out.WF ∧ out.shape = [h, w, d] ∧
      ∀ y x k (_ : y < h) (_ : x < w) (hk : k < d), ∃ v, out.get? [y, x, k] = some v ∧
        |v - (project c.pca (tileOf img h w d tile (tile * tile * d) (y / tile) (x / tile))
          ⟨posInTile d tile y x k, posInTile_lt L.tilePos hk⟩ + channelMean img h w k)| ≤
          bound c ⟨posInTile d tile y x k, posInTile_lt L.tilePos hk⟩ := by
  obtain ⟨tiles, t1, t2, t3, t4⟩ := codecExtract_spec L
  set T := Tiling.numTiles h tile * Tiling.numTiles w tile with hT
  have ht := L.tilePos
  have hnx : ∀ r, r < T → r / Tiling.numTiles w tile < Tiling.numTiles h tile ∧
      r % Tiling.numTiles w tile < Tiling.numTiles w tile ∧
      r / Tiling.numTiles w tile * Tiling.numTiles w tile + r % Tiling.numTiles w tile = r := by
    intro r hrT
    have hpos : 0 < Tiling.numTiles w tile := by
      rcases Nat.eq_zero_or_pos (Tiling.numTiles w tile) with h0 | h0
      · rw [hT, h0] at hrT; omega
      · exact h0
    refine ⟨?_, Nat.mod_lt _ hpos, ?_⟩
    · apply Nat.div_lt_of_lt_mul; rw [Nat.mul_comm]; exact hrT
    · rw [Nat.mul_comm]; exact Nat.div_add_mod _ _
  set row : Nat → Fin (tile * tile * d) → K := fun r =>
    tileOf img h w d tile (tile * tile * d) (r / Tiling.numTiles w tile) (r % Tiling.numTiles w tile) with hrow
  have hrows : rows (tile * tile * d) tiles = some ((List.range T).map row) := by
    unfold rows
    rw [t3]
    simp only [if_true]
    congr 1
    apply List.map_congr_left
    intro r hrT
    rw [List.mem_range] at hrT
    obtain ⟨a1, a2, a3⟩ := hnx r hrT
    funext k
    have := t4 _ _ a1 a2 k
    rw [a3] at this
    rw [this]
    rfl
  obtain ⟨vs, v1, v2⟩ := Detection.mapM_exists (quantizeRow c.quantization)
    (fun cf v => ∀ x, InRange c x → cf = transform c.pca x → ∀ k,
      |inverse c.pca (fun i => invQuantize (c.quantization i) (v i)) k - project c.pca x k| ≤ bound c k)
    (((List.range T).map row).map (transform c.pca)) (by
    intro cf hcf
    obtain ⟨x, hx, rfl⟩ := List.mem_map.mp hcf
    obtain ⟨r, hrT, rfl⟩ := List.mem_map.mp hx
    rw [List.mem_range] at hrT
    obtain ⟨a1, a2, a3⟩ := hnx r hrT
    obtain ⟨v, h1, h2⟩ := tile_error c hq (row r) (hr _ _ a1 a2)
    refine ⟨v, h1, ?_⟩
    intro x hx hxe k
    obtain ⟨v', h1', h2'⟩ := tile_error c hq x hx
    rw [← hxe, h1] at h1'
    cases h1'
    exact h2' k)
  have hlen : vs.length = T := by rw [← v2.length_eq]; simp
  have henc : encode c img = some ⟨(List.range d).map (channelMean img h w), vs, [h, w, d]⟩ := by
    unfold encode
    rw [hc]
    simp only [t1, hrows, Option.bind_eq_bind, Option.bind_some]
    rw [v1, L.shape]
    rfl
  set dec := vs.map (fun v => inverse c.pca fun i => invQuantize (c.quantization i) (v i)) with hdec
  have hdl : dec.length = T := by rw [hdec, List.length_map, hlen]
  obtain ⟨off, o1, o2, o3, o4⟩ := Tiling.combineTiles_spec (h := h) (w := w) (d := d) ht (ofRows_wf dec) (by
    unfold ofRows; simp only [hdl]; rfl)
  obtain ⟨out, p1, p2, p3, p4⟩ := ofFn?_ok off.shape (fun idx => do
      let v ← off.get? idx
      let r ← ((List.range d).map (channelMean img h w))[idx.getD 2 0]?
      pure (v + r)) (by
    intro idx hi
    obtain ⟨v, hv⟩ := get?_isSome o3 hi
    rw [o2] at hi
    obtain ⟨y, x, k, rfl, h1, h2, h3⟩ := exists_of_within3 hi
    refine ⟨v + channelMean img h w k, ?_⟩
    simp only [hv, Option.bind_eq_bind, Option.bind_some, List.getD_cons_succ, List.getD_cons_zero]
    rw [List.getElem?_map, List.getElem?_range h3]
    rfl)
  refine ⟨_, out, henc, ?_, rfl, hlen, rfl, p3, p2.trans o2, ?_⟩
  · unfold decode codecCombine
    rw [hc]
    simp only [List.getElem?_cons_zero, List.getElem?_cons_succ, Option.bind_eq_bind, Option.bind_some]
    rw [← hdec, o1]
    exact p1
  · intro y x k hy hx hk
    have hp1 := Tiling.numTiles_spec h tile ht
    have hp2 := Tiling.numTiles_spec w tile ht
    have ey : y / tile * tile + y % tile = y := by rw [Nat.mul_comm]; exact Nat.div_add_mod _ _
    have ex : x / tile * tile + x % tile = x := by rw [Nat.mul_comm]; exact Nat.div_add_mod _ _
    have hty : y / tile < Tiling.numTiles h tile := by
      apply Nat.div_lt_of_lt_mul; rw [Nat.mul_comm]; omega
    have htx : x / tile < Tiling.numTiles w tile := by
      apply Nat.div_lt_of_lt_mul; rw [Nat.mul_comm]; omega
    have q := o4 (y / tile) (x / tile) (y % tile) (x % tile) k (Nat.mod_lt _ ht) (Nat.mod_lt _ ht) (by omega)
      (by omega) hk
    rw [ey, ex] at q
    set r := y / tile * Tiling.numTiles w tile + x / tile with hrdef
    have hrT : r < T := Tiling.mul_add_lt hty htx
    have hg := ofRows_get dec r ⟨posInTile d tile y x k, posInTile_lt ht hk⟩ (by rw [hdl]; exact hrT)
    have hg' : (ofRows dec).get? [r, (y % tile * tile + x % tile) * d + k] =
        (dec[r]?).map fun f => f ⟨posInTile d tile y x k, posInTile_lt ht hk⟩ := hg
    have hvr : r < vs.length := by rw [hlen]; exact hrT
    have hdr : dec[r]? = some (inverse c.pca fun i => invQuantize (c.quantization i) (vs[r] i)) := by
      rw [hdec, List.getElem?_map, List.getElem?_eq_getElem hvr]
      rfl
    have hin : within [y, x, k] off.shape = true := by rw [o2]; exact within_iff3.mpr ⟨hy, hx, hk⟩
    refine ⟨inverse c.pca (fun i => invQuantize (c.quantization i) (vs[r] i))
      ⟨posInTile d tile y x k, posInTile_lt ht hk⟩ + channelMean img h w k, ?_, ?_⟩
    · rw [p4 _ hin]
      simp only [q, hg', hdr, Option.map_some, Option.bind_eq_bind, Option.bind_some, List.getD_cons_succ,
        List.getD_cons_zero]
      rw [List.getElem?_map, List.getElem?_range hk]
      rfl
    · rw [add_sub_add_right_eq_sub]
      have hpos : 0 < Tiling.numTiles w tile := (Nat.zero_le _).trans_lt htx
      have hrd : r / Tiling.numTiles w tile = y / tile ∧ r % Tiling.numTiles w tile = x / tile := by
        rw [hrdef]
        constructor
        · rw [Nat.add_comm, Nat.add_mul_div_right _ _ hpos, Nat.div_eq_of_lt htx, Nat.zero_add]
        · rw [Nat.add_comm, Nat.add_mul_mod_self_right, Nat.mod_eq_of_lt htx]
      have hv := v2.get (i := r) (by simpa using hrT) hvr
      simp only [List.get_eq_getElem, List.getElem_map, List.getElem_range] at hv
      refine hv _ (hr _ _ hty htx) ?_ _
      rw [hrow]
      simp only [hrd.1, hrd.2]

/-- C65: with as many orthonormal components as values in a tile and positive deviations, the decoded image is the
image up to the bound. -/
theorem decode_encode_orthonormal {h w d tile m : Nat} (c : Config K m (tile * tile * d)) (hc : c.tile = tile)
    (hq : ∀ i, 0 < c.quantization i) (hstd : ∀ k, c.pca.std k ≠ 0)
    (hE : ∀ k j, ∑ i, c.pca.vectors i k * c.pca.vectors i j = if k = j then 1 else 0)
    {img : Tensor K} (L : Tiling.Legal img h w d tile)
    (hr : ∀ ty tx, ty < Tiling.numTiles h tile → tx < Tiling.numTiles w tile →
      InRange c (tileOf img h w d tile (tile * tile * d) ty tx)) :
    ∃ code out, encode c img = some code ∧ decode c code = some out ∧ out.shape = img.shape ∧
      ∀ y x k (_ : y < h) (_ : x < w) (hk : k < d), ∃ v a, out.get? [y, x, k] = some v ∧ img.get? [y, x, k] = some a ∧
        |v - a| ≤ bound c ⟨posInTile d tile y x k, posInTile_lt L.tilePos hk⟩ := by
  obtain ⟨code, out, h1, h2, -, -, -, -, h3, h4⟩ := decode_encode c hc hq L hr
  refine ⟨code, out, h1, h2, h3.trans L.shape.symm, ?_⟩
  intro y x k hy hx hk
  obtain ⟨v, v1, v2⟩ := h4 y x k hy hx hk
  obtain ⟨a, ha⟩ := get?_isSome L.wf (idx := [y, x, k]) (by rw [L.shape]; exact within_iff3.mpr ⟨hy, hx, hk⟩)
  refine ⟨v, a, v1, ha, ?_⟩
  rw [project_eq c.pca hstd hE] at v2
  have ht := L.tilePos
  have e1 : posInTile d tile y x k % d = k := by
    unfold posInTile; rw [Nat.add_comm, Nat.add_mul_mod_self_right, Nat.mod_eq_of_lt hk]
  have e2 : posInTile d tile y x k / d = y % tile * tile + x % tile := by
    unfold posInTile
    rw [Nat.add_comm, Nat.add_mul_div_right _ _ (by omega), Nat.div_eq_of_lt hk, Nat.zero_add]
  have e3 : (y % tile * tile + x % tile) % tile = x % tile := by
    rw [Nat.add_comm, Nat.add_mul_mod_self_right, Nat.mod_mod]
  have e4 : (y % tile * tile + x % tile) / tile = y % tile := by
    rw [Nat.add_comm, Nat.add_mul_div_right _ _ ht, Nat.div_eq_of_lt (Nat.mod_lt _ ht), Nat.zero_add]
  have ey : y / tile * tile + y % tile = y := by rw [Nat.mul_comm]; exact Nat.div_add_mod _ _
  have ex : x / tile * tile + x % tile = x := by rw [Nat.mul_comm]; exact Nat.div_add_mod _ _
  have : tileOf img h w d tile (tile * tile * d) (y / tile) (x / tile)
      ⟨posInTile d tile y x k, posInTile_lt L.tilePos hk⟩ = a - channelMean img h w k := by
    unfold tileOf
    simp only [e1, e2, e3, e4, ey, ex, Tiling.mirror, hy, hx, if_true, ha, Option.getD_some]
  rw [this, sub_add_cancel] at v2
  exact v2

/-- The reference is the mean of the channel: the offsets of a channel sum to zero (for an image with pixels). -/
theorem channelMean_spec (img : Tensor K) (h w c : Nat) (hh : 0 < h) (hw : 0 < w) :
    channelMean img h w c * ((h * w : ℕ) : K) =
      (((List.range h).flatMap fun y => (List.range w).map fun x => (img.get? [y, x, c]).getD 0).sum) := by
  have : ((h * w : ℕ) : K) ≠ 0 := by
    have : 0 < h * w := Nat.mul_pos hh hw
    exact_mod_cast this.ne'
  rw [channelMean, div_mul_cancel₀ _ this]

/-- A codec for tiles of one pixel with two channels: a rotation by a Pythagorean angle. -/
def demo : Config ℚ 2 (1 * 1 * 2) :=
  ⟨⟨fun _ => 1 / 10, fun _ => 2, fun i k => if i = 0 then (if k = 0 then 3 / 5 else 4 / 5) else (if k = 0 then -4 / 5 else 3 / 5)⟩,
    fun _ => 1 / 4, 1⟩

/-- The hypotheses of `decode_encode_orthonormal` are met. -/
example : ∀ k j, ∑ i, demo.pca.vectors i k * demo.pca.vectors i j = if k = j then 1 else 0 := by decide +kernel

example : ((encode demo ⟨[1, 2, 2], [3, 5, 1, 0]⟩).map fun c => (c.reference, c.values.map List.ofFn)) =
    some ([2, 5 / 2], [[5, 1], [-5, -1]]) := by decide +kernel

example : ((encode demo ⟨[1, 2, 2], [3, 5, 1, 0]⟩).bind (decode demo)) =
    some ⟨[1, 2, 2], [16 / 5, 49 / 10, 1, 3 / 10]⟩ := by decide +kernel

/-- The hypotheses of `decode_encode` are met by this image. -/
example : Tiling.Legal (⟨[1, 2, 2], [3, 5, 1, 0]⟩ : Tensor ℚ) 1 2 2 1 ∧
    ∀ ty tx, ty < Tiling.numTiles 1 1 → tx < Tiling.numTiles 2 1 →
      InRange demo (tileOf (⟨[1, 2, 2], [3, 5, 1, 0]⟩ : Tensor ℚ) 1 2 2 1 (1 * 1 * 2) ty tx) := by
  refine ⟨⟨rfl, rfl, by decide, by decide, by decide, by decide⟩, ?_⟩
  intro ty tx h1 h2
  have h1' : ty < 1 := h1
  have h2' : tx < 2 := h2
  unfold InRange
  interval_cases ty
  interval_cases tx <;> decide +kernel

end Verif.Pca
