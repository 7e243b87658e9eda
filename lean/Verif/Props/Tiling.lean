import Verif.Model.Tiling
import Verif.Lemmas.Tensor

/-!
C04: tiling and combining are inverse, and tiles contain what they should.
-/

namespace Verif.Tiling

open Tensor

variable {α : Type}

theorem numTiles_spec (size tile : Nat) (ht : 0 < tile) :
    size ≤ numTiles size tile * tile ∧ numTiles size tile * tile < size + tile := by
  unfold numTiles
  have h1 := Nat.div_mul_le_self (size + tile - 1) tile
  have h2 := Nat.lt_div_mul_add (a := size + tile - 1) (b := tile) ht
  omega

theorem numTiles_mul (n tile : Nat) (ht : 0 < tile) : numTiles (n * tile) tile = n := by
  have h := numTiles_spec (n * tile) tile ht
  have h1 : n ≤ numTiles (n * tile) tile := Nat.le_of_mul_le_mul_right h.1 ht
  have h2 : numTiles (n * tile) tile < n + 1 := by
    apply Nat.lt_of_mul_lt_mul_right (a := tile)
    calc _ < n * tile + tile := h.2
      _ = (n + 1) * tile := by ring
  omega

/-- Specification: the legal inputs of `extract_tiles`: an image with pixels and values, whose padding is smaller
than the image. -/
structure Legal (img : Tensor α) (h w d tile : Nat) : Prop where
  wf : img.WF
  shape : img.shape = [h, w, d]
  tilePos : 0 < tile
  height : numTiles h tile * tile - h < h
  width : numTiles w tile * tile - w < w
  depth : 0 < d

theorem transpose02134_ok {t : Tensor α} {a b c d e : Nat} (ht : t.WF) (hs : t.shape = [a, b, c, d, e]) :
    ∃ u, transpose02134 t = some u ∧ u.shape = [a, c, b, d, e] ∧ u.WF ∧
      ∀ i j k l m, i < a → j < b → k < c → l < d → m < e → u.get? [i, k, j, l, m] = t.get? [i, j, k, l, m] := by
  obtain ⟨u, u1, u2, u3, u4⟩ := ofFn?_ok [a, c, b, d, e] (fun idx => match idx with
      | [i, k, j, l, m] => t.get? [i, j, k, l, m]
      | _ => none) (by
    intro idx hi
    obtain ⟨i, k, j, l, m, rfl, h1, h2, h3, h4, h5⟩ := exists_of_within5 hi
    exact get?_isSome ht (by rw [hs]; exact within_iff5.mpr ⟨h1, h3, h2, h4, h5⟩))
  refine ⟨u, ?_, u2, u3, ?_⟩
  · unfold transpose02134
    rw [hs]
    exact u1
  · intro i j k l m h1 h2 h3 h4 h5
    exact u4 _ (within_iff5.mpr ⟨h1, h3, h2, h4, h5⟩)

theorem mul_add_lt {i j a b : Nat} (hi : i < a) (hj : j < b) : i * b + j < a * b := by
  calc i * b + j < i * b + b := by omega
    _ = (i + 1) * b := by ring
    _ ≤ a * b := Nat.mul_le_mul_right _ hi

theorem mirror_lt {size i p : Nat} (hp : p - size < size) (hi : i < p) : mirror size i < size := by
  unfold mirror
  split_ifs <;> omega

/-- C04: what mirroring means: inside nothing changes, and a padding pixel is as far behind the last pixel as its
source is before it; so the last pixel itself is not repeated. -/
theorem mirror_spec {size i p : Nat} (hp : p - size < size) (hi : i < p) :
    (i < size → mirror size i = i) ∧ (size ≤ i → (size - 1) - mirror size i = i - (size - 1) ∧ mirror size i < size - 1) := by
  unfold mirror
  constructor
  · intro h; rw [if_pos h]
  · intro h; rw [if_neg (by omega)]; omega

/-- C04: the tiles of a legal image.  There are as many rows as tiles, each row has all values of a `tile × tile`
square, and the value of the row of tile `(ty, tx)` for its pixel `(py, px)` is that of the image at
`(ty * tile + py, tx * tile + px)`, mirrored at the lower and right border. -/
theorem extractTiles_spec {img : Tensor α} {h w d tile : Nat} (L : Legal img h w d tile) :
    ∃ tiles, extractTiles img tile = some tiles ∧
      tiles.shape = [numTiles h tile * numTiles w tile, tile * tile * d] ∧ tiles.WF ∧
      ∀ ty tx py px k, ty < numTiles h tile → tx < numTiles w tile → py < tile → px < tile → k < d →
        tiles.get? [ty * numTiles w tile + tx, (py * tile + px) * d + k] =
          img.get? [mirror h (ty * tile + py), mirror w (tx * tile + px), k] := by
  obtain ⟨hwf, hsh, htile, hh, hw, hd⟩ := L
  have hp1 := numTiles_spec h tile htile
  have hp2 := numTiles_spec w tile htile
  obtain ⟨p, p1, p2, p3, p4⟩ := ofFn?_ok [padded h tile, padded w tile, d] (fun idx => match idx with
      | [y, x, k] => img.get? [mirror h y, mirror w x, k]
      | _ => none) (by
    intro idx hi
    obtain ⟨y, x, k, rfl, h1, h2, h3⟩ := exists_of_within3 hi
    exact get?_isSome hwf (by rw [hsh]; exact within_iff3.mpr ⟨mirror_lt hh h1, mirror_lt hw h2, h3⟩))
  have e1 : [numTiles h tile, tile, numTiles w tile, tile, d].prod = p.shape.prod := by
    rw [p2]; simp only [padded, List.prod_cons, List.prod_nil]; ring
  have hpre := reshape_ok e1
  obtain ⟨q2, q3, q4⟩ := reshape_some p3 hpre
  obtain ⟨t5, r1, r2, r3, r4⟩ := transpose02134_ok q3 q2
  have e2 : [numTiles h tile * numTiles w tile, tile * tile * d].prod = t5.shape.prod := by
    rw [r2]; simp only [List.prod_cons, List.prod_nil]; ring
  have hout := reshape_ok e2
  obtain ⟨s2, s3, s4⟩ := reshape_some r3 hout
  refine ⟨_, ?_, s2, s3, ?_⟩
  · unfold extractTiles
    rw [hsh]
    simp only [Nat.pos_iff_ne_zero.mp htile, if_false]
    have hpad : padReflect img h w d (padded h tile) (padded w tile) = some p := by
      unfold padReflect
      rw [if_pos ⟨hh, hw, hd⟩]
      exact p1
    simp only [hpad, hpre, r1, hout, Option.bind_eq_bind, Option.bind_some]
  · intro ty tx py px k h1 h2 h3 h4 h5
    have w1 := mul_add_lt h1 h3
    have w2 := mul_add_lt h2 h4
    rw [get?_of_data s4 (j := [ty, tx, py, px, k]), r4 ty py tx px k h1 h3 h2 h4 h5,
      get?_of_data q4 (j := [ty * tile + py, tx * tile + px, k])]
    · exact p4 _ (within_iff3.mpr ⟨w1, w2, h5⟩)
    · rw [q2]; exact within_iff5.mpr ⟨h1, h3, h2, h4, h5⟩
    · rw [p2]; exact within_iff3.mpr ⟨w1, w2, h5⟩
    · rw [q2, p2]; simp only [offset, padded, List.prod_cons, List.prod_nil]; ring
    · rw [s2]; exact within_iff2.mpr ⟨mul_add_lt h1 h2, mul_add_lt (mul_add_lt h3 h4) h5⟩
    · rw [r2]; exact within_iff5.mpr ⟨h1, h2, h3, h4, h5⟩
    · rw [s2, r2]; simp only [offset, List.prod_cons, List.prod_nil]; ring

/-- C04: what `combine_tiles` returns: pixel `(y, x)` is that of the tile at `(y / tile, x / tile)`. -/
theorem combineTiles_spec {tiles : Tensor α} {h w d tile : Nat} (ht : 0 < tile) (hwf : tiles.WF)
    (hs : tiles.shape = [numTiles h tile * numTiles w tile, tile * tile * d]) :
    ∃ img, combineTiles tiles h w tile = some img ∧ img.shape = [h, w, d] ∧ img.WF ∧
      ∀ ty tx py px k, py < tile → px < tile → ty * tile + py < h → tx * tile + px < w → k < d →
        img.get? [ty * tile + py, tx * tile + px, k] =
          tiles.get? [ty * numTiles w tile + tx, (py * tile + px) * d + k] := by
  have hp1 := numTiles_spec h tile ht
  have hp2 := numTiles_spec w tile ht
  have hpos : 0 < tile * tile := Nat.mul_pos ht ht
  have hdiv : tile * tile * d / (tile * tile) = d := Nat.mul_div_cancel_left d hpos
  have e1 : [numTiles h tile, numTiles w tile, tile, tile, d].prod = tiles.shape.prod := by
    rw [hs]; simp only [List.prod_cons, List.prod_nil]; ring
  have h5 := reshape_ok e1
  obtain ⟨q2, q3, q4⟩ := reshape_some hwf h5
  obtain ⟨pre, r1, r2, r3, r4⟩ := transpose02134_ok q3 q2
  have e2 : [padded h tile, padded w tile, d].prod = pre.shape.prod := by
    rw [r2]; simp only [padded, List.prod_cons, List.prod_nil]; ring
  have hp := reshape_ok e2
  obtain ⟨s2, s3, s4⟩ := reshape_some r3 hp
  have m1 : min h (padded h tile) = h := Nat.min_eq_left hp1.1
  have m2 : min w (padded w tile) = w := Nat.min_eq_left hp2.1
  obtain ⟨img, i1, i2, i3, i4⟩ := ofFn?_ok [h, w, d] (Tensor.get? (⟨[padded h tile, padded w tile, d], pre.data⟩ : Tensor α)) (by
    intro idx hi
    obtain ⟨y, x, k, rfl, h1, h2, h3⟩ := exists_of_within3 hi
    exact get?_isSome s3 (within_iff3.mpr ⟨h1.trans_le hp1.1, h2.trans_le hp2.1, h3⟩))
  refine ⟨img, ?_, i2, i3, ?_⟩
  · unfold combineTiles
    rw [hs]
    simp only [List.getLast?_cons_cons, List.getLast?_singleton, Nat.pos_iff_ne_zero.mp ht, if_false, hdiv, ne_eq,
      not_true_eq_false, h5, r1, hp, Option.bind_eq_bind, Option.bind_some]
    unfold crop
    simp only [m1, m2]
    exact i1
  · intro ty tx py px k h1 h2 h3 h4 h5
    have hy : ty < numTiles h tile := by
      apply Nat.lt_of_mul_lt_mul_right (a := tile); omega
    have hx : tx < numTiles w tile := by
      apply Nat.lt_of_mul_lt_mul_right (a := tile); omega
    rw [i4 _ (within_iff3.mpr ⟨h3, h4, h5⟩), get?_of_data s4 (j := [ty, py, tx, px, k]), r4 ty tx py px k hy hx h1 h2 h5,
      get?_of_data q4 (j := [ty * numTiles w tile + tx, (py * tile + px) * d + k])]
    · rw [q2]; exact within_iff5.mpr ⟨hy, hx, h1, h2, h5⟩
    · rw [hs]; exact within_iff2.mpr ⟨mul_add_lt hy hx, mul_add_lt (mul_add_lt h1 h2) h5⟩
    · rw [q2, hs]; simp only [offset, List.prod_cons, List.prod_nil]; ring
    · exact within_iff3.mpr ⟨mul_add_lt hy h1, mul_add_lt hx h2, h5⟩
    · rw [r2]; exact within_iff5.mpr ⟨hy, h1, hx, h2, h5⟩
    · rw [r2]; simp only [offset, padded, List.prod_cons, List.prod_nil]; ring

/-- C04: combining the tiles of a legal image gives the image. -/
theorem combine_extract {img : Tensor α} {h w d tile : Nat} (L : Legal img h w d tile) :
    (extractTiles img tile).bind (fun tiles => combineTiles tiles h w tile) = some img := by
  obtain ⟨tiles, t1, t2, t3, t4⟩ := extractTiles_spec L
  obtain ⟨out, o1, o2, o3, o4⟩ := combineTiles_spec (d := d) L.tilePos t3 t2
  rw [t1, Option.bind_some, o1]
  congr 1
  apply Tensor.ext o3 L.wf (o2.trans L.shape.symm)
  intro idx hi
  rw [o2] at hi
  obtain ⟨y, x, k, rfl, h1, h2, h3⟩ := exists_of_within3 hi
  have ht := L.tilePos
  have ey : y / tile * tile + y % tile = y := by rw [Nat.mul_comm]; exact Nat.div_add_mod y tile
  have ex : x / tile * tile + x % tile = x := by rw [Nat.mul_comm]; exact Nat.div_add_mod x tile
  have hp1 := numTiles_spec h tile ht
  have hp2 := numTiles_spec w tile ht
  have := o4 (y / tile) (x / tile) (y % tile) (x % tile) k (Nat.mod_lt _ ht) (Nat.mod_lt _ ht) (by omega) (by omega) h3
  rw [ey, ex] at this
  rw [this, t4]
  · rw [ey, ex, mirror, if_pos h1, mirror, if_pos h2]
  · apply Nat.div_lt_of_lt_mul; rw [Nat.mul_comm]; omega
  · apply Nat.div_lt_of_lt_mul; rw [Nat.mul_comm]; omega
  · exact Nat.mod_lt _ ht
  · exact Nat.mod_lt _ ht
  · exact h3

/-- C04, the other direction: for an image without padding, extracting the tiles of combined tiles gives the tiles. -/
theorem extract_combine {tiles : Tensor α} {ny nx d tile : Nat} (ht : 0 < tile) (hny : 0 < ny) (hnx : 0 < nx) (hd : 0 < d)
    (hwf : tiles.WF) (hs : tiles.shape = [ny * nx, tile * tile * d]) :
    (combineTiles tiles (ny * tile) (nx * tile) tile).bind (fun img => extractTiles img tile) = some tiles := by
  have n1 := numTiles_mul ny tile ht
  have n2 := numTiles_mul nx tile ht
  obtain ⟨img, o1, o2, o3, o4⟩ := combineTiles_spec (h := ny * tile) (w := nx * tile) (d := d) ht hwf
    (by rw [n1, n2]; exact hs)
  have p1 : 0 < ny * tile := Nat.mul_pos hny ht
  have p2 : 0 < nx * tile := Nat.mul_pos hnx ht
  obtain ⟨out, t1, t2, t3, t4⟩ := extractTiles_spec (img := img) (h := ny * tile) (w := nx * tile) (d := d) (tile := tile)
    ⟨o3, o2, ht, by rw [n1]; omega, by rw [n2]; omega, hd⟩
  rw [o1, Option.bind_some, t1]
  rw [n1, n2] at t2 t4
  rw [n2] at o4
  congr 1
  apply Tensor.ext t3 hwf (t2.trans hs.symm)
  intro idx hi
  rw [t2] at hi
  obtain ⟨r, c, rfl, h1, h2⟩ := exists_of_within2 hi
  have er : r / nx * nx + r % nx = r := by rw [Nat.mul_comm]; exact Nat.div_add_mod r nx
  have ec : c / d * d + c % d = c := by rw [Nat.mul_comm]; exact Nat.div_add_mod c d
  have ep : c / d / tile * tile + c / d % tile = c / d := by rw [Nat.mul_comm]; exact Nat.div_add_mod _ tile
  have hr1 : r / nx < ny := by apply Nat.div_lt_of_lt_mul; rw [Nat.mul_comm]; exact h1
  have hr2 := Nat.mod_lt r hnx
  have hc1 : c / d < tile * tile := by apply Nat.div_lt_of_lt_mul; rw [Nat.mul_comm]; exact h2
  have hc2 := Nat.mod_lt c hd
  have hp1 : c / d / tile < tile := Nat.div_lt_of_lt_mul hc1
  have hp2 := Nat.mod_lt (c / d) ht
  have q := t4 (r / nx) (r % nx) (c / d / tile) (c / d % tile) (c % d) hr1 hr2 hp1 hp2 hc2
  have b1 := mul_add_lt hr1 hp1
  have b2 := mul_add_lt hr2 hp2
  rw [mirror, if_pos b1, mirror, if_pos b2,
    o4 (r / nx) (r % nx) (c / d / tile) (c / d % tile) (c % d) hp1 hp2 b1 b2 hc2, er, ep, ec] at q
  exact q

/-- An illegal padding is refused: an image less than about half as high as its padded height cannot be tiled. -/
theorem extractTiles_illegal {img : Tensor α} {h w d tile : Nat} (hs : img.shape = [h, w, d])
    (hbad : tile = 0 ∨ h ≤ numTiles h tile * tile - h ∨ w ≤ numTiles w tile * tile - w ∨ d = 0) :
    extractTiles img tile = none := by
  unfold extractTiles
  rw [hs]
  simp only
  split_ifs with h0
  · rfl
  · have : padReflect img h w d (padded h tile) (padded w tile) = none := by
      unfold padReflect padded
      rw [if_neg]
      omega
    rw [this]
    rfl

/-- The hypotheses are met by an image with 3 rows and 5 columns of pairs with tiles of size 2. -/
def demoImage : Tensor Nat := ⟨[3, 5, 2], List.range 30⟩

example : Legal demoImage 3 5 2 2 := ⟨rfl, rfl, by decide, by decide, by decide, by decide⟩

example : (extractTiles demoImage 2).map Tensor.shape = some [6, 8] ∧
    (extractTiles demoImage 2).bind (fun t => t.get? [5, 0]) = some 28 ∧
    (extractTiles demoImage 2).bind (fun t => t.get? [5, 2]) = some 26 := by decide +kernel

end Verif.Tiling
