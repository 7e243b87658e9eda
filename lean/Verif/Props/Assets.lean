import Verif.Model.Assets
import Verif.Props.Pca
import Mathlib.Data.List.GetD

/-!
C164: encoding the camera rays of an object and decoding them.  C165: which ray components can be encoded.
-/

namespace Verif.Assets

open Tensor

variable {Key K : Type}

/-- Specification: an image of `h` rows and `w` columns with three values per pixel. -/
def Image (s : Shaped K) (h w : Nat) : Prop := s.shape = [h, w, 3] ∧ s.values.length = h * w * 3

/-- Specification: value `k` of the pixel in row `y` and column `x` of an image with `w` columns. -/
def pixel (s : Shaped K) (w y x k : Nat) : Option K := s.values[(y * w + x) * 3 + k]?

theorem tensor_of_image {s : Shaped K} {h w : Nat} (H : Image s h w) :
    s.tensor = some ⟨[h, w, 3], s.values⟩ ∧ (⟨[h, w, 3], s.values⟩ : Tensor K).WF := by
  have hp : ([h, w, 3] : List Nat).prod = h * w * 3 := by simp [Nat.mul_assoc]
  constructor
  · rw [Shaped.tensor, if_pos (by rw [H.2, H.1, hp]), H.1]
  · show s.values.length = ([h, w, 3] : List Nat).prod
    rw [H.2, hp]

theorem get_of_image (v : List K) (h w : Nat) {y x k : Nat} (hy : y < h) (hx : x < w) (hk : k < 3) :
    (⟨[h, w, 3], v⟩ : Tensor K).get? [y, x, k] = v[(y * w + x) * 3 + k]? := by
  rw [get?, if_pos (within_iff3.mpr ⟨hy, hx, hk⟩)]
  congr 1
  simp [offset]
  ring

theorem concatLast_ok {a b : Tensor K} {h w d e : Nat} (ha : a.WF) (hb : b.WF) (sa : a.shape = [h, w, d])
    (sb : b.shape = [h, w, e]) :
    ∃ t, concatLast a b = some t ∧ t.shape = [h, w, d + e] ∧ t.WF ∧
      (∀ y x k, y < h → x < w → k < d → t.get? [y, x, k] = a.get? [y, x, k]) ∧
      ∀ y x k, y < h → x < w → k < e → t.get? [y, x, d + k] = b.get? [y, x, k] := by
  obtain ⟨t, t1, t2, t3, t4⟩ := ofFn?_ok [h, w, d + e] (fun idx => match idx with
      | [y, x, k] => if k < d then a.get? [y, x, k] else b.get? [y, x, k - d]
      | _ => none) (by
    intro idx hi
    obtain ⟨y, x, k, rfl, hy, hx, hk⟩ := exists_of_within3 hi
    by_cases hkd : k < d
    · obtain ⟨v, hv⟩ := get?_isSome ha (idx := [y, x, k]) (by rw [sa]; exact within_iff3.mpr ⟨hy, hx, hkd⟩)
      exact ⟨v, by simp only [hkd, if_true, hv]⟩
    · obtain ⟨v, hv⟩ := get?_isSome hb (idx := [y, x, k - d]) (by rw [sb]; exact within_iff3.mpr ⟨hy, hx, by omega⟩)
      exact ⟨v, by simp only [hkd, if_false, hv]⟩)
  refine ⟨t, ?_, t2, t3, ?_, ?_⟩
  · unfold concatLast
    rw [sa, sb]
    simp only [and_self, if_true]
    exact t1
  · intro y x k hy hx hk
    rw [t4 _ (within_iff3.mpr ⟨hy, hx, by omega⟩)]
    simp only [hk, if_true]
  · intro y x k hy hx hk
    rw [t4 _ (within_iff3.mpr ⟨hy, hx, by omega⟩)]
    simp only [Nat.not_lt.mpr (Nat.le_add_right d k), if_false, Nat.add_sub_cancel_left]

/-- C164: a sample for fitting the codec exists for every row with two images of one size, and it is the tensor that
`encode` compresses: the origin in channels 0-2 and the direction in channels 3-5 of each pixel. -/
theorem sample_spec {o d : Shaped K} {h w : Nat} (ho : Image o h w) (hd : Image d h w) :
    ∃ t, sample o d = some t ∧ t.WF ∧ t.shape = [h, w, 6] ∧ ∀ y x k, y < h → x < w → k < 3 →
      t.get? [y, x, k] = pixel o w y x k ∧ t.get? [y, x, 3 + k] = pixel d w y x k := by
  obtain ⟨o1, o2⟩ := tensor_of_image ho
  obtain ⟨d1, d2⟩ := tensor_of_image hd
  obtain ⟨t, t1, t2, t3, t4, t5⟩ := concatLast_ok o2 d2 rfl rfl
  refine ⟨t, ?_, t3, t2, ?_⟩
  · rw [sample, o1, d1]
    exact t1
  · intro y x k hy hx hk
    rw [t4 y x k hy hx hk, t5 y x k hy hx hk, get_of_image _ _ _ hy hx hk, get_of_image _ _ _ hy hx hk]
    exact ⟨rfl, rfl⟩

/-- C164: the samples of a table: one per row, in the order of the rows, and none if a row has no sample. -/
theorem samples_spec (rows : List (Shaped K × Shaped K)) (ts : List (Tensor K)) :
    samples rows = some ts ↔ List.Forall₂ (fun r t => sample r.1 r.2 = some t) rows ts := by
  unfold samples
  induction rows generalizing ts with
  | nil => simp [List.mapM_nil, eq_comm]
  | cons r rows ih =>
    rw [List.mapM_cons]
    simp only [Option.bind_eq_bind, Option.bind_eq_some_iff, Option.pure_def, Option.some.injEq]
    constructor
    · rintro ⟨t, ht, ts', hts, rfl⟩
      exact .cons ht ((ih _).1 hts)
    · intro H
      cases H with
      | cons h1 h2 => exact ⟨_, h1, _, (ih _).2 h2, rfl⟩

theorem flatMap_ofFn_getD {m : Nat} : ∀ (l : List (Fin m → ℤ)) (r : Nat) (i : Fin m), r < l.length →
    (l.flatMap List.ofFn).getD (r * m + i.val) 0 = (l.getD r fun _ => 0) i := by
  intro l
  induction l with
  | nil => intro r i h; simp at h
  | cons a l ih =>
    intro r i h
    rw [List.flatMap_cons]
    cases r with
    | zero =>
      rw [Nat.zero_mul, Nat.zero_add, List.getD_append _ _ _ _ (by simp)]
      simp [List.getD_eq_getElem?_getD]
    | succ r =>
      rw [List.getD_append_right _ _ _ _ (by simp; nlinarith)]
      have : (r + 1) * m + i.val - (List.ofFn a).length = r * m + i.val := by
        rw [List.length_ofFn, Nat.succ_mul]; omega
      rw [this, ih r i (by simpa using h)]
      simp

theorem flatMap_ofFn_len {m : Nat} (l : List (Fin m → ℤ)) : (l.flatMap List.ofFn).length = l.length * m := by
  induction l with
  | nil => simp
  | cons a l ih => rw [List.flatMap_cons, List.length_append, ih, List.length_ofFn, List.length_cons]; ring

theorem regroup_flat {m : Nat} (hm : 0 < m) (l : List (Fin m → ℤ)) : regroup m (l.flatMap List.ofFn) = some l := by
  have hlen := flatMap_ofFn_len l
  unfold regroup
  rw [if_neg (by rw [hlen, Nat.mul_mod_left]; omega), hlen, Nat.mul_div_cancel _ hm]
  congr 1
  apply List.ext_getElem?
  intro r
  rcases Nat.lt_or_ge r l.length with hr | hr
  · rw [List.getElem?_map, List.getElem?_range hr, List.getElem?_eq_getElem hr]
    simp only [Option.map_some, Option.some.injEq]
    funext i
    rw [flatMap_ofFn_getD l r i hr, List.getD_eq_getElem _ _ hr]
  · rw [List.getElem?_eq_none (by simpa using hr), List.getElem?_eq_none hr]

theorem part_ok {t : Tensor K} {h w : Nat} (ht : t.WF) (st : t.shape = [h, w, 6]) {f : Nat} (hf : f + 3 ≤ 6) :
    ∃ u, part t h w f = some u ∧ Image (Shaped.ofTensor u) h w ∧
      ∀ y x k, y < h → x < w → k < 3 → pixel (Shaped.ofTensor u) w y x k = t.get? [y, x, f + k] := by
  obtain ⟨u, u1, u2, u3, u4⟩ := ofFn?_ok [h, w, 3] (fun idx => match idx with
      | [y, x, k] => t.get? [y, x, f + k]
      | _ => none) (by
    intro idx hi
    obtain ⟨y, x, k, rfl, hy, hx, hk⟩ := exists_of_within3 hi
    obtain ⟨v, hv⟩ := get?_isSome ht (idx := [y, x, f + k]) (by rw [st]; exact within_iff3.mpr ⟨hy, hx, by omega⟩)
    exact ⟨v, hv⟩)
  refine ⟨u, u1, ⟨u2, ?_⟩, ?_⟩
  · show u.data.length = _
    rw [u3, u2]
    simp [Nat.mul_assoc]
  · intro y x k hy hx hk
    have := get_of_image u.data h w hy hx hk
    rw [← u2] at this
    exact this.symm.trans (u4 [y, x, k] (within_iff3.mpr ⟨hy, hx, hk⟩))

theorem splitRays_ok {t : Tensor K} {h w : Nat} (ht : t.WF) (st : t.shape = [h, w, 6]) :
    ∃ o d, splitRays t = some (o, d) ∧ Image (Shaped.ofTensor o) h w ∧ Image (Shaped.ofTensor d) h w ∧
      ∀ y x k, y < h → x < w → k < 3 → pixel (Shaped.ofTensor o) w y x k = t.get? [y, x, k] ∧
        pixel (Shaped.ofTensor d) w y x k = t.get? [y, x, 3 + k] := by
  obtain ⟨o, o1, o2, o3⟩ := part_ok ht st (f := 0) (by omega)
  obtain ⟨d, d1, d2, d3⟩ := part_ok ht st (f := 3) (by omega)
  refine ⟨o, d, ?_, o2, d2, ?_⟩
  · unfold splitRays
    rw [st]
    simp only [o1, d1, Option.bind_eq_bind, Option.bind_some, Option.pure_def]
  · intro y x k hy hx hk
    refine ⟨?_, d3 y x k hy hx hk⟩
    rw [o3 y x k hy hx hk, Nat.zero_add]

variable [Field K] [LinearOrder K] [IsStrictOrderedRing K] [FloorRing K] {m tile : Nat}

/-- The sizes can be padded to whole tiles by reflection. -/
def Fits (tile h w : Nat) : Prop :=
  0 < tile ∧ Tiling.numTiles h tile * tile - h < h ∧ Tiling.numTiles w tile * tile - w < w

/-- The coefficients of every tile of the rays are in the range of the codes. -/
def RaysInRange (c : Pca.Config K m (tile * tile * 6)) (t : Tensor K) (h w : Nat) : Prop :=
  ∀ ty tx, ty < Tiling.numTiles h tile → tx < Tiling.numTiles w tile →
    Pca.InRange c (Pca.tileOf t h w 6 tile (tile * tile * 6) ty tx)

/-- C164: encoding the rays of an object succeeds; the compressed component has the key, the shape `[h, w, 6]` and `m`
codes for each tile; decoding it gives two images of the size of the original ones under the same key, whose values
differ by at most the bound of the codec from what the components of the codec can express. -/
theorem decode_encode_partial (c : Pca.Config K m (tile * tile * 6)) (hc : c.tile = tile) (hm : 0 < m)
    (hq : ∀ i, 0 < c.quantization i) (key : Key) {o d : Shaped K} {h w : Nat} (ho : Image o h w) (hd : Image d h w)
    (hf : Fits tile h w) {t : Tensor K} (ht : sample o d = some t) (hr : RaysInRange c t h w) :
    ∃ z o' d', encode c ⟨key, some o, some d⟩ = some z ∧ z.key = key ∧ z.shape = [h, w, 6] ∧
      z.quantizedValues.length = Tiling.numTiles h tile * Tiling.numTiles w tile * m ∧ z.reference.length = 6 ∧
      decode c z = some ⟨key, some o', some d'⟩ ∧ Image o' h w ∧ Image d' h w ∧
      ∀ y x k, y < h → x < w → ∀ hk : k < 3, ∃ v u, pixel o' w y x k = some v ∧ pixel d' w y x k = some u ∧
        |v - (Pca.project c.pca (Pca.tileOf t h w 6 tile (tile * tile * 6) (y / tile) (x / tile))
          ⟨Pca.posInTile 6 tile y x k, Pca.posInTile_lt hf.1 (by omega)⟩ + Pca.channelMean t h w k)| ≤
          Pca.bound c ⟨Pca.posInTile 6 tile y x k, Pca.posInTile_lt hf.1 (by omega)⟩ ∧
        |u - (Pca.project c.pca (Pca.tileOf t h w 6 tile (tile * tile * 6) (y / tile) (x / tile))
          ⟨Pca.posInTile 6 tile y x (3 + k), Pca.posInTile_lt hf.1 (by omega)⟩ + Pca.channelMean t h w (3 + k))| ≤
          Pca.bound c ⟨Pca.posInTile 6 tile y x (3 + k), Pca.posInTile_lt hf.1 (by omega)⟩ := by
  obtain ⟨t', h1, h2, h3, -⟩ := sample_spec ho hd
  cases ht.symm.trans h1
  have L : Tiling.Legal t h w 6 tile := ⟨h2, h3, hf.1, hf.2.1, hf.2.2, by omega⟩
  obtain ⟨code, out, e1, e2, e3, e4, e5, e6, e7, e8⟩ := Pca.decode_encode c hc hq L hr
  obtain ⟨o', d', s1, s2, s3, s4⟩ := splitRays_ok e6 e7
  refine ⟨⟨key, code.reference, code.values.flatMap List.ofFn, code.shape⟩, Shaped.ofTensor o', Shaped.ofTensor d',
    ?_, rfl, e3, ?_, ?_, ?_, s2, s3, ?_⟩
  · obtain ⟨o1, -⟩ := tensor_of_image ho
    obtain ⟨d1, -⟩ := tensor_of_image hd
    rw [sample, o1, d1] at ht
    simp only [Option.bind_eq_bind, Option.bind_some] at ht
    simp only [encode, Option.bind_eq_bind, Option.bind_some, Option.pure_def, o1, d1, ht, e1]
  · show (code.values.flatMap List.ofFn).length = _
    rw [flatMap_ofFn_len, e4]
  · rw [e5]; simp
  · simp only [decode, regroup_flat hm, Option.bind_eq_bind, Option.bind_some, Option.pure_def]
    rw [show (⟨code.reference, code.values, code.shape⟩ : Pca.Code K m) = code from rfl, e2]
    simp only [Option.bind_some, s1]
  · intro y x k hy hx hk
    obtain ⟨v, v1, v2⟩ := e8 y x k hy hx (by omega)
    obtain ⟨u, u1, u2⟩ := e8 y x (3 + k) hy hx (by omega)
    obtain ⟨p1, p2⟩ := s4 y x k hy hx hk
    exact ⟨v, u, p1.trans v1, p2.trans u1, v2, u2⟩

/-- C164: with as many orthonormal components as values in a tile, origins and directions are those of the original
rays up to the bound of the codec: the channels, pixels, the order and the size are kept. -/
theorem decode_encode_orthonormal (c : Pca.Config K m (tile * tile * 6)) (hc : c.tile = tile) (hm : 0 < m)
    (hq : ∀ i, 0 < c.quantization i) (hstd : ∀ k, c.pca.std k ≠ 0)
    (hE : ∀ k j, ∑ i, c.pca.vectors i k * c.pca.vectors i j = if k = j then 1 else 0)
    (key : Key) {o d : Shaped K} {h w : Nat} (ho : Image o h w) (hd : Image d h w)
    (hf : Fits tile h w) {t : Tensor K} (ht : sample o d = some t) (hr : RaysInRange c t h w) :
    ∃ z o' d', encode c ⟨key, some o, some d⟩ = some z ∧ decode c z = some ⟨key, some o', some d'⟩ ∧
      Image o' h w ∧ Image d' h w ∧
      ∀ y x k, y < h → x < w → ∀ hk : k < 3, ∃ v a u b, pixel o' w y x k = some v ∧ pixel o w y x k = some a ∧
        pixel d' w y x k = some u ∧ pixel d w y x k = some b ∧
        |v - a| ≤ Pca.bound c ⟨Pca.posInTile 6 tile y x k, Pca.posInTile_lt hf.1 (by omega)⟩ ∧
        |u - b| ≤ Pca.bound c ⟨Pca.posInTile 6 tile y x (3 + k), Pca.posInTile_lt hf.1 (by omega)⟩ := by
  obtain ⟨t', h1, h2, h3, h4⟩ := sample_spec ho hd
  cases ht.symm.trans h1
  have L : Tiling.Legal t h w 6 tile := ⟨h2, h3, hf.1, hf.2.1, hf.2.2, by omega⟩
  obtain ⟨code, out, e1, e2, e3, e4⟩ := Pca.decode_encode_orthonormal c hc hq hstd hE L hr
  obtain ⟨code', out', f1, f2, -, -, -, f6, f7, -⟩ := Pca.decode_encode c hc hq L hr
  cases e1.symm.trans f1
  cases e2.symm.trans f2
  obtain ⟨o', d', s1, s2, s3, s4⟩ := splitRays_ok f6 f7
  refine ⟨⟨key, code.reference, code.values.flatMap List.ofFn, code.shape⟩, Shaped.ofTensor o', Shaped.ofTensor d',
    ?_, ?_, s2, s3, ?_⟩
  · obtain ⟨o1, -⟩ := tensor_of_image ho
    obtain ⟨d1, -⟩ := tensor_of_image hd
    rw [sample, o1, d1] at ht
    simp only [Option.bind_eq_bind, Option.bind_some] at ht
    simp only [encode, Option.bind_eq_bind, Option.bind_some, Option.pure_def, o1, d1, ht, e1]
  · simp only [decode, regroup_flat hm, Option.bind_eq_bind, Option.bind_some, Option.pure_def]
    rw [show (⟨code.reference, code.values, code.shape⟩ : Pca.Code K m) = code from rfl, e2]
    simp only [Option.bind_some, s1]
  · intro y x k hy hx hk
    obtain ⟨v, a, v1, a1, v2⟩ := e4 y x k hy hx (by omega)
    obtain ⟨u, b, u1, b1, u2⟩ := e4 y x (3 + k) hy hx (by omega)
    obtain ⟨p1, p2⟩ := s4 y x k hy hx hk
    obtain ⟨q1, q2⟩ := h4 y x k hy hx hk
    exact ⟨v, a, u, b, p1.trans v1, q1.symm.trans a1, p2.trans u1, q2.symm.trans b1, v2, u2⟩

/-- C165: a component without an origin or a direction, with a ragged image or with two images of different sizes is
refused. -/
theorem encode_refuses (c : Pca.Config K m (tile * tile * 6)) (src : Rays Key K) :
    (src.rayOrigin = none ∨ src.rayDirection = none → encode c src = none) ∧
    ∀ o d, src.rayOrigin = some o → src.rayDirection = some d →
      (o.values.length ≠ o.shape.prod ∨ d.values.length ≠ d.shape.prod ∨
        (∀ h w a b, ¬ (o.shape = [h, w, a] ∧ d.shape = [h, w, b])) → encode c src = none) := by
  constructor
  · rintro (h | h)
    · simp [encode, h]
    · unfold encode; rw [h]; cases src.rayOrigin <;> simp
  · intro o d ho hd H
    unfold encode
    rw [ho, hd]
    simp only [Option.bind_eq_bind, Option.bind_some]
    unfold Shaped.tensor
    by_cases h1 : o.values.length = o.shape.prod
    · by_cases h2 : d.values.length = d.shape.prod
      · rcases H with H | H | H
        · exact absurd h1 H
        · exact absurd h2 H
        · rw [if_pos h1, if_pos h2]
          simp only [Option.bind_some]
          have : concatLast (⟨o.shape, o.values⟩ : Tensor K) ⟨d.shape, d.values⟩ = none := by
            unfold concatLast
            simp only
            split
            · rename_i h w a h' w' b e1 e2
              rw [if_neg]
              rintro ⟨rfl, rfl⟩
              exact H h w a b ⟨e1, e2⟩
            · rfl
          rw [this]; rfl
      · rw [if_neg h2]; cases (if o.values.length = o.shape.prod then some (⟨o.shape, o.values⟩ : Tensor K) else none) <;> simp
    · rw [if_neg h1]; simp

/-- C165: rays of a patch that is so small that the tiles reach beyond twice its height or width are refused, whatever
their values. -/
theorem encode_small (c : Pca.Config K m (tile * tile * 6)) (hc : c.tile = tile) (key : Key) {o d : Shaped K} {h w : Nat}
    (ho : Image o h w) (hd : Image d h w) (hs : ¬ Fits tile h w) : encode c ⟨key, some o, some d⟩ = none := by
  obtain ⟨t, h1, h2, h3, -⟩ := sample_spec ho hd
  obtain ⟨o1, -⟩ := tensor_of_image ho
  obtain ⟨d1, -⟩ := tensor_of_image hd
  rw [sample, o1, d1] at h1
  simp only [Option.bind_eq_bind, Option.bind_some] at h1
  have hx : Pca.codecExtract t tile = none := by
    unfold Pca.codecExtract
    rw [h3]
    simp only [Option.bind_eq_bind, Option.pure_def]
    rw [Option.bind_eq_none_iff]
    intro off hoff
    have hshape := (ofFn?_some hoff).1
    have : Tiling.extractTiles off tile = none := by
      unfold Tiling.extractTiles
      rw [hshape]
      by_cases ht : tile = 0
      · simp [ht]
      · simp only [ht, if_false]
        have : Tiling.padReflect off h w 6 (Tiling.padded h tile) (Tiling.padded w tile) = none := by
          unfold Tiling.padReflect
          rw [if_neg]
          rintro ⟨a, b, -⟩
          exact hs ⟨by omega, a, b⟩
        rw [this]; rfl
    rw [this]; rfl
  simp only [encode, Option.bind_eq_bind, Option.bind_some, Option.pure_def, o1, d1, h1, Pca.encode, hc, hx, Option.bind_none]

/-- **C165.**  Not every component can be encoded: with tiles of 8 by 8 pixels the rays of a patch of 12 by 4 pixels are
refused, for every codec with such tiles. -/
theorem small_patch_violated (c : Pca.Config ℚ m (8 * 8 * 6)) (hc : c.tile = 8) :
    encode c ⟨(), some ⟨List.replicate 144 0, [12, 4, 3]⟩, some ⟨List.replicate 144 1, [12, 4, 3]⟩⟩ = none := by
  apply encode_small c hc () (h := 12) (w := 4) ⟨rfl, by simp⟩ ⟨rfl, by simp⟩
  rintro ⟨-, -, h⟩
  revert h
  decide

/-- A codec for tiles of one pixel that keeps the six values, with steps of 1/4. -/
def plain : Pca.Config ℚ 6 (1 * 1 * 6) :=
  ⟨⟨fun _ => 0, fun _ => 1, fun i k => if i.val = k.val then 1 else 0⟩, fun _ => 1 / 4, 1⟩

/-- Rays of two pixels. -/
def origins : Shaped ℚ := ⟨[1, 2, 3, 1, 5 / 2, 3], [1, 2, 3]⟩
/-- See `origins`. -/
def directions : Shaped ℚ := ⟨[0, 1, 0, 0, 0, 1], [1, 2, 3]⟩

/-- The hypotheses of `decode_encode_orthonormal` are met. -/
example : Image origins 1 2 ∧ Image directions 1 2 ∧ Fits 1 1 2 ∧ (∀ i, 0 < plain.quantization i) ∧
    (∀ k j, ∑ i, plain.pca.vectors i k * plain.pca.vectors i j = if k = j then 1 else 0) ∧
    ∃ t, sample origins directions = some t ∧ RaysInRange (tile := 1) plain t 1 2 := by
  refine ⟨⟨rfl, rfl⟩, ⟨rfl, rfl⟩, by unfold Fits; decide, by decide +kernel, by decide +kernel,
    ⟨[1, 2, 6], [1, 2, 3, 0, 1, 0, 1, 5 / 2, 3, 0, 0, 1]⟩, by decide +kernel, ?_⟩
  intro ty tx h1 h2
  have h1' : ty < 1 := h1
  have h2' : tx < 2 := h2
  unfold Pca.InRange
  interval_cases ty
  interval_cases tx <;> decide +kernel

example : ((encode plain ⟨7, some origins, some directions⟩).map fun z => (z.key, z.reference, z.quantizedValues, z.shape)) =
    some (7, [1, 9 / 4, 3, 0, 1 / 2, 1 / 2], [0, -1, 0, 0, 2, -2, 0, 1, 0, 0, -2, 2], [1, 2, 6]) := by decide +kernel

example : ((encode plain ⟨7, some origins, some directions⟩).bind (decode plain)).map
    (fun r => (r.key, r.rayOrigin, r.rayDirection)) = some (7, some origins, some directions) := by decide +kernel

end Verif.Assets
