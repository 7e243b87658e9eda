import Verif.Model.Clouds
import Verif.Lemmas.ListM
import Mathlib.Tactic.Linarith
import Mathlib.Tactic.FieldSimp
import Mathlib.Tactic.Ring
import Mathlib.Tactic.NormNum
import Mathlib.Tactic.FinCases

/-!
C149: the points of a range image.
-/

namespace Verif.Clouds

open Verif.Boxes (V3 M4)

/-! ## Specification -/

/-- The element of an image at a row, column and channel. -/
def Holds {α : Type} (m : Raw α) (h w c : ℕ) (row col ch : ℕ) (v : α) : Prop :=
  m.dims = [h, w, c] ∧ m.data.length = h * w * c ∧ row < h ∧ col < w ∧ ch < c ∧ m.data[(row * w + col) * c + ch]? = some v

/-- A pixel that has a point: its range is positive. -/
def Pixel (m : Raw ℝ) (p : ℕ × ℕ) : Prop := ∃ h w c v, Holds m h w c p.1 p.2 0 v ∧ 0 < v

/-- The pixels that have a point, each once, by rows and then by columns. -/
def PixelsInOrder (m : Raw ℝ) (pix : List (ℕ × ℕ)) : Prop :=
  (∀ p, p ∈ pix ↔ Pixel m p) ∧ pix.Pairwise fun p q => p.1 < q.1 ∨ (p.1 = q.1 ∧ p.2 < q.2)

/-- What a pose does to a point. -/
def move (m : M4) (p : V3) : V3 :=
  ![m 0 0 * p 0 + m 0 1 * p 1 + m 0 2 * p 2 + m 0 3, m 1 0 * p 0 + m 1 1 * p 1 + m 1 2 * p 2 + m 1 3,
    m 2 0 * p 0 + m 2 1 * p 1 + m 2 2 * p 2 + m 2 3]

/-- A 4x4 matrix from sixteen numbers, row by row. -/
def IsMatrix (t : List ℝ) (m : M4) : Prop := t.length = 16 ∧ ∀ i j : Fin 4, t[4 * i.val + j.val]? = some (m i j)

/-- The point at a distance in a direction. -/
noncomputable def beam (azimuth inclination range : ℝ) : V3 :=
  ![range * Real.cos azimuth * Real.cos inclination, range * Real.sin azimuth * Real.cos inclination, range * Real.sin inclination]

/-- The azimuth of a column: the middle of the image looks along the x axis of the vehicle, columns go clockwise. -/
noncomputable def columnAzimuth (extrinsic : M4) (w col : ℕ) : ℝ :=
  (1 - (2 * (col : ℝ) + 1) / w) * Real.pi - Complex.arg ⟨extrinsic 0 0, extrinsic 1 0⟩

/-- The inclination of a row: row zero is the highest beam; without a list the beams are spread evenly. -/
noncomputable def RowInclination (beams : List ℝ) (lo hi : ℝ) (h row : ℕ) (i : ℝ) : Prop :=
  if beams = [] then i = lo + ((h : ℝ) - row - 1 / 2) / h * (hi - lo)
  else beams.length = h ∧ beams[h - 1 - row]? = some i

/-- The matrix of roll, pitch, yaw and a translation. -/
noncomputable def euler (r p y a b c : ℝ) : M4 :=
  !![Real.cos y * Real.cos p, Real.cos y * Real.sin p * Real.sin r - Real.sin y * Real.cos r,
      Real.cos y * Real.sin p * Real.cos r + Real.sin y * Real.sin r, a;
    Real.sin y * Real.cos p, Real.sin y * Real.sin p * Real.sin r + Real.cos y * Real.cos r,
      Real.sin y * Real.sin p * Real.cos r - Real.cos y * Real.sin r, b;
    -Real.sin p, Real.cos p * Real.sin r, Real.cos p * Real.cos r, c;
    0, 0, 0, 1]

/-- The pose of a pixel. -/
def HasPose (m : Raw ℝ) (p : ℕ × ℕ) (pose : M4) : Prop :=
  ∃ h w r pi y a b c, Holds m h w 6 p.1 p.2 0 r ∧ Holds m h w 6 p.1 p.2 1 pi ∧ Holds m h w 6 p.1 p.2 2 y ∧
    Holds m h w 6 p.1 p.2 3 a ∧ Holds m h w 6 p.1 p.2 4 b ∧ Holds m h w 6 p.1 p.2 5 c ∧ pose = euler r pi y a b c

/-- The point of a pixel in the frame of the vehicle, if all pixels are taken at one time. -/
def IsPoint (m : Raw ℝ) (beams : List ℝ) (lo hi : ℝ) (extrinsic : M4) (p : ℕ × ℕ) (q : V3) : Prop :=
  ∃ h w c v i, Holds m h w c p.1 p.2 0 v ∧ RowInclination beams lo hi h p.1 i ∧
    q = move extrinsic (beam (columnAzimuth extrinsic w p.2) i v)

/-- The point of a pixel, if each has a pose: that in the frame of the vehicle, whose pose is invertible, is the same
place as that in the frame of the pixel. -/
def IsPosedPoint (m : Raw ℝ) (beams : List ℝ) (lo hi : ℝ) (extrinsic : M4) (poses : Raw ℝ) (frame : M4) (p : ℕ × ℕ) (q : V3) :
    Prop :=
  ∃ q0 pose, IsPoint m beams lo hi extrinsic p q0 ∧ HasPose poses p pose ∧ move frame q = move pose q0

/-- A pose: the last row of its matrix is that of an affine map. -/
def Affine (m : M4) : Prop := m 3 0 = 0 ∧ m 3 1 = 0 ∧ m 3 2 = 0 ∧ m 3 3 = 1

/-! ## Lemmas about images -/

theorem reshape_some {α : Type} {m : Raw α} {x : Image α} (h : reshape m = some x) :
    m.dims = [x.h, x.w, x.c] ∧ m.data.length = x.h * x.w * x.c ∧ x.data = m.data := by
  unfold reshape at h
  split at h
  · split at h
    · cases h; simp_all
    · simp at h
  · simp at h

theorem offset_lt {h w c row col ch : ℕ} (hr : row < h) (hc : col < w) (hk : ch < c) : (row * w + col) * c + ch < h * w * c := by
  have h1 : row * w + col + 1 ≤ h * w := by
    calc row * w + col + 1 ≤ row * w + w := by omega
      _ = (row + 1) * w := by ring
      _ ≤ h * w := Nat.mul_le_mul_right _ hr
  calc (row * w + col) * c + ch < (row * w + col) * c + c := by omega
    _ = (row * w + col + 1) * c := by ring
    _ ≤ h * w * c := Nat.mul_le_mul_right _ h1

theorem holds_at {α : Type} [Inhabited α] {m : Raw α} {x : Image α} (h : reshape m = some x) {row col ch : ℕ} (hr : row < x.h)
    (hc : col < x.w) (hk : ch < x.c) : Holds m x.h x.w x.c row col ch (x.at row col ch) := by
  obtain ⟨h1, h2, h3⟩ := reshape_some h
  refine ⟨h1, h2, hr, hc, hk, ?_⟩
  have hlt := offset_lt hr hc hk
  rw [← h2] at hlt
  rw [Image.at, h3, List.getD_eq_getElem?_getD, List.getElem?_eq_getElem hlt]
  rfl

theorem holds_unique {α : Type} [Inhabited α] {m : Raw α} {x : Image α} (h : reshape m = some x) {h' w c row col ch : ℕ} {v : α}
    (hv : Holds m h' w c row col ch v) : h' = x.h ∧ w = x.w ∧ c = x.c ∧ row < x.h ∧ col < x.w ∧ ch < x.c ∧ v = x.at row col ch := by
  obtain ⟨h1, h2, h3⟩ := reshape_some h
  obtain ⟨a, b, c1, c2, c3, d⟩ := hv
  rw [h1] at a
  simp only [List.cons.injEq, and_true] at a
  obtain ⟨rfl, rfl, rfl⟩ := a
  refine ⟨rfl, rfl, rfl, c1, c2, c3, ?_⟩
  rw [Image.at, h3, List.getD_eq_getElem?_getD, d]; rfl

theorem pixels_hits {m : Raw ℝ} {x : Image ℝ} (h : reshape m = some x) (hc : x.c ≠ 0) : PixelsInOrder m (hits x) := by
  constructor
  · rintro ⟨r, c⟩
    simp only [hits, List.mem_filter, List.mem_flatMap, List.mem_map, List.mem_range, Prod.mk.injEq, decide_eq_true_eq]
    constructor
    · rintro ⟨⟨r', hr, c', hc', rfl, rfl⟩, hv⟩
      exact ⟨_, _, _, _, holds_at h hr hc' (Nat.pos_of_ne_zero hc), hv⟩
    · rintro ⟨_, _, _, v, hv, hpos⟩
      obtain ⟨_, _, _, hr, hc', _, rfl⟩ := holds_unique h hv
      exact ⟨⟨r, hr, c, hc', rfl, rfl⟩, hpos⟩
  · apply List.Pairwise.filter
    rw [List.pairwise_flatMap]
    constructor
    · intro r _
      rw [List.pairwise_map]
      exact List.pairwise_lt_range.imp fun h => Or.inr ⟨rfl, h⟩
    · refine List.pairwise_lt_range.imp fun h => ?_
      rintro p hp q hq
      simp only [List.mem_map, List.mem_range] at hp hq
      obtain ⟨_, _, rfl⟩ := hp
      obtain ⟨_, _, rfl⟩ := hq
      exact Or.inl h

theorem mem_hits_lt {x : Image ℝ} {p : ℕ × ℕ} (h : p ∈ hits x) : p.1 < x.h ∧ p.2 < x.w := by
  simp only [hits, List.mem_filter, List.mem_flatMap, List.mem_map, List.mem_range] at h
  obtain ⟨⟨r, hr, c, hc, rfl⟩, _⟩ := h
  exact ⟨hr, hc⟩

/-- There is one list of pixels in order. -/
theorem pixels_unique {m : Raw ℝ} {a b : List (ℕ × ℕ)} (ha : PixelsInOrder m a) (hb : PixelsInOrder m b) : a = b := by
  have irr : ∀ p q : ℕ × ℕ, (p.1 < q.1 ∨ (p.1 = q.1 ∧ p.2 < q.2)) → (q.1 < p.1 ∨ (q.1 = p.1 ∧ q.2 < p.2)) → False := by
    intro p q; omega
  apply List.Perm.eq_of_pairwise (le := fun p q : ℕ × ℕ => p.1 < q.1 ∨ (p.1 = q.1 ∧ p.2 < q.2))
  · intro p q _ _ h1 h2; exact absurd h2 (fun h2 => irr p q h1 h2)
  · exact ha.2
  · exact hb.2
  · rw [List.perm_ext_iff_of_nodup]
    · intro p; rw [ha.1, hb.1]
    · exact ha.2.imp fun {p q} h => by rintro rfl; exact irr p p h h
    · exact hb.2.imp fun {p q} h => by rintro rfl; exact irr p p h h

/-! ## Lemmas about points -/

theorem apply_eq_move (m : M4) (p : V3) : Boxes.apply m p = move m p := by
  funext i
  fin_cases i <;>
    simp [Boxes.apply, Boxes.rotationPart, Boxes.translationPart, Matrix.mulVec, dotProduct, Fin.sum_univ_three, move] <;> rfl

theorem azimuth_eq (e : M4) {w col : ℕ} (hw : 0 < w) : RangeImage.azimuth e w col = columnAzimuth e w col := by
  have : (w : ℝ) ≠ 0 := by exact_mod_cast hw.ne'
  unfold RangeImage.azimuth columnAzimuth RangeImage.azCorrection RangeImage.atan2
  congr 2
  field_simp; ring

theorem sensorPoint_eq (a i r : ℝ) : RangeImage.sensorPoint (a, i, r) = beam a i r := by
  unfold RangeImage.sensorPoint beam
  congr 1
  · ring
  · congr 1
    · ring
    · congr 1; ring

theorem matrix_some {t : List ℝ} {m : M4} (h : matrix t = some m) : IsMatrix t m := by
  unfold matrix at h
  split at h
  · rename_i hl
    cases h
    refine ⟨hl, fun i j => ?_⟩
    have : 4 * i.val + j.val < t.length := by omega
    show _ = some (t.getD (4 * i.val + j.val) 0)
    rw [List.getD_eq_getElem?_getD, List.getElem?_eq_getElem this]; rfl
  · simp at h

theorem poseAt_eq (p : Image ℝ) (r c : ℕ) :
    poseAt p r c = euler (p.at r c 0) (p.at r c 1) (p.at r c 2) (p.at r c 3) (p.at r c 4) (p.at r c 5) := by
  unfold poseAt euler Boxes.transform Boxes.rotationMatrix Boxes.yawRotation Boxes.pitchRotation Boxes.rollRotation
  ext i j
  fin_cases i <;> fin_cases j <;>
    simp [Matrix.mul_apply, Fin.sum_univ_three, Matrix.vecMul, dotProduct] <;> ring

theorem hasPose {p : Raw ℝ} {x : Image ℝ} (h : poses p = some x) {r c : ℕ} (hr : r < x.h) (hc : c < x.w) :
    HasPose p (r, c) (poseAt x r c) := by
  unfold poses at h
  cases hx : reshape p with
  | none => simp [hx] at h
  | some y =>
    simp only [hx, Option.bind_eq_bind, Option.bind_some] at h
    split at h
    · rename_i h6
      cases h
      have e := fun k (hk : k < 6) => holds_at hx hr hc (ch := k) (by omega)
      simp only [h6] at e
      exact ⟨x.h, x.w, _, _, _, _, _, _, e 0 (by omega), e 1 (by omega), e 2 (by omega), e 3 (by omega), e 4 (by omega),
        e 5 (by omega), poseAt_eq x r c⟩
    · simp at h

theorem inclination_spec {beams : List ℝ} {lo hi : ℝ} {h row : ℕ} (hrow : row < h)
    (hl : (rowInclinations beams lo hi h).length = h) :
    ∃ i, (rowInclinations beams lo hi h)[row]? = some i ∧ RowInclination beams lo hi h row i := by
  unfold rowInclinations RowInclination at *
  split
  · rename_i hb
    rw [if_pos hb] at hl
    have hh : (h : ℝ) ≠ 0 := by exact_mod_cast (by omega : h ≠ 0)
    refine ⟨lo + ((h : ℝ) - row - 1 / 2) / h * (hi - lo), ?_, rfl⟩
    rw [List.getElem?_reverse (by simpa [RangeImage.inclinations] using hrow)]
    simp only [RangeImage.inclinations, List.length_map, List.length_range, List.getElem?_map]
    rw [List.getElem?_range (by omega)]
    simp only [Option.map_some, Option.some.injEq]
    have e : ((h - 1 - row : ℕ) : ℝ) = (h : ℝ) - 1 - row := by
      rw [Nat.cast_sub (by omega), Nat.cast_sub (by omega)]; simp
    rw [e]; field_simp; ring
  · rename_i hb
    rw [if_neg hb, List.length_reverse] at hl
    have : row < beams.length := by omega
    refine ⟨beams[beams.length - 1 - row], ?_, hl, ?_⟩
    · rw [List.getElem?_reverse this, List.getElem?_eq_getElem]
    · subst hl; rw [List.getElem?_eq_getElem]

/-- Rows and columns of a grid that is built element by element. -/
theorem grid_get {α : Type} {h w : ℕ} {f : ℕ → ℕ → Option α} {l : List (List α)}
    (hm : ((List.range h).mapM fun r => (List.range w).mapM fun c => f r c) = some l) {r c : ℕ} (hr : r < h) (hc : c < w) :
    ∃ a, f r c = some a ∧ ((l[r]?).bind fun row => row[c]?) = some a := by
  have h1 := List.forall₂_iff_get.1 (ListM.mapM_forall₂ hm)
  obtain ⟨hl, h2⟩ := h1
  simp only [List.length_range] at hl h2
  have hr' : r < l.length := by omega
  have h3 := h2 r hr hr'
  simp only [List.get_eq_getElem, List.getElem_range] at h3
  obtain ⟨hl', h4⟩ := List.forall₂_iff_get.1 (ListM.mapM_forall₂ h3)
  simp only [List.length_range] at hl' h4
  have hc' : c < l[r].length := by omega
  have h5 := h4 c hc hc'
  simp only [List.get_eq_getElem, List.getElem_range] at h5
  refine ⟨l[r][c], h5, ?_⟩
  rw [List.getElem?_eq_getElem hr', Option.bind_some, List.getElem?_eq_getElem hc']

theorem move_inv {f : M4} (hd : f.det ≠ 0) (hf : Affine f) (q : V3) : move f (move f⁻¹ q) = q := by
  have e : f * f⁻¹ = 1 := Matrix.mul_nonsing_inv f (Ne.isUnit hd)
  have last : f⁻¹ 3 0 = 0 ∧ f⁻¹ 3 1 = 0 ∧ f⁻¹ 3 2 = 0 ∧ f⁻¹ 3 3 = 1 := by
    have h3 : ∀ j, f⁻¹ 3 j = (1 : M4) 3 j := by
      intro j
      rw [← e, Matrix.mul_apply, Fin.sum_univ_four, hf.1, hf.2.1, hf.2.2.1, hf.2.2.2]; ring
    refine ⟨?_, ?_, ?_, ?_⟩ <;> rw [h3] <;> simp
  have g : ∀ i j, f i 0 * f⁻¹ 0 j + f i 1 * f⁻¹ 1 j + f i 2 * f⁻¹ 2 j + f i 3 * f⁻¹ 3 j = (1 : M4) i j := by
    intro i j; rw [← e, Matrix.mul_apply, Fin.sum_univ_four]
  obtain ⟨l0, l1, l2, l3⟩ := last
  funext i
  fin_cases i
  · have a := g 0 0; have b := g 0 1; have c := g 0 2; have d := g 0 3
    simp [l0, l1, l2, l3] at a b c d
    simp [move]; linear_combination q 0 * a + q 1 * b + q 2 * c + d
  · have a := g 1 0; have b := g 1 1; have c := g 1 2; have d := g 1 3
    simp [l0, l1, l2, l3] at a b c d
    simp [move]; linear_combination q 0 * a + q 1 * b + q 2 * c + d
  · have a := g 2 0; have b := g 2 1; have c := g 2 2; have d := g 2 3
    simp [l0, l1, l2, l3] at a b c d
    simp [move]; linear_combination q 0 * a + q 1 * b + q 2 * c + d

/-! ## The points of an image -/

/-- The row of a point: the first three features of the pixel, if kept, and the coordinates. -/
def IsRow (keep : Bool) (m : Raw ℝ) (p : ℕ × ℕ) (q : V3) (row : List ℝ) : Prop :=
  ∃ features, row = features ++ [q 0, q 1, q 2] ∧
    (keep = false → features = []) ∧
    (keep = true → ∃ h w c, m.dims = [h, w, c] ∧ features.length = min 3 c ∧ ∀ k v, features[k]? = some v → Holds m h w c p.1 p.2 k v)

/-- The points of an image: one row for each pixel whose range is positive, in order. -/
def IsCloud (keep : Bool) (m : Raw ℝ) (point : ℕ × ℕ → V3 → Prop) (rows : List (List ℝ)) : Prop :=
  ∃ pix, PixelsInOrder m pix ∧ List.Forall₂ (fun p row => ∃ q, point p q ∧ IsRow keep m p q row) pix rows

/-- The projections that belong to the points: all channels of the same pixels. -/
def IsProjections (m : Raw ℝ) (cp : Raw ℤ) (rows : List (List ℤ)) : Prop :=
  ∃ pix, PixelsInOrder m pix ∧ List.Forall₂ (fun p row => ∃ h w, cp.dims = [h, w, row.length] ∧ ∀ k v, row[k]? = some v → Holds cp h w row.length p.1 p.2 k v) pix rows

theorem cartesian_shape {x : Image ℝ} {e : M4} {incl : List ℝ} {p : Option (Image ℝ)} {f : Option M4} {pts : List (List V3)}
    (h : cartesian x e incl p f = some pts) : x.c ≠ 0 ∧ incl.length = x.h := by
  unfold cartesian at h
  split at h
  · simp at h
  · rename_i hn; push Not at hn; exact hn

theorem cartesian_point {m : Raw ℝ} {x : Image ℝ} {e : M4} {beams : List ℝ} {lo hi : ℝ} {pts : List (List V3)}
    (hx : reshape m = some x) (h : cartesian x e (rowInclinations beams lo hi x.h) none none = some pts) {p : ℕ × ℕ} (hr : p.1 < x.h)
    (hc : p.2 < x.w) : ∃ q, ((pts[p.1]?).bind fun row => row[p.2]?) = some q ∧ IsPoint m beams lo hi e p q := by
  obtain ⟨h0, hl⟩ := cartesian_shape h
  unfold cartesian at h
  rw [if_neg (by tauto)] at h
  obtain ⟨q, hq, hp⟩ := grid_get h hr hc
  refine ⟨q, hp, ?_⟩
  obtain ⟨i, hi1, hi2⟩ := inclination_spec hr hl
  refine ⟨_, _, _, _, i, holds_at hx hr hc (Nat.pos_of_ne_zero h0), hi2, ?_⟩
  simp only [RangeImage.extract, RangeImage.polar, RangeImage.cartesian, hi1, Option.bind_eq_bind, Option.bind_some,
    Option.pure_def, Option.some.injEq] at hq
  rw [← hq, apply_eq_move, sensorPoint_eq, azimuth_eq _ (by omega)]

theorem cartesian_posed {m pm : Raw ℝ} {x pi : Image ℝ} {e f : M4} {beams : List ℝ} {lo hi : ℝ} {pts : List (List V3)}
    (hx : reshape m = some x) (hp : poses pm = some pi) (hf : Affine f)
    (h : cartesian x e (rowInclinations beams lo hi x.h) (some pi) (some f) = some pts) {p : ℕ × ℕ} (hr : p.1 < x.h)
    (hc : p.2 < x.w) : ∃ q, ((pts[p.1]?).bind fun row => row[p.2]?) = some q ∧ IsPosedPoint m beams lo hi e pm f p q := by
  obtain ⟨h0, hl⟩ := cartesian_shape h
  unfold cartesian at h
  rw [if_neg (by tauto)] at h
  simp only at h
  split at h
  · simp at h
  rename_i hs
  push Not at hs
  cases hi' : Boxes.inv f with
  | none => simp [hi'] at h
  | some g =>
    simp only [hi', Option.bind_eq_bind, Option.bind_some] at h
    obtain ⟨q, hq, hp'⟩ := grid_get h hr hc
    refine ⟨q, hp', ?_⟩
    obtain ⟨i, hi1, hi2⟩ := inclination_spec hr hl
    refine ⟨_, _, ⟨_, _, _, _, i, holds_at hx hr hc (Nat.pos_of_ne_zero h0), hi2, rfl⟩, hasPose hp (by omega) (by omega), ?_⟩
    have hg : f.det ≠ 0 ∧ g = f⁻¹ := by
      unfold Boxes.inv at hi'; split at hi'
      · simp at hi'
      · rename_i hd; cases hi'; exact ⟨hd, rfl⟩
    simp only [RangeImage.extract, RangeImage.polar, RangeImage.cartesian, hi1, hi', Option.bind_eq_bind, Option.bind_some,
      Option.pure_def, Option.some.injEq] at hq
    rw [← hq, apply_eq_move, apply_eq_move, apply_eq_move, hg.2, move_inv hg.1 hf, sensorPoint_eq, azimuth_eq _ (by omega)]

theorem gather_rows {m : Raw ℝ} {x : Image ℝ} {keep : Bool} {pts : List (List V3)} {rows : List (List ℝ)} {point : ℕ × ℕ → V3 → Prop}
    (hx : reshape m = some x) (h0 : x.c ≠ 0)
    (hpt : ∀ p : ℕ × ℕ, p.1 < x.h → p.2 < x.w → ∃ q, ((pts[p.1]?).bind fun row => row[p.2]?) = some q ∧ point p q)
    (h : gather (withPolar keep x pts) (hits x) = some rows) : IsCloud keep m point rows := by
  refine ⟨hits x, pixels_hits hx h0, ?_⟩
  refine ListM.forall₂_imp_mem (ListM.mapM_forall₂ h) ?_
  rintro ⟨r, c⟩ hp row _ hrow
  obtain ⟨hr, hc⟩ := mem_hits_lt hp
  obtain ⟨q, hq, hqp⟩ := hpt (r, c) hr hc
  refine ⟨q, hqp, ?_⟩
  simp only [withPolar, List.getElem?_map, List.getElem?_range hr, Option.map_some, Option.bind_some, List.getElem?_range hc, hq,
    Option.getD_some, Option.some.injEq] at hrow
  refine ⟨_, hrow.symm, fun h => by simp [h], fun hk => ⟨x.h, x.w, x.c, (reshape_some hx).1, ?_, ?_⟩⟩
  · simp [hk, Image.cell]
  · intro k v hv
    simp only [hk, if_true, List.getElem?_take, Image.cell, List.getElem?_map] at hv
    split at hv
    · by_cases hkc : k < x.c
      · rw [List.getElem?_range hkc] at hv
        simp only [Option.map_some, Option.some.injEq] at hv
        rw [← hv]; exact holds_at hx hr hc hkc
      · rw [List.getElem?_eq_none (by simpa using hkc)] at hv; simp at hv
    · simp at hv

theorem gather_projections {m : Raw ℝ} {x : Image ℝ} {cp : Raw ℤ} {y : Image ℤ} {rows : List (List ℤ)} (hx : reshape m = some x)
    (h0 : x.c ≠ 0) (hy : reshape cp = some y) (h : gatherImage y (hits x) = some rows) : IsProjections m cp rows := by
  refine ⟨hits x, pixels_hits hx h0, (ListM.mapM_forall₂ h).imp ?_⟩
  rintro ⟨r, c⟩ row hrow
  split at hrow
  · rename_i hrc
    simp only [Option.some.injEq] at hrow
    have hl : row.length = y.c := by rw [← hrow]; simp [Image.cell]
    refine ⟨y.h, y.w, ?_, fun k v hv => ?_⟩
    · rw [hl]; exact (reshape_some hy).1
    rw [hl]
    have hk : k < y.c := by rw [← hl]; exact (List.getElem?_eq_some_iff.1 hv).1
    rw [← hrow, Image.cell, List.getElem?_map, List.getElem?_range hk] at hv
    simp only [Option.map_some, Option.some.injEq] at hv
    rw [← hv]; exact holds_at hy hrc.1 hrc.2 hk
  · simp at hrow

end Verif.Clouds
