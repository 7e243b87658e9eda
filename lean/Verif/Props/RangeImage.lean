import Verif.Props.RangePack
import Verif.Props.Boxes
import Verif.Props.Pca
import Verif.Lemmas.ListM
import Mathlib.Analysis.SpecialFunctions.Complex.Arg

/-! C42, C44, C75: from the pixels of a range image to points and back, and camera depth images. -/

namespace Verif.RangeImage

open Verif.Boxes

/-! ### Angles -/

/-- The argument of a point given by polar coordinates, up to full turns. -/
theorem atan2_polar {k : ℝ} (hk : 0 < k) (θ : ℝ) : ∃ n : ℤ, atan2 (Real.sin θ * k) (Real.cos θ * k) = θ + n * (2 * Real.pi) := by
  have h : (⟨Real.cos θ * k, Real.sin θ * k⟩ : ℂ) = k * (Complex.cos θ + Complex.sin θ * Complex.I) := by
    apply Complex.ext <;> simp [Complex.cos_ofReal_re, Complex.sin_ofReal_re, Complex.cos_ofReal_im, Complex.sin_ofReal_im] <;> ring
  refine ⟨-toIocDiv Real.two_pi_pos (-Real.pi) θ, ?_⟩
  unfold atan2
  rw [h, Complex.arg_mul_cos_add_sin_mul_I_eq_toIocMod hk, toIocMod]
  simp only [zsmul_eq_mul]
  push_cast
  ring

theorem atan2_range (y x : ℝ) : -Real.pi < atan2 y x ∧ atan2 y x ≤ Real.pi := Complex.arg_mem_Ioc _

theorem atan2_exact {k : ℝ} (hk : 0 < k) {θ : ℝ} (h1 : -Real.pi < θ) (h2 : θ ≤ Real.pi) :
    atan2 (Real.sin θ * k) (Real.cos θ * k) = θ := by
  have h : (⟨Real.cos θ * k, Real.sin θ * k⟩ : ℂ) = k * (Complex.cos θ + Complex.sin θ * Complex.I) := by
    apply Complex.ext <;> simp [Complex.cos_ofReal_re, Complex.sin_ofReal_re, Complex.cos_ofReal_im, Complex.sin_ofReal_im] <;> ring
  unfold atan2
  rw [h, Complex.arg_mul_cos_add_sin_mul_I hk ⟨h1, h2⟩]

/-- The sum of two angles comes back between -π and π, both included. -/
theorem wrap_spec {a : ℝ} (h1 : -(2 * Real.pi) < a) (h2 : a ≤ 2 * Real.pi) :
    -Real.pi ≤ wrap a ∧ wrap a ≤ Real.pi ∧ ∃ k : ℤ, wrap a = a + k * (2 * Real.pi) := by
  have hp := Real.pi_pos
  unfold wrap
  dsimp only
  by_cases hgt : a > Real.pi
  · rw [if_pos hgt, if_neg (by linarith)]
    exact ⟨by linarith, by linarith, -1, by push_cast; ring⟩
  · rw [if_neg hgt]
    by_cases hlt : a < -Real.pi
    · rw [if_pos hlt]
      exact ⟨by linarith, by linarith, 1, by push_cast; ring⟩
    · rw [if_neg hlt]
      exact ⟨by linarith, by linarith, 0, by push_cast; ring⟩

/-- The angle at the centre of a column, before the correction for the yaw of the sensor. -/
noncomputable def centre (width : ℕ) (col : ℝ) : ℝ := ((((width : ℝ) - col) - 1 / 2) / width * 2 - 1) * Real.pi

theorem centre_range {width col : ℕ} (h : col < width) : -Real.pi < centre width col ∧ centre width col < Real.pi := by
  have hp := Real.pi_pos
  have hw : (0 : ℝ) < width := by exact_mod_cast (by omega : 0 < width)
  have hc : (col : ℝ) + 1 ≤ width := by exact_mod_cast h
  have h0 : (0 : ℝ) ≤ col := Nat.cast_nonneg _
  have h1 : 0 < (((width : ℝ) - col) - 1 / 2) / width := div_pos (by linarith) hw
  have h2 : (((width : ℝ) - col) - 1 / 2) / width < 1 := by rw [div_lt_one hw]; linarith
  unfold centre
  constructor <;> nlinarith

/-- The column of an angle is the one whose centre is nearest. -/
theorem colOf_near {width : ℕ} (hw : 0 < width) (a : ℝ) : |a - centre width (colOf width a : ℤ)| ≤ Real.pi / width := by
  have hp := Real.pi_pos
  have hw' : (0 : ℝ) < width := by exact_mod_cast hw
  have h := Pca.roundEven_near ((width : ℝ) - 1 + 1 / 2 - (a + Real.pi) / (2 * Real.pi) * width)
  unfold colOf
  generalize (Pca.roundEven ((width : ℝ) - 1 + 1 / 2 - (a + Real.pi) / (2 * Real.pi) * width) : ℤ) = n at h
  have e : a - centre width n = ((n : ℝ) - ((width : ℝ) - 1 + 1 / 2 - (a + Real.pi) / (2 * Real.pi) * width)) * (2 * Real.pi / width) := by
    unfold centre
    field_simp
    ring
  rw [e, abs_mul, abs_of_pos (show 0 < 2 * Real.pi / width by positivity)]
  calc _ ≤ 1 / 2 * (2 * Real.pi / width) := mul_le_mul_of_nonneg_right h (by positivity)
    _ = Real.pi / width := by ring

/-- The column of the centre of a column is that column. -/
theorem colOf_centre {width : ℕ} (hw : 0 < width) (col : ℕ) : colOf width (centre width col) = col := by
  have hp := Real.pi_pos
  have hw' : (0 : ℝ) < width := by exact_mod_cast hw
  unfold colOf centre
  have : (width : ℝ) - 1 + 1 / 2 - (((((width : ℝ) - col) - 1 / 2) / width * 2 - 1) * Real.pi + Real.pi) / (2 * Real.pi) * width =
      ((col : ℤ) : ℝ) := by
    push_cast
    field_simp
    ring
  rw [this, Pca.roundEven_intCast]

/-- Every angle above -π and at most π has a column of the image. -/
theorem colOf_range {width : ℕ} (hw : 0 < width) {a : ℝ} (h1 : -Real.pi < a) (h2 : a ≤ Real.pi) :
    0 ≤ colOf width a ∧ colOf width a < width := by
  have hp := Real.pi_pos
  have hw' : (0 : ℝ) < width := by exact_mod_cast hw
  have u1 : 0 < (a + Real.pi) / (2 * Real.pi) := div_pos (by linarith) (by linarith)
  have u2 : (a + Real.pi) / (2 * Real.pi) ≤ 1 := by rw [div_le_one (by linarith)]; linarith
  have v1 : 0 < (a + Real.pi) / (2 * Real.pi) * width := mul_pos u1 hw'
  have v2 : (a + Real.pi) / (2 * Real.pi) * width ≤ width := by nlinarith
  unfold colOf
  generalize (a + Real.pi) / (2 * Real.pi) * width = v at v1 v2
  have hn := abs_le.1 (Pca.roundEven_near ((width : ℝ) - 1 + 1 / 2 - v))
  constructor
  · -- only -1/2 could be rounded to -1, and it is rounded to 0
    by_contra hneg
    push Not at hneg
    have hx : (width : ℝ) - 1 + 1 / 2 - v ≤ -1 / 2 := by
      have : ((Pca.roundEven ((width : ℝ) - 1 + 1 / 2 - v) : ℤ) : ℝ) ≤ -1 := by
        have h' : Pca.roundEven ((width : ℝ) - 1 + 1 / 2 - v) ≤ -1 := by omega
        exact_mod_cast h'
      linarith [hn.1]
    have hx' : (width : ℝ) - 1 + 1 / 2 - v = -1 / 2 := le_antisymm hx (by linarith)
    have hf : ⌊(-1 / 2 : ℝ)⌋ = -1 := by rw [Int.floor_eq_iff]; norm_num
    have : Pca.roundEven (-1 / 2 : ℝ) = 0 := by
      unfold Pca.roundEven
      rw [hf]
      norm_num
    rw [hx', this] at hneg
    exact absurd hneg (by norm_num)
  · by_contra hge
    push Not at hge
    have : ((width : ℤ) : ℝ) ≤ ((Pca.roundEven ((width : ℝ) - 1 + 1 / 2 - v) : ℤ) : ℝ) := by exact_mod_cast hge
    push_cast at this
    linarith [hn.2]

/-! ### Rows -/

theorem argmin_spec : ∀ {l : List ℝ}, l ≠ [] → ∃ m, l[argmin l]? = some m ∧ ∀ x ∈ l, m ≤ x
  | [], h => absurd rfl h
  | [a], _ => ⟨a, rfl, by simp⟩
  | a :: b :: l, _ => by
    obtain ⟨m, h1, h2⟩ := argmin_spec (l := b :: l) (by simp)
    rw [argmin]
    split
    next h => exact ⟨a, rfl, by simpa using h⟩
    next h =>
      refine ⟨m, by rw [List.getElem?_cons_succ]; exact h1, ?_⟩
      intro x hx
      rcases List.mem_cons.1 hx with rfl | hx
      · push Not at h
        obtain ⟨y, hy, hlt⟩ := h
        exact (h2 y hy).trans hlt.le
      · exact h2 x hx

/-- The row of a point is one whose inclination is nearest to that of the point. -/
theorem rowOf_spec {inclination : List ℝ} (hne : inclination ≠ []) (q : V3) : ∃ i, inclination[rowOf inclination q]? = some i ∧
    ∀ j ∈ inclination, |atan2 (q 2) (Real.sqrt (q 0 ^ 2 + q 1 ^ 2)) - i| ≤ |atan2 (q 2) (Real.sqrt (q 0 ^ 2 + q 1 ^ 2)) - j| := by
  obtain ⟨m, h1, h2⟩ := argmin_spec (l := inclination.map fun x => |atan2 (q 2) (Real.sqrt (q 0 ^ 2 + q 1 ^ 2)) - x|) (by simpa using hne)
  rw [List.getElem?_map, Option.map_eq_some_iff] at h1
  obtain ⟨i, hi, rfl⟩ := h1
  exact ⟨i, hi, fun j hj => h2 _ (List.mem_map.2 ⟨j, hj, rfl⟩)⟩

/-! ### C44: the pixel of a point -/

theorem project_eq {e : M4} (he : IsPose e) (inclination : List ℝ) (width : ℕ) (p : V3) :
    project e inclination width p =
      if 0 ≤ colOf width (wrap (atan2 (apply e⁻¹ p 1) (apply e⁻¹ p 0) + azCorrection e)) ∧
        colOf width (wrap (atan2 (apply e⁻¹ p 1) (apply e⁻¹ p 0) + azCorrection e)) < width then
        some ((((rowOf inclination (apply e⁻¹ p) : ℕ) : ℤ),
          colOf width (wrap (atan2 (apply e⁻¹ p 1) (apply e⁻¹ p 0) + azCorrection e))), norm3 (apply e⁻¹ p))
      else none := by
  unfold project
  rw [inv_pose he]
  rfl

/-- The sum of the azimuth and of the correction is in the domain of `wrap`. -/
theorem sum_range (e : M4) (y x : ℝ) : -(2 * Real.pi) < atan2 y x + azCorrection e ∧ atan2 y x + azCorrection e ≤ 2 * Real.pi := by
  have h1 := atan2_range y x
  have h2 := atan2_range (e 1 0) (e 0 0)
  unfold azCorrection
  constructor <;> linarith

/-- C44: the pixel of a point: its column is inside of the image and its azimuth differs, up to full turns, from that of the point by at
most half of a column; its row has the nearest inclination; the range is the distance from the sensor. -/
theorem project_spec {e : M4} (he : IsPose e) {inclination : List ℝ} (hne : inclination ≠ []) {width : ℕ} (hw : 0 < width) {p : V3}
    {r c : ℤ} {range : ℝ} (h : project e inclination width p = some ((r, c), range)) :
    ∃ q, apply e q = p ∧ range = norm3 q ∧
      (∃ (row : ℕ) (i : ℝ), r = row ∧ inclination[row]? = some i ∧
        ∀ j ∈ inclination, |atan2 (q 2) (Real.sqrt (q 0 ^ 2 + q 1 ^ 2)) - i| ≤ |atan2 (q 2) (Real.sqrt (q 0 ^ 2 + q 1 ^ 2)) - j|) ∧
      ∃ col : ℕ, c = col ∧ col < width ∧ ∃ k : ℤ, |atan2 (q 1) (q 0) - azimuth e width col + k * (2 * Real.pi)| ≤ Real.pi / width := by
  rw [project_eq he] at h
  split at h
  next hc =>
    simp only [Option.some.injEq, Prod.mk.injEq] at h
    obtain ⟨⟨hr, hcol⟩, hrange⟩ := h
    obtain ⟨i, hi, hj⟩ := rowOf_spec hne (apply e⁻¹ p)
    rw [hcol] at hc
    have hcast : ((c.toNat : ℕ) : ℤ) = c := Int.toNat_of_nonneg hc.1
    refine ⟨apply e⁻¹ p, apply_apply_inv he p, hrange.symm, ⟨_, i, hr.symm, hi, hj⟩, c.toNat, hcast.symm, by omega, ?_⟩
    have hs := sum_range e (apply e⁻¹ p 1) (apply e⁻¹ p 0)
    obtain ⟨_, _, k, hk⟩ := wrap_spec hs.1 hs.2
    have hn := colOf_near hw (wrap (atan2 (apply e⁻¹ p 1) (apply e⁻¹ p 0) + azCorrection e))
    rw [hcol, hk] at hn
    refine ⟨k, ?_⟩
    have hcr : ((c.toNat : ℕ) : ℝ) = (c : ℝ) := by exact_mod_cast hcast
    have e' : atan2 (apply e⁻¹ p 1) (apply e⁻¹ p 0) - azimuth e width c.toNat + k * (2 * Real.pi) =
        atan2 (apply e⁻¹ p 1) (apply e⁻¹ p 0) + azCorrection e + k * (2 * Real.pi) - centre width c := by
      unfold azimuth centre
      rw [hcr]
      ring
    rw [e']
    exact hn
  next => simp at h

/-- C44: a point gets a pixel unless the corrected azimuth is exactly -π. -/
theorem project_total_partial {e : M4} (he : IsPose e) (inclination : List ℝ) {width : ℕ} (hw : 0 < width) (p : V3)
    (hpi : atan2 (apply e⁻¹ p 1) (apply e⁻¹ p 0) + azCorrection e ≠ -Real.pi) :
    ∃ x, project e inclination width p = some x := by
  rw [project_eq he]
  have hs := sum_range e (apply e⁻¹ p 1) (apply e⁻¹ p 0)
  have hp := Real.pi_pos
  obtain ⟨h1, h2, k, hk⟩ := wrap_spec hs.1 hs.2
  have h1' : -Real.pi < wrap (atan2 (apply e⁻¹ p 1) (apply e⁻¹ p 0) + azCorrection e) := by
    generalize atan2 (apply e⁻¹ p 1) (apply e⁻¹ p 0) + azCorrection e = a at *
    unfold wrap
    dsimp only
    by_cases hgt : a > Real.pi
    · rw [if_pos hgt, if_neg (by linarith)]; linarith
    · rw [if_neg hgt]
      by_cases hlt : a < -Real.pi
      · rw [if_pos hlt]; linarith [hs.1]
      · rw [if_neg hlt]
        have : -Real.pi ≤ a := not_lt.1 hlt
        have := lt_of_le_of_ne this (Ne.symm hpi)
        linarith
  rw [if_pos (colOf_range hw h1' h2)]
  exact ⟨_, rfl⟩

/-- The extrinsic of a sensor turned to the right. -/
def turned : M4 := !![0, 1, 0, 0; -1, 0, 0, 0; 0, 0, 1, 0; 0, 0, 0, 1]

theorem turned_pose : IsPose turned := by
  constructor
  · intro j; fin_cases j <;> simp [turned]
  · rw [Matrix.det_succ_row_zero]
    simp [turned, Fin.sum_univ_four, Matrix.det_fin_three, Matrix.submatrix_apply, Fin.succAbove]

theorem turned_apply : apply turned ![0, -1, 0] = ![-1, 0, 0] := by
  funext i
  fin_cases i <;> simp [apply, rotationPart, translationPart, turned, Matrix.mulVec, dotProduct, Fin.sum_univ_three]

/-- C44 does not hold for all points: if the width is even and the corrected azimuth of a point is exactly -π, an assertion fails; here the
sensor is turned to the right and the point is straight behind the vehicle. -/
theorem project_behind_violated (inclination : List ℝ) (width : ℕ) (hw : 0 < width) (heven : Even width) :
    project turned inclination width ![-1, 0, 0] = none := by
  have hp := Real.pi_pos
  have hq : apply turned⁻¹ ![-1, 0, 0] = ![0, -1, 0] := by rw [← turned_apply, apply_inv_apply turned_pose]
  have ha : atan2 (-1) 0 = -(Real.pi / 2) := by
    have : (⟨0, -1⟩ : ℂ) = -Complex.I := by apply Complex.ext <;> simp
    unfold atan2
    rw [this, Complex.arg_neg_I]
  have hc : azCorrection turned = -(Real.pi / 2) := by
    rw [← ha]; unfold azCorrection; simp [turned]
  have hcol : colOf width (wrap (atan2 (-1) 0 + -(Real.pi / 2))) = width := by
    rw [ha, show -(Real.pi / 2) + -(Real.pi / 2) = -Real.pi by ring]
    have : wrap (-Real.pi) = -Real.pi := by
      unfold wrap; dsimp only
      rw [if_neg (by linarith), if_neg (by linarith)]; ring
    rw [this]
    unfold colOf
    have hx : (width : ℝ) - 1 + 1 / 2 - (-Real.pi + Real.pi) / (2 * Real.pi) * width = (width : ℝ) - 1 / 2 := by
      rw [neg_add_cancel, zero_div, zero_mul]; ring
    rw [hx]
    have hf : ⌊(width : ℝ) - 1 / 2⌋ = (width : ℤ) - 1 := by
      rw [Int.floor_eq_iff]; push_cast; constructor <;> linarith
    unfold Pca.roundEven
    rw [hf]
    obtain ⟨m, hm⟩ := heven
    have hod : ¬ (((width : ℤ) - 1) % 2 = 0) := by omega
    push_cast
    rw [show (width : ℝ) - 1 / 2 - ((width : ℝ) - 1) = 1 / 2 by ring]
    norm_num [hod]
  rw [project_eq turned_pose, hq, hc, show (![0, -1, 0] : V3) 1 = -1 from rfl, show (![0, -1, 0] : V3) 0 = 0 from rfl, hcol]
  rw [if_neg (by omega)]

/-! ### C44: the round trip -/

theorem sensor_norm {a i r : ℝ} (hr : 0 ≤ r) : norm3 (sensorPoint (a, i, r)) = r := by
  unfold norm3 sensorPoint
  simp only [Matrix.cons_val_zero, Matrix.cons_val_one, Matrix.cons_val]
  have h1 := Real.sin_sq_add_cos_sq a
  have h2 := Real.sin_sq_add_cos_sq i
  have : (Real.cos a * Real.cos i * r) ^ 2 + (Real.sin a * Real.cos i * r) ^ 2 + (Real.sin i * r) ^ 2 = r ^ 2 := by
    linear_combination (Real.cos i ^ 2 * r ^ 2) * h1 + r ^ 2 * h2
  rw [this, Real.sqrt_sq hr]

/-- C44: the point of a pixel goes back to the pixel, with its range. -/
theorem project_extract {e : M4} (he : IsPose e) {inclination : List ℝ} (hn : inclination.Nodup)
    (hin : ∀ i ∈ inclination, -(Real.pi / 2) < i ∧ i < Real.pi / 2) {width row col : ℕ} (hcol : col < width) (hrow : row < inclination.length)
    {range : ℝ} (hpos : 0 < range) :
    ∃ p, extract e inclination width row col range none none = some p ∧
      project e inclination width p = some (((row : ℤ), (col : ℤ)), range) := by
  have hp := Real.pi_pos
  have hw : 0 < width := by omega
  obtain ⟨hi1, hi2⟩ := hin inclination[row] (List.getElem_mem hrow)
  have hi0 : inclination[row]? = some inclination[row] := List.getElem?_eq_getElem hrow
  generalize inclination[row] = i at hi0 hi1 hi2
  refine ⟨apply e (sensorPoint (azimuth e width col, i, range)), by simp [extract, polar, hi0, cartesian], ?_⟩
  have hcos : 0 < Real.cos i := Real.cos_pos_of_mem_Ioo ⟨hi1, hi2⟩
  rw [project_eq he, apply_inv_apply he, sensor_norm hpos.le]
  have hk : 0 < Real.cos i * range := mul_pos hcos hpos
  -- the azimuth
  have haz : wrap (atan2 (sensorPoint (azimuth e width col, i, range) 1) (sensorPoint (azimuth e width col, i, range) 0) + azCorrection e) =
      centre width col := by
    have hs := sum_range e (sensorPoint (azimuth e width col, i, range) 1) (sensorPoint (azimuth e width col, i, range) 0)
    obtain ⟨n, hnn⟩ := atan2_polar hk (azimuth e width col)
    have e1 : sensorPoint (azimuth e width col, i, range) 1 = Real.sin (azimuth e width col) * (Real.cos i * range) := by
      simp [sensorPoint]; ring
    have e0 : sensorPoint (azimuth e width col, i, range) 0 = Real.cos (azimuth e width col) * (Real.cos i * range) := by
      simp [sensorPoint]; ring
    rw [e1, e0, hnn] at hs ⊢
    have hsum : azimuth e width col + n * (2 * Real.pi) + azCorrection e = centre width col + n * (2 * Real.pi) := by
      unfold azimuth centre; ring
    rw [hsum] at hs ⊢
    have hc := centre_range hcol
    have hn1 : n < 2 := by
      by_contra hge
      have : (2 : ℝ) ≤ n := by exact_mod_cast not_lt.1 hge
      nlinarith [hs.2, hc.1]
    have hn2 : -2 < n := by
      by_contra hge
      have : (n : ℝ) ≤ -2 := by exact_mod_cast not_lt.1 hge
      nlinarith [hs.1, hc.2]
    have : n = -1 ∨ n = 0 ∨ n = 1 := by omega
    unfold wrap
    dsimp only
    rcases this with rfl | rfl | rfl <;> push_cast
    · rw [if_neg (by linarith [hc.2]), if_pos (by linarith [hc.2])]; ring
    · rw [if_neg (by linarith [hc.2]), if_neg (by linarith [hc.1])]; ring
    · rw [if_pos (by linarith [hc.1]), if_neg (by linarith [hc.1])]; ring
  rw [haz, colOf_centre hw]
  -- the row
  have hrowof : rowOf inclination (sensorPoint (azimuth e width col, i, range)) = row := by
    have hinc : atan2 (sensorPoint (azimuth e width col, i, range) 2) (Real.sqrt (sensorPoint (azimuth e width col, i, range) 0 ^ 2 +
        sensorPoint (azimuth e width col, i, range) 1 ^ 2)) = i := by
      have h1 := Real.sin_sq_add_cos_sq (azimuth e width col)
      have : sensorPoint (azimuth e width col, i, range) 0 ^ 2 + sensorPoint (azimuth e width col, i, range) 1 ^ 2 =
          (Real.cos i * range) ^ 2 := by
        simp only [sensorPoint, Matrix.cons_val_zero, Matrix.cons_val_one]
        linear_combination (Real.cos i ^ 2 * range ^ 2) * h1
      rw [this, Real.sqrt_sq hk.le]
      have e2 : sensorPoint (azimuth e width col, i, range) 2 = Real.sin i * range := rfl
      rw [e2]
      exact atan2_exact hpos (by linarith) (by linarith)
    obtain ⟨j, hj, hmin⟩ := rowOf_spec (List.ne_nil_of_mem (List.mem_of_getElem? hi0)) (sensorPoint (azimuth e width col, i, range))
    rw [hinc] at hmin
    have := hmin i (List.mem_of_getElem? hi0)
    rw [sub_self, abs_zero] at this
    have hji : j = i := by linarith [abs_eq_zero.1 (le_antisymm this (abs_nonneg _))]
    subst hji
    have h1 := (List.getElem?_eq_some_iff.1 hj).1
    exact (List.getElem?_inj h1 hn).1 (hj.trans hi0.symm)
  rw [hrowof, if_pos ⟨by omega, by omega⟩]

/-- C44: building a range image from the points of some pixels of a range image gives these pixels again, and zero elsewhere. -/
theorem build_extract {e : M4} (he : IsPose e) {inclination : List ℝ} (hn : inclination.Nodup)
    (hin : ∀ i ∈ inclination, -(Real.pi / 2) < i ∧ i < Real.pi / 2) {width : ℕ} (image : ℕ → ℕ → ℝ) (pixels : List (ℕ × ℕ))
    (hpix : pixels.Nodup) (hok : ∀ x ∈ pixels, x.1 < inclination.length ∧ x.2 < width ∧ 0 < image x.1 x.2) :
    ∃ points, (pixels.mapM fun x => extract e inclination width x.1 x.2 (image x.1 x.2) none none) = some points ∧
      ∃ out, build e inclination inclination.length width points points.length = some out ∧
        ∀ r c : ℕ, r < inclination.length → c < width → out r c = if (r, c) ∈ pixels then image r c else 0 := by
  have hex : ∀ x ∈ pixels, ∃ p, extract e inclination width x.1 x.2 (image x.1 x.2) none none = some p ∧
      project e inclination width p = some (((x.1 : ℤ), (x.2 : ℤ)), image x.1 x.2) := fun x hx =>
    project_extract he hn hin (hok x hx).2.1 (hok x hx).1 (hok x hx).2.2
  have hlist : ∀ l : List (ℕ × ℕ), (∀ x ∈ l, x ∈ pixels) → ∃ points,
      (l.mapM fun x => extract e inclination width x.1 x.2 (image x.1 x.2) none none) = some points ∧
      points.mapM (project e inclination width) = some (l.map fun x => (((x.1 : ℤ), (x.2 : ℤ)), image x.1 x.2)) := by
    intro l
    induction l with
    | nil => intro _; exact ⟨[], by simp, by simp⟩
    | cons x l ih =>
      intro hl
      obtain ⟨ps, h1, h2⟩ := ih fun y hy => hl y (by simp [hy])
      obtain ⟨p, h3, h4⟩ := hex x (hl x (by simp))
      exact ⟨p :: ps, by simp [List.mapM_cons, h1, h3], by simp [List.mapM_cons, h2, h4]⟩
  obtain ⟨points, h1, h2⟩ := hlist pixels fun _ h => h
  refine ⟨points, h1, ?_⟩
  have hlen : points.length = pixels.length := (ListM.mapM_forall₂ h1).length_eq.symm
  unfold build
  rw [h2]
  simp only [Option.bind_eq_bind, Option.bind_some, List.map_map]
  rw [List.take_of_length_le (by simp [hlen]), List.take_of_length_le (by simp [hlen])]
  obtain ⟨out, ho, hs⟩ := scatter_spec (pixels.map (Prod.fst ∘ fun x => (((x.1 : ℤ), (x.2 : ℤ)), image x.1 x.2)))
    (pixels.map (Prod.snd ∘ fun x => (((x.1 : ℤ), (x.2 : ℤ)), image x.1 x.2))) inclination.length width segMin (by
      intro p hp
      obtain ⟨x, hx, rfl⟩ := List.mem_map.1 hp
      have := hok x hx
      simp only [Function.comp]
      omega)
  refine ⟨out, ho, fun r c hr hc => ?_⟩
  rw [hs r c (by omega) (by omega) (by omega) (by omega)]
  have hmem : (((r : ℤ), (c : ℤ)) ∈ pixels.map (Prod.fst ∘ fun x : ℕ × ℕ => (((x.1 : ℤ), (x.2 : ℤ)), image x.1 x.2))) ↔ (r, c) ∈ pixels := by
    rw [List.mem_map]
    constructor
    · rintro ⟨x, hx, hxe⟩
      simp only [Function.comp, Prod.mk.injEq, Nat.cast_inj] at hxe
      rw [← hxe.1, ← hxe.2]; exact hx
    · intro h; exact ⟨(r, c), h, rfl⟩
  simp only [hmem]
  split
  next hm =>
    have hz : (((pixels.map (Prod.fst ∘ fun x : ℕ × ℕ => (((x.1 : ℤ), (x.2 : ℤ)), image x.1 x.2))).zip
        (pixels.map (Prod.snd ∘ fun x : ℕ × ℕ => (((x.1 : ℤ), (x.2 : ℤ)), image x.1 x.2)))).filter fun x => x.1 = ((r : ℤ), (c : ℤ))) =
        (pixels.filter fun x => x = (r, c)).map fun x => (((x.1 : ℤ), (x.2 : ℤ)), image x.1 x.2) := by
      rw [← List.map_map, ← List.map_map, ← List.zip_of_prod rfl rfl, List.filter_map]
      congr 1
      apply List.filter_congr
      intro x _
      simp [Prod.ext_iff]
    rw [hz, filter_eq_singleton hpix, if_pos hm]
    rfl
  next => rfl

/-- A case for the hypotheses: two rows, a sensor turned to the right. -/
theorem build_extract_case : IsPose turned ∧ ([1 / 10, -1 / 10] : List ℝ).Nodup ∧
    ∀ i ∈ ([1 / 10, -1 / 10] : List ℝ), -(Real.pi / 2) < i ∧ i < Real.pi / 2 := by
  have := Real.two_le_pi
  refine ⟨turned_pose, ?_, ?_⟩
  · norm_num
  · intro i hi
    simp only [List.mem_cons, List.not_mem_nil, or_false] at hi
    rcases hi with rfl | rfl <;> constructor <;> linarith

/-- C44: what a pixel stands for: if the sensor is only turned about the vertical axis, the point of a pixel lies, as seen from the sensor, in the
direction of the vehicle frame that goes with the column, clockwise from straight behind, and at the inclination of the row. -/
theorem extract_yaw {e : M4} {yaw : ℝ} (hyaw : rotationPart e = yawRotation yaw) {inclination : List ℝ} {width row col : ℕ} (hw : 0 < width)
    {i : ℝ} (hrow : inclination[row]? = some i) (range : ℝ) :
    ∃ p, extract e inclination width row col range none none = some p ∧
      p 0 - e 0 3 = range * Real.cos i * Real.cos (Real.pi - (col + 1 / 2) * (2 * Real.pi / width)) ∧
      p 1 - e 1 3 = range * Real.cos i * Real.sin (Real.pi - (col + 1 / 2) * (2 * Real.pi / width)) ∧
      p 2 - e 2 3 = range * Real.sin i := by
  have hw' : (0 : ℝ) < width := by exact_mod_cast hw
  have h00 : e 0 0 = Real.cos yaw := by
    have := congrFun (congrFun hyaw 0) 0
    simpa [rotationPart, yawRotation] using this
  have h10 : e 1 0 = Real.sin yaw := by
    have := congrFun (congrFun hyaw 1) 0
    simpa [rotationPart, yawRotation] using this
  obtain ⟨n, hn⟩ := atan2_polar one_pos yaw
  have hc : azCorrection e = yaw + n * (2 * Real.pi) := by
    unfold azCorrection
    rw [h00, h10, ← hn, mul_one, mul_one]
  have haz : azimuth e width col + yaw = Real.pi - (col + 1 / 2) * (2 * Real.pi / width) + (-n : ℤ) * (2 * Real.pi) := by
    unfold azimuth
    rw [hc]
    push_cast
    field_simp
    ring
  have hcos : Real.cos (azimuth e width col + yaw) = Real.cos (Real.pi - (col + 1 / 2) * (2 * Real.pi / width)) := by
    rw [haz, Real.cos_add_int_mul_two_pi]
  have hsin : Real.sin (azimuth e width col + yaw) = Real.sin (Real.pi - (col + 1 / 2) * (2 * Real.pi / width)) := by
    rw [haz, Real.sin_add_int_mul_two_pi]
  refine ⟨apply e (sensorPoint (azimuth e width col, i, range)), by simp [extract, polar, hrow, cartesian], ?_, ?_, ?_⟩
  · rw [← hcos, Real.cos_add]
    simp only [apply, hyaw, Pi.add_apply, translationPart]
    simp [yawRotation, sensorPoint, Matrix.mulVec, dotProduct, Fin.sum_univ_three]
    ring
  · rw [← hsin, Real.sin_add]
    simp only [apply, hyaw, Pi.add_apply, translationPart]
    simp [yawRotation, sensorPoint, Matrix.mulVec, dotProduct, Fin.sum_univ_three]
    ring
  · simp only [apply, hyaw, Pi.add_apply, translationPart]
    simp [yawRotation, sensorPoint, Matrix.mulVec, dotProduct, Fin.sum_univ_three]
    ring

/-! ### Poses of pixels -/

/-- C44: with a pose for the pixel, the point is the one that has in the frame given the same place in the world as the point without
poses has in the frame of the pixel. -/
theorem extract_pose {e pose frame : M4} (hf : IsPose frame) {inclination : List ℝ} {width row col : ℕ} {range : ℝ} {p q : V3}
    (hp : extract e inclination width row col range none none = some p) :
    extract e inclination width row col range (some pose) (some frame) = some q ↔ apply frame q = apply pose p := by
  unfold extract at hp ⊢
  cases hpol : polar e inclination width row col range with
  | none => simp [hpol] at hp
  | some x =>
    simp only [hpol, Option.bind_eq_bind, Option.bind_some, cartesian, Option.some.injEq] at hp ⊢
    subst hp
    rw [inv_pose hf]
    simp only [Option.bind_some, Option.pure_def, Option.some.injEq]
    constructor
    · rintro rfl; rw [apply_apply_inv hf]
    · intro h; rw [← h, apply_inv_apply hf]

/-- C44: in particular, poses that are all equal change nothing, -/
theorem extract_same_pose {e pose : M4} (hf : IsPose pose) {inclination : List ℝ} {width row col : ℕ} {range : ℝ} {p : V3}
    (hp : extract e inclination width row col range none none = some p) :
    extract e inclination width row col range (some pose) (some pose) = some p := (extract_pose hf hp).2 rfl

/-- and the pose of a pixel without the pose of the frame is an error. -/
theorem extract_no_frame (e pose : M4) (inclination : List ℝ) (width row col : ℕ) (range : ℝ) :
    extract e inclination width row col range (some pose) none = none := by
  unfold extract
  cases polar e inclination width row col range <;> rfl

/-! ### C42: images with features -/

theorem encodeFeatures_zero : decodeFeatures ⟨0, 0, 0⟩ = ⟨0, 0, 0⟩ := by
  unfold decodeFeatures decodeGrid decodeIntensity
  simp

/-- Pooling packed features gives those of the nearest point, if it is the only nearest one. -/
theorem packMin_nearest {l : List (ℕ × ℕ × ℕ)} {p : ℕ × ℕ × ℕ} (hp : p ∈ l)
    (hmin : ∀ q ∈ l, q = p ∨ (p.1 ≤ q.1 ∧ p.2.1 ≤ q.2.1 ∧ p.2.2 ≤ q.2.2)) : packMin l = p := by
  have h : ∀ f : ℕ × ℕ × ℕ → ℕ, (∀ q ∈ l, f p ≤ f q) → segMin (l.map f) = f p := fun f hf =>
    segMin_unique (List.mem_map.2 ⟨p, hp, rfl⟩) fun x hx => by
      obtain ⟨q, hq, rfl⟩ := List.mem_map.1 hx
      exact hf q hq
  unfold packMin
  rw [h (fun x => x.1), h (fun x => x.2.1), h (fun x => x.2.2)]
  · intro q hq; rcases hmin q hq with rfl | h <;> [exact le_rfl; exact h.2.2]
  · intro q hq; rcases hmin q hq with rfl | h <;> [exact le_rfl; exact h.2.1]
  · intro q hq; rcases hmin q hq with rfl | h <;> [exact le_rfl; exact h.1]

/-- The projection and the packed features of a point. -/
def Lands (e : M4) (inclination : List ℝ) (width : ℕ) (pt : V3 × ℕ × ℝ) (px : ℤ × ℤ) (p : Packed) : Prop :=
  ∃ range, project e inclination width pt.1 = some (px, range) ∧ encodeFeatures ⟨range, pt.2.1, pt.2.2⟩ = some p

/-- Decoding a triple. -/
noncomputable def unpack (v : ℕ × ℕ × ℕ) : Feature := decodeFeatures ⟨v.1, v.2.1, v.2.2⟩

/-- The image of features exists if all points have a pixel and features in range, and each cell then decodes the pooled features of the
points of the cell. -/
theorem buildFeatures_pool {e : M4} (he : IsPose e) {inclination : List ℝ} (hne : inclination ≠ []) {width : ℕ} (hw : 0 < width)
    {points : List (V3 × ℕ × ℝ)} {lands : List ((ℤ × ℤ) × Packed)}
    (hl : List.Forall₂ (fun pt x => Lands e inclination width pt x.1 x.2) points lands) (numPoints : ℕ) :
    ∃ image, buildFeatures e inclination inclination.length width points numPoints = some image ∧
      ∀ r c : ℤ, 0 ≤ r → r < inclination.length → 0 ≤ c → c < width →
        image r c = if (r, c) ∈ (lands.take numPoints).map Prod.fst then
          unpack (packMin ((((lands.take numPoints).filter fun x => x.1 = (r, c)).map Prod.snd).map fun f => (f.range, f.intensity, f.elongation)))
        else ⟨0, 0, 0⟩ := by
  have hsplit : ∀ {points : List (V3 × ℕ × ℝ)} {lands : List ((ℤ × ℤ) × Packed)},
      List.Forall₂ (fun pt x => Lands e inclination width pt x.1 x.2) points lands →
      ∃ ps, (points.mapM fun x => project e inclination width x.1) = some ps ∧ ps.map Prod.fst = lands.map Prod.fst ∧
        ((ps.zip points).mapM fun x => encodeFeatures ⟨x.1.2, x.2.2.1, x.2.2.2⟩) = some (lands.map Prod.snd) := by
    intro points lands h
    induction h with
    | nil => exact ⟨[], by simp, rfl, by simp⟩
    | @cons a b _ _ h _ ih =>
      obtain ⟨ps, h1, h2, h3⟩ := ih
      obtain ⟨range, h4, h5⟩ := h
      exact ⟨(b.1, range) :: ps, by simp [List.mapM_cons, h1, h4], by simp [h2], by simp [List.mapM_cons, h3, h5]⟩
  obtain ⟨ps, h1, h2, h3⟩ := hsplit hl
  unfold buildFeatures
  rw [h1]
  simp only [Option.bind_eq_bind, Option.bind_some]
  rw [h3]
  simp only [Option.bind_some]
  rw [h2, List.map_map, ← List.map_take, ← List.map_take]
  obtain ⟨im, hs1, hs2⟩ := scatter_spec ((lands.take numPoints).map Prod.fst)
    ((lands.take numPoints).map ((fun f : Packed => (f.range, f.intensity, f.elongation)) ∘ Prod.snd)) inclination.length width packMin (by
      intro px hpx
      obtain ⟨x, hx, rfl⟩ := List.mem_map.1 hpx
      obtain ⟨pt, _, range, hpr, _⟩ := Detection.exists_of_forall₂_right hl _ (List.mem_of_mem_take hx)
      obtain ⟨q, _, _, ⟨row, i, hr, hri, _⟩, col, hc, hcw, _⟩ := project_spec he hne hw (r := x.1.1) (c := x.1.2) hpr
      have := (List.getElem?_eq_some_iff.1 hri).1
      omega)
  rw [hs1]
  refine ⟨_, rfl, fun r c a b d f => ?_⟩
  rw [hs2 r c a b d f]
  split
  next hm =>
    show unpack _ = _
    congr 2
    · have hz : ∀ l : List ((ℤ × ℤ) × Packed), ((l.map Prod.fst).zip (l.map ((fun f : Packed => (f.range, f.intensity, f.elongation)) ∘ Prod.snd))).filter
          (fun x => x.1 = (r, c)) = (l.filter fun x => x.1 = (r, c)).map fun x => (x.1, ((fun f : Packed => (f.range, f.intensity, f.elongation)) x.2)) := by
        intro l
        rw [List.zip_map', List.filter_map]
        rfl
      rw [hz, List.map_map, List.map_map]
      rfl
  next hm => exact encodeFeatures_zero

/-- C42: in an image with features, a pixel without points is zero, and a pixel with one point that is nearer than the others has exactly the
decoded features of that point. -/
theorem buildFeatures_nearest_partial {e : M4} (he : IsPose e) {inclination : List ℝ} (hne : inclination ≠ []) {width : ℕ} (hw : 0 < width)
    {points : List (V3 × ℕ × ℝ)} {lands : List ((ℤ × ℤ) × Packed)} (hint : ∀ pt ∈ points, pt.2.1 < 2 ^ 32)
    (hl : List.Forall₂ (fun pt x => Lands e inclination width pt x.1 x.2) points lands) :
    ∃ image, buildFeatures e inclination inclination.length width points points.length = some image ∧
      ∀ r c : ℤ, 0 ≤ r → r < inclination.length → 0 ≤ c → c < width →
        ((∀ x ∈ lands, x.1 ≠ (r, c)) → image r c = ⟨0, 0, 0⟩) ∧
        ∀ p, ((r, c), p) ∈ lands → (∀ q, ((r, c), q) ∈ lands → q = p ∨ p.range < q.range) → image r c = decodeFeatures p := by
  obtain ⟨image, h1, h2⟩ := buildFeatures_pool he hne hw hl points.length
  refine ⟨image, h1, fun r c a b d f => ?_⟩
  rw [h2 r c a b d f, List.take_of_length_le (by rw [hl.length_eq])]
  constructor
  · intro hno
    rw [if_neg]
    intro hm
    obtain ⟨x, hx, hxe⟩ := List.mem_map.1 hm
    exact hno x hx hxe
  · intro p hp hmin
    rw [if_pos (List.mem_map.2 ⟨_, hp, rfl⟩)]
    have hpm : packMin (((lands.filter fun x => x.1 = (r, c)).map Prod.snd).map fun f => (f.range, f.intensity, f.elongation)) =
        (p.range, p.intensity, p.elongation) := by
      apply packMin_nearest
      · exact List.mem_map.2 ⟨p, List.mem_map.2 ⟨((r, c), p), List.mem_filter.2 ⟨hp, by simp⟩, rfl⟩, rfl⟩
      · intro q hq
        obtain ⟨q', hq', rfl⟩ := List.mem_map.1 hq
        obtain ⟨x, hx, rfl⟩ := List.mem_map.1 hq'
        obtain ⟨hx1, hx2⟩ := List.mem_filter.1 hx
        have hx2 : x.1 = (r, c) := by simpa using hx2
        have hx3 : ((r, c), x.2) ∈ lands := by rw [← hx2]; exact hx1
        rcases hmin x.2 hx3 with h | h
        · left; rw [h]
        · right
          obtain ⟨pt, hpt, rp, _, hep⟩ := Detection.exists_of_forall₂_right hl _ hp
          obtain ⟨qt, hqt, rq, _, heq⟩ := Detection.exists_of_forall₂_right hl _ hx1
          have := (pack_order hep heq (hint pt hpt) (hint qt hqt)).1 h
          exact ⟨h.le, this.1.le, this.2.le⟩
    rw [hpm]
    rfl

/-! ### C75: depth images -/

/-- A point is projected to a pixel of a camera: by its first projection, or by the second one if the first one is for another camera. -/
def SeenAt (camera : ℤ) (cp : (ℤ × ℤ × ℤ) × (ℤ × ℤ × ℤ)) (x y : ℤ) : Prop :=
  cp.1 = (camera, x, y) ∨ (cp.1.1 ≠ camera ∧ cp.2 = (camera, x, y))

theorem selected_iff (camera : ℤ) (cp : (ℤ × ℤ × ℤ) × (ℤ × ℤ × ℤ)) (x y : ℤ) : selected camera cp = some (x, y) ↔ SeenAt camera cp x y := by
  obtain ⟨⟨a, b, c⟩, d, e, f⟩ := cp
  unfold selected SeenAt
  dsimp only
  by_cases h1 : a = camera
  · simp [h1]
  · rw [if_neg h1]
    by_cases h2 : d = camera
    · simp [h1, h2]
    · simp [h1, h2]

/-- For a rigid extrinsic the norm in the frame of the camera is the distance from the place of the camera. -/
theorem norm3_rigid {e : M4} (he : IsPose e) (horth : (rotationPart e).transpose * rotationPart e = 1) (p : V3) :
    norm3 (apply e⁻¹ p) = norm3 (p - translationPart e) := by
  have h : p - translationPart e = (rotationPart e).mulVec (apply e⁻¹ p) := by
    rw [sub_eq_iff_eq_add]
    exact (apply_apply_inv he p).symm
  rw [h]
  generalize apply e⁻¹ p = q
  have hdot : ∀ v : V3, v 0 ^ 2 + v 1 ^ 2 + v 2 ^ 2 = dotProduct v v := by
    intro v; simp only [dotProduct, Fin.sum_univ_three]; ring
  unfold norm3
  rw [hdot, hdot]
  congr 1
  rw [Matrix.dotProduct_mulVec, Matrix.vecMul_mulVec, horth, Matrix.vecMul_one]

/-- C75: each pixel of a depth image is the distance between the camera and the nearest point projected to it, and zero if there is none. -/
theorem depthImage_spec {e : M4} (he : IsPose e) (horth : (rotationPart e).transpose * rotationPart e = 1)
    (points : List (V3 × ((ℤ × ℤ × ℤ) × (ℤ × ℤ × ℤ)))) (height width camera : ℤ)
    (hin : ∀ pt ∈ points, ∀ x y, SeenAt camera pt.2 x y → 0 ≤ x ∧ x < width ∧ 0 ≤ y ∧ y < height) :
    ∃ image, depthImage points e height width camera = some image ∧
      ∀ x y : ℤ, 0 ≤ x → x < width → 0 ≤ y → y < height →
        ((∀ pt ∈ points, ¬ SeenAt camera pt.2 x y) → image y x = 0) ∧
        ((∃ pt ∈ points, SeenAt camera pt.2 x y) →
          (∃ pt ∈ points, SeenAt camera pt.2 x y ∧ image y x = norm3 (pt.1 - translationPart e)) ∧
          ∀ pt ∈ points, SeenAt camera pt.2 x y → image y x ≤ norm3 (pt.1 - translationPart e)) := by
  unfold depthImage
  rw [inv_pose he]
  simp only [Option.bind_eq_bind, Option.bind_some]
  have hseen : ∀ a, a ∈ (points.filterMap fun x => (selected camera x.2).map fun xy => ((xy.2, xy.1), norm3 (apply e⁻¹ x.1))) ↔
      ∃ pt ∈ points, SeenAt camera pt.2 a.1.2 a.1.1 ∧ a.2 = norm3 (pt.1 - translationPart e) := by
    intro a
    rw [List.mem_filterMap]
    constructor
    · rintro ⟨pt, hpt, h⟩
      rw [Option.map_eq_some_iff] at h
      obtain ⟨xy, hxy, rfl⟩ := h
      exact ⟨pt, hpt, (selected_iff _ _ _ _).1 hxy, norm3_rigid he horth _⟩
    · rintro ⟨pt, hpt, h1, h2⟩
      refine ⟨pt, hpt, ?_⟩
      rw [(selected_iff _ _ _ _).2 h1, Option.map_some, norm3_rigid he horth, ← h2]
  generalize (points.filterMap fun x => (selected camera x.2).map fun xy => ((xy.2, xy.1), norm3 (apply e⁻¹ x.1))) = seen at hseen
  obtain ⟨image, h1, h2⟩ := scatter_spec (seen.map Prod.fst) (seen.map Prod.snd) height width segMin (by
    intro p hp
    obtain ⟨a, ha, rfl⟩ := List.mem_map.1 hp
    obtain ⟨pt, hpt, hs, _⟩ := (hseen a).1 ha
    have := hin pt hpt _ _ hs
    omega)
  refine ⟨image, h1, fun x y hx0 hx1 hy0 hy1 => ?_⟩
  rw [h2 y x hy0 hy1 hx0 hx1, (List.zip_of_prod rfl rfl : seen = (seen.map Prod.fst).zip (seen.map Prod.snd)).symm]
  have hiff : (y, x) ∈ seen.map Prod.fst ↔ ∃ pt ∈ points, SeenAt camera pt.2 x y := by
    rw [List.mem_map]
    constructor
    · rintro ⟨a, ha, hae⟩
      obtain ⟨pt, hpt, hs, _⟩ := (hseen a).1 ha
      rw [hae] at hs
      exact ⟨pt, hpt, hs⟩
    · rintro ⟨pt, hpt, hs⟩
      exact ⟨((y, x), _), (hseen _).2 ⟨pt, hpt, hs, rfl⟩, rfl⟩
  constructor
  · intro hno
    rw [if_neg]
    intro h
    obtain ⟨pt, hpt, hs⟩ := hiff.1 h
    exact hno pt hpt hs
  · intro hex
    rw [if_pos (hiff.2 hex)]
    have hmem : ∀ d, d ∈ (seen.filter fun a => a.1 = (y, x)).map Prod.snd ↔
        ∃ pt ∈ points, SeenAt camera pt.2 x y ∧ d = norm3 (pt.1 - translationPart e) := by
      intro d
      rw [List.mem_map]
      constructor
      · rintro ⟨a, ha, rfl⟩
        obtain ⟨ha1, ha2⟩ := List.mem_filter.1 ha
        have ha2 : a.1 = (y, x) := by simpa using ha2
        obtain ⟨pt, hpt, hs, hd⟩ := (hseen a).1 ha1
        rw [ha2] at hs
        exact ⟨pt, hpt, hs, hd⟩
      · rintro ⟨pt, hpt, hs, rfl⟩
        exact ⟨((y, x), _), List.mem_filter.2 ⟨(hseen _).2 ⟨pt, hpt, hs, rfl⟩, by simp⟩, rfl⟩
    obtain ⟨pt, hpt, hs⟩ := hex
    obtain ⟨m1, m2⟩ := segMin_spec (List.ne_nil_of_mem ((hmem _).2 ⟨pt, hpt, hs, rfl⟩))
    exact ⟨(hmem _).1 m1, fun pt hpt hs => m2 _ ((hmem _).2 ⟨pt, hpt, hs, rfl⟩)⟩

/-- A case for the hypotheses: a camera turned to the right; its rotation is orthogonal. -/
theorem depthImage_case : (rotationPart turned).transpose * rotationPart turned = 1 := by
  ext i j
  fin_cases i <;> fin_cases j <;> simp [rotationPart, turned, Matrix.mul_apply, Fin.sum_univ_three]

/-! ### C42: equal quantised ranges -/

theorem one_pose : IsPose (1 : M4) := ⟨fun j => by fin_cases j <;> rfl, by simp⟩

/-- C42 does not hold when two points of a pixel have the same quantised range: the features of the pixel can be a mixture that no point has. -/
theorem buildFeatures_mixed_violated : ∃ (a b : V3 × ℕ × ℝ) (image : ℤ → ℤ → Feature),
    buildFeatures 1 [0] 1 1 [a, b] 2 = some image ∧
    (image 0 0).intensity < a.2.1 ∧ a.2.1 = 2 ^ 16 ∧ (image 0 0).elongation + metres ≤ b.2.2 := by
  have hproj : project 1 [0] 1 ![1, 0, 0] = some ((0, 0), 1) := by
    have hq : apply (1 : M4)⁻¹ ![1, 0, 0] = ![1, 0, 0] := by rw [inv_one, apply_one]
    have h1 : atan2 0 1 = 0 := by
      unfold atan2
      rw [show (⟨1, 0⟩ : ℂ) = 1 by apply Complex.ext <;> simp, Complex.arg_one]
    have hc : azCorrection 1 = 0 := by unfold azCorrection; simp [h1]
    have hpos := Real.pi_pos
    have hw : wrap 0 = 0 := by
      unfold wrap; dsimp only
      rw [if_neg (by linarith), if_neg (by linarith)]; ring
    have hcol : colOf 1 0 = 0 := by
      have := colOf_centre (width := 1) (by norm_num) 0
      have h0 : centre 1 ((0 : ℕ) : ℝ) = 0 := by unfold centre; norm_num
      rw [h0] at this
      exact_mod_cast this
    rw [project_eq one_pose, hq, hc]
    simp only [Matrix.cons_val_zero, Matrix.cons_val_one, add_zero]
    rw [h1, hw, hcol, if_pos (by norm_num)]
    simp [rowOf, argmin, norm3]
  obtain ⟨p, hp⟩ := (encodeFeatures_iff ⟨1, 2 ^ 16, 0⟩).2 (by unfold metres; norm_num)
  obtain ⟨q, hq⟩ := (encodeFeatures_iff ⟨1, 0, metres⟩).2 (by unfold metres; norm_num)
  obtain ⟨image, h1, h2⟩ := buildFeatures_pool one_pose (inclination := [0]) (by simp) (width := 1) (by norm_num)
    (points := [(![1, 0, 0], 2 ^ 16, 0), (![1, 0, 0], 0, metres)]) (lands := [((0, 0), p), ((0, 0), q)])
    (.cons ⟨1, hproj, hp⟩ (.cons ⟨1, hproj, hq⟩ .nil)) 2
  refine ⟨_, _, image, h1, ?_⟩
  have h := h2 0 0 (by norm_num) (by norm_num) (by norm_num) (by norm_num)
  obtain ⟨e1, a1, a2, a3, a4, a5, a6, a7⟩ := encodeFeatures_spec hp (by norm_num)
  obtain ⟨e2, b1, b2, b3, b4, b5, b6, b7⟩ := encodeFeatures_spec hq (by norm_num)
  dsimp only at a1 a2 a3 b1 b2 b3
  have hpq : p.range = q.range := Option.some.inj (a1.symm.trans b1)
  have he1 : e1 = 0 := by
    have := (encodeGrid_spec a2).2.1
    unfold decodeGrid at this
    have hm := metres_pos
    by_contra hne
    have : (1 : ℝ) ≤ e1 := by exact_mod_cast Nat.one_le_iff_ne_zero.2 hne
    nlinarith
  have hmin : packMin [(p.range, p.intensity, p.elongation), (q.range, q.intensity, q.elongation)] =
      (p.range, q.intensity, p.elongation) := by
    unfold packMin segMin
    simp only [List.map_cons, List.map_nil, List.foldl_cons, List.foldl_nil]
    rw [min_eq_left (by omega), min_eq_right (by omega), min_eq_left (by omega)]
  have him : image 0 0 = decodeFeatures ⟨p.range, q.intensity, p.elongation⟩ := by
    rw [h]
    simp [hmin, unpack]
  rw [him]
  have i0 : q.intensity &&& 0xFFFF = 0 := by
    rw [show (0xFFFF : ℕ) = 2 ^ 16 - 1 by norm_num, Nat.and_two_pow_sub_one_eq_mod]; omega
  have j0 : p.elongation &&& 0xFF = 0 := by
    rw [show (0xFF : ℕ) = 2 ^ 8 - 1 by norm_num, Nat.and_two_pow_sub_one_eq_mod]; omega
  unfold decodeFeatures decodeIntensity decodeGrid
  dsimp only
  rw [i0, j0]
  simp

end Verif.RangeImage
