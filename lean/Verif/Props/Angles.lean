import Verif.Model.Angles
import Mathlib.Tactic.Linarith
import Mathlib.Tactic.Ring
import Mathlib.Tactic.FieldSimp

/-!
Properties C30 (modular arithmetic) and C31 (heading accuracy).
-/

namespace Verif.Angles

/-! ### C30: integers -/

/-- C30 for integers.  For a positive modulus of at most half of the largest value, no intermediate value
overflows, and the result is the representative of `x` in `[0, y)`.  `hi + 1 ≤ -lo` is two's complement; for an
unsigned type `lo = 0 ≤ x`. -/
theorem positiveModuloInt_spec (lo hi x y : ℤ) (hlo : lo = 0 ∨ lo = -hi - 1) (hx : lo ≤ x) (hx' : x ≤ hi)
    (hy : 0 < y) (hy' : 2 * y ≤ hi) :
    ∃ r, positiveModuloInt lo hi x y = some r ∧ 0 ≤ r ∧ r < y ∧ ∃ k, x = r + k * y := by
  have hl0 : lo ≤ 0 := by omega
  unfold positiveModuloInt
  by_cases h0 : 0 ≤ x
  · rw [if_pos h0]
    have e : inType lo hi (y + y) = some (y + y) := by rw [inType, if_pos]; omega
    rw [e]
    simp only [Option.bind_eq_bind, Option.bind_some]
    split_ifs with h1 h2
    · exact ⟨x, rfl, h0, h2, 0, by ring⟩
    · refine ⟨x - y, by rw [inType, if_pos]; omega, by omega, by omega, 1, by ring⟩
    · refine ⟨x.tmod y, rfl, Int.tmod_nonneg y h0, Int.tmod_lt_of_pos x hy, x.tdiv y, ?_⟩
      have := Int.tmod_add_mul_tdiv x y
      linarith [mul_comm y (x.tdiv y)]
  · have hlo' : lo = -hi - 1 := by omega
    rw [if_neg h0]
    have e : inType lo hi (-y) = some (-y) := by rw [inType, if_pos]; omega
    rw [e]
    simp only [Option.bind_eq_bind, Option.bind_some]
    split_ifs with h1
    · exact ⟨x + y, by rw [inType, if_pos]; omega, by omega, by omega, -1, by ring⟩
    · have e1 : inType lo hi (x + 1) = some (x + 1) := by rw [inType, if_pos]; omega
      have e2 : inType lo hi (-(x + 1)) = some (-(x + 1)) := by rw [inType, if_pos]; omega
      have b0 : 0 ≤ (-(x + 1)).tmod y := Int.tmod_nonneg y (by omega)
      have b1 : (-(x + 1)).tmod y < y := Int.tmod_lt_of_pos _ hy
      have e3 : inType lo hi (y - (-(x + 1)).tmod y) = some (y - (-(x + 1)).tmod y) := by
        rw [inType, if_pos]; omega
      have e4 : inType lo hi (y - (-(x + 1)).tmod y - 1) = some (y - (-(x + 1)).tmod y - 1) := by
        rw [inType, if_pos]; omega
      rw [e1, Option.bind_some, e2, Option.bind_some, e3, Option.bind_some, e4]
      refine ⟨_, rfl, by omega, by omega, -((-(x + 1)).tdiv y) - 1, ?_⟩
      have := Int.tmod_add_mul_tdiv (-(x + 1)) y
      linarith [mul_comm y ((-(x + 1)).tdiv y)]

/-- A 32-bit `int` at its smallest value. -/
example : positiveModuloInt (-2147483648) 2147483647 (-2147483648) 1000 = some 352 := by decide +kernel

/-! ### C30: floating point types -/

theorem representative_unique {r s y : ℝ} (hr : 0 ≤ r) (hr' : r < y) (hs : 0 ≤ s) (hs' : s < y) (k l : ℤ)
    (h : r + k * y = s + l * y) : r = s := by
  have hy : 0 < y := lt_of_le_of_lt hr hr'
  have e : ((k - l : ℤ) : ℝ) * y = s - r := by push_cast; linarith
  have h1 : ((k - l : ℤ) : ℝ) < 1 := by
    by_contra hc
    have := mul_le_mul_of_nonneg_right (not_lt.mp hc) hy.le
    linarith
  have h2 : (-1 : ℝ) < ((k - l : ℤ) : ℝ) := by
    by_contra hc
    have := mul_le_mul_of_nonneg_right (not_lt.mp hc) hy.le
    linarith
  have h1' : k - l < 1 := by exact_mod_cast h1
  have h2' : -1 < k - l := by exact_mod_cast h2
  have : k - l = 0 := by omega
  rw [this] at e
  simp only [Int.cast_zero, zero_mul] at e
  linarith

/-- C30: `PositiveModulo` lands in `[0, y)` and is congruent to its argument. -/
theorem positiveModulo_spec (x y : ℝ) (hy : 0 < y) :
    0 ≤ positiveModulo x y ∧ positiveModulo x y < y ∧ ∃ k : ℤ, x = positiveModulo x y + k * y := by
  have hxy : x * (1 / y) * y = x := by field_simp
  unfold positiveModulo
  simp only
  set q := x * (1 / y) with hq
  by_cases h0 : 0 ≤ q
  · have e : trunc q = ⌊q⌋ := by simp [trunc, h0]
    rw [e]
    have f1 := Int.floor_le q
    have f2 := Int.lt_floor_add_one q
    have g1 : 0 ≤ x - ⌊q⌋ * y := by
      have := mul_le_mul_of_nonneg_right f1 hy.le; linarith
    have g2 : x - ⌊q⌋ * y < y := by
      have := mul_lt_mul_of_pos_right f2 hy; linarith
    rw [if_pos g1]
    exact ⟨g1, g2, ⌊q⌋, by ring⟩
  · have e : trunc q = ⌈q⌉ := by simp [trunc, h0]
    rw [e]
    have f1 := Int.le_ceil q
    have f2 := Int.ceil_lt_add_one q
    have g1 : x - ⌈q⌉ * y ≤ 0 := by
      have := mul_le_mul_of_nonneg_right f1 hy.le; linarith
    have g2 : -y < x - ⌈q⌉ * y := by
      have := mul_lt_mul_of_pos_right f2 hy; linarith
    split_ifs with h1 h2
    · have : x - ⌈q⌉ * y = 0 := le_antisymm g1 h1
      rw [this]
      exact ⟨le_refl _, hy, ⌈q⌉, by linarith⟩
    · exact absurd h1 (by push Not; push Not at h1; linarith)
    · refine ⟨by linarith, by push Not at h1; linarith, ⌈q⌉ - 1, ?_⟩
      push_cast; ring

/-- C30: congruent arguments have the same representative. -/
theorem positiveModulo_congr (x y : ℝ) (hy : 0 < y) (k : ℤ) :
    positiveModulo (x + k * y) y = positiveModulo x y := by
  obtain ⟨a1, a2, m, a3⟩ := positiveModulo_spec (x + k * y) y hy
  obtain ⟨b1, b2, n, b3⟩ := positiveModulo_spec x y hy
  refine representative_unique a1 a2 b1 b2 m (n + k) ?_
  push_cast; linarith

/-- C30: `WrapToRange` lands in the interval and is congruent to its argument. -/
theorem wrapToRange_spec (lo hi v : ℝ) (h : lo < hi) :
    lo ≤ wrapToRange lo hi v ∧ wrapToRange lo hi v < hi ∧ ∃ k : ℤ, v = wrapToRange lo hi v + k * (hi - lo) := by
  obtain ⟨a1, a2, m, a3⟩ := positiveModulo_spec (v - lo) (hi - lo) (by linarith)
  unfold wrapToRange
  exact ⟨by linarith, by linarith, m, by linarith⟩

/-- C30: values that differ by a multiple of the length of the interval are wrapped to the same value. -/
theorem wrapToRange_congr (lo hi v : ℝ) (h : lo < hi) (k : ℤ) :
    wrapToRange lo hi (v + k * (hi - lo)) = wrapToRange lo hi v := by
  unfold wrapToRange
  have := positiveModulo_congr (v - lo) (hi - lo) (by linarith) k
  rw [← this]; congr 2; ring

/-- C30: values in the interval are not changed. -/
theorem wrapToRange_of_mem (lo hi v : ℝ) (h1 : lo ≤ v) (h2 : v < hi) : wrapToRange lo hi v = v := by
  obtain ⟨a1, a2, m, a3⟩ := wrapToRange_spec lo hi v (by linarith)
  have := representative_unique (y := hi - lo) (r := wrapToRange lo hi v - lo) (s := v - lo)
    (by linarith) (by linarith) (by linarith) (by linarith) m 0 (by push_cast; linarith)
  linarith

/-- C30: wrapping twice is wrapping once. -/
theorem wrapToRange_idem (lo hi v : ℝ) (h : lo < hi) :
    wrapToRange lo hi (wrapToRange lo hi v) = wrapToRange lo hi v :=
  let ⟨a1, a2, _⟩ := wrapToRange_spec lo hi v h
  wrapToRange_of_mem lo hi _ a1 a2

/-- C30: `NormalizeAngle` lands in `[-π, π)` and changes the angle by full turns. -/
theorem normalizeAngle_spec (a : ℝ) : -Real.pi ≤ normalizeAngle a ∧ normalizeAngle a < Real.pi ∧
    ∃ k : ℤ, a = normalizeAngle a + k * (2 * Real.pi) := by
  obtain ⟨a1, a2, m, a3⟩ := wrapToRange_spec (-Real.pi) Real.pi a (by linarith [Real.pi_pos])
  refine ⟨a1, a2, m, ?_⟩
  unfold normalizeAngle
  calc a = _ := a3
    _ = _ := by ring

/-- C30: full turns do not matter. -/
theorem normalizeAngle_congr (a : ℝ) (k : ℤ) : normalizeAngle (a + k * (2 * Real.pi)) = normalizeAngle a := by
  have := wrapToRange_congr (-Real.pi) Real.pi a (by linarith [Real.pi_pos]) k
  unfold normalizeAngle
  rw [← this]; congr 1; ring

/-- The angle in `[-π, π)` is the only one that differs by full turns. -/
theorem normalizeAngle_eq {a b : ℝ} (h1 : -Real.pi ≤ b) (h2 : b < Real.pi) (k : ℤ)
    (h : a = b + k * (2 * Real.pi)) : normalizeAngle a = b := by
  rw [h, normalizeAngle_congr]
  exact wrapToRange_of_mem _ _ b h1 h2

/-- C30: the python `_wrap_angle` computes the same angle. -/
theorem wrapAngle_eq (a : ℝ) : wrapAngle a = normalizeAngle a := by
  have hp := Real.pi_pos
  symm
  unfold wrapAngle floorMod
  have f1 := Int.floor_le ((a + Real.pi) / (2 * Real.pi))
  have f2 := Int.lt_floor_add_one ((a + Real.pi) / (2 * Real.pi))
  rw [le_div_iff₀ (by linarith)] at f1
  rw [div_lt_iff₀ (by linarith)] at f2
  refine normalizeAngle_eq (by linarith) (by linarith) ⌊(a + Real.pi) / (2 * Real.pi)⌋ (by ring)

/-- C30: `BoundToRange` is the nearest value of the interval. -/
theorem boundToRange_spec (lo hi v : ℝ) (h : lo ≤ hi) :
    lo ≤ boundToRange lo hi v ∧ boundToRange lo hi v ≤ hi ∧ (lo ≤ v → v ≤ hi → boundToRange lo hi v = v) ∧
      ∀ w, lo ≤ w → w ≤ hi → |v - boundToRange lo hi v| ≤ |v - w| := by
  unfold boundToRange
  simp only
  split_ifs with h1 h2 h2
  · exact ⟨h, le_refl _, fun _ h3 => absurd h1 (not_lt.mpr h3), fun w _ hw => by
      rw [abs_of_nonneg (by linarith), abs_of_nonneg (by linarith)]; linarith⟩
  · exact ⟨le_refl _, h, fun _ h3 => absurd h1 (not_lt.mpr h3), fun w _ hw => by
      rw [abs_of_nonneg (by linarith), abs_of_nonneg (by linarith)]; linarith⟩
  · exact ⟨h2.le, not_lt.mp h1, fun _ _ => rfl, fun w _ _ => by rw [sub_self, abs_zero]; exact abs_nonneg _⟩
  · push Not at h2
    exact ⟨le_refl _, h, fun h3 _ => le_antisymm h3 h2, fun w hw _ => by
      rw [abs_of_nonpos (by linarith), abs_of_nonpos (by linarith)]; linarith⟩

/-- An angle of two and a half turns. -/
example : normalizeAngle (5 * Real.pi) = -Real.pi :=
  normalizeAngle_eq (le_refl _) (by linarith [Real.pi_pos]) 3 (by push_cast; ring)

/-! ### C31 -/

/-- C31, full characterisation: headings that differ by `d` with `|d| ≤ π`, up to full turns, have accuracy
`1 - |d| / π`. -/
theorem headingAccuracy_of_diff (p g d : ℝ) (hd : |d| ≤ Real.pi) (k : ℤ) (h : p - g = d + k * (2 * Real.pi)) :
    headingAccuracy p g = 1 - |d| / Real.pi := by
  have hp := Real.pi_pos
  obtain ⟨a1, a2, m, a3⟩ := normalizeAngle_spec p
  obtain ⟨b1, b2, n, b3⟩ := normalizeAngle_spec g
  unfold headingAccuracy
  simp only
  set u := normalizeAngle p
  set v := normalizeAngle g
  have huv : u - v = d + ((k - m + n : ℤ) : ℝ) * (2 * Real.pi) := by push_cast; linarith
  obtain ⟨j, hj⟩ : ∃ j : ℤ, j = k - m + n := ⟨_, rfl⟩
  rw [← hj] at huv
  obtain ⟨d1, d2⟩ := abs_le.mp hd
  have j1 : (j : ℝ) < 2 := by
    by_contra hc
    have := mul_le_mul_of_nonneg_right (not_lt.mp hc) (show 0 ≤ 2 * Real.pi by linarith)
    linarith
  have j2 : (-2 : ℝ) < j := by
    by_contra hc
    have := mul_le_mul_of_nonneg_right (not_lt.mp hc) (show 0 ≤ 2 * Real.pi by linarith)
    linarith
  have j1' : j < 2 := by exact_mod_cast j1
  have j2' : -2 < j := by exact_mod_cast j2
  have key : (if Real.pi < |u - v| then 2 * Real.pi - |u - v| else |u - v|) = |d| := by
    have hj3 : j = -1 ∨ j = 0 ∨ j = 1 := by omega
    rcases hj3 with rfl | rfl | rfl
    · have e : u - v = d - 2 * Real.pi := by rw [huv]; push_cast; ring
      have hn : u - v ≤ 0 := by linarith
      rw [abs_of_nonpos hn]
      split_ifs with h1
      · rw [abs_of_nonneg (by linarith)]; linarith
      · have : d = Real.pi := by linarith
        rw [abs_of_nonneg (by linarith)]; linarith
    · have e : u - v = d := by rw [huv]; push_cast; ring
      rw [e, if_neg (not_lt.mpr hd)]
    · have e : u - v = d + 2 * Real.pi := by rw [huv]; push_cast; ring
      have hn : 0 ≤ u - v := by linarith
      rw [abs_of_nonneg hn]
      split_ifs with h1
      · rw [abs_of_nonpos (by linarith)]; linarith
      · have : d = -Real.pi := by linarith
        rw [abs_of_nonpos (by linarith)]; linarith
  rw [key]
  have h1 : |d| / Real.pi ≤ 1 := (div_le_one hp).mpr hd
  have h2 : 0 ≤ |d| / Real.pi := div_nonneg (abs_nonneg _) hp.le
  rw [max_eq_right (by linarith), min_eq_right (by linarith)]

/-- Every difference of headings is at most half a turn up to full turns, so `headingAccuracy_of_diff` covers all
headings. -/
theorem exists_diff (p g : ℝ) : ∃ d : ℝ, |d| ≤ Real.pi ∧ ∃ k : ℤ, p - g = d + k * (2 * Real.pi) := by
  obtain ⟨a1, a2, m, a3⟩ := normalizeAngle_spec (p - g)
  exact ⟨_, abs_le.mpr ⟨a1, a2.le⟩, m, a3⟩

/-- C31: the accuracy is in `[0, 1]`. -/
theorem headingAccuracy_mem (p g : ℝ) : 0 ≤ headingAccuracy p g ∧ headingAccuracy p g ≤ 1 :=
  ⟨le_min zero_le_one (le_max_left _ _), min_le_left _ _⟩

/-- C31: symmetric. -/
theorem headingAccuracy_comm (p g : ℝ) : headingAccuracy p g = headingAccuracy g p := by
  obtain ⟨d, hd, k, h⟩ := exists_diff p g
  rw [headingAccuracy_of_diff p g d hd k h,
    headingAccuracy_of_diff g p (-d) (by rwa [abs_neg]) (-k) (by push_cast; linarith), abs_neg]

/-- C31: full turns of either heading do not matter. -/
theorem headingAccuracy_turns (p g : ℝ) (m n : ℤ) :
    headingAccuracy (p + m * (2 * Real.pi)) (g + n * (2 * Real.pi)) = headingAccuracy p g := by
  unfold headingAccuracy
  rw [normalizeAngle_congr, normalizeAngle_congr]

/-- C31: rotating both headings does not matter. -/
theorem headingAccuracy_rotate (p g a : ℝ) : headingAccuracy (p + a) (g + a) = headingAccuracy p g := by
  obtain ⟨d, hd, k, h⟩ := exists_diff p g
  rw [headingAccuracy_of_diff p g d hd k h, headingAccuracy_of_diff _ _ d hd k (by linarith)]

/-- C31: accuracy 1 exactly for equal directions. -/
theorem headingAccuracy_eq_one (p g : ℝ) :
    headingAccuracy p g = 1 ↔ ∃ k : ℤ, p - g = k * (2 * Real.pi) := by
  constructor
  · obtain ⟨d, hd, k, h⟩ := exists_diff p g
    rw [headingAccuracy_of_diff p g d hd k h]
    intro h1
    have : |d| / Real.pi = 0 := by linarith
    rcases div_eq_zero_iff.mp this with h2 | h2
    · exact ⟨k, by rw [h, abs_eq_zero.mp h2, zero_add]⟩
    · exact absurd h2 Real.pi_ne_zero
  · rintro ⟨k, h⟩
    rw [headingAccuracy_of_diff p g 0 (by simpa using Real.pi_pos.le) k (by linarith)]
    simp

/-- C31: accuracy 0 exactly for opposite directions. -/
theorem headingAccuracy_eq_zero (p g : ℝ) :
    headingAccuracy p g = 0 ↔ ∃ k : ℤ, p - g = Real.pi + k * (2 * Real.pi) := by
  constructor
  · obtain ⟨d, hd, k, h⟩ := exists_diff p g
    rw [headingAccuracy_of_diff p g d hd k h]
    intro h1
    have h2 : |d| / Real.pi = 1 := by linarith
    rw [div_eq_one_iff_eq Real.pi_ne_zero] at h2
    rcases abs_eq Real.pi_pos.le |>.mp h2 with h3 | h3
    · exact ⟨k, by rw [h, h3]⟩
    · exact ⟨k - 1, by rw [h, h3]; push_cast; ring⟩
  · rintro ⟨k, h⟩
    rw [headingAccuracy_of_diff p g Real.pi (by rw [abs_of_pos Real.pi_pos]) k h, abs_of_pos Real.pi_pos,
      div_self Real.pi_ne_zero, sub_self]

/-- A quarter turn, with an additional full turn. -/
example : headingAccuracy (5 * Real.pi / 2) 0 = 1 / 2 := by
  rw [headingAccuracy_of_diff _ _ (Real.pi / 2) (by rw [abs_of_pos (by linarith [Real.pi_pos])]; linarith [Real.pi_pos])
    1 (by push_cast; ring), abs_of_pos (by linarith [Real.pi_pos])]
  have := Real.pi_ne_zero
  field_simp
  norm_num

end Verif.Angles
