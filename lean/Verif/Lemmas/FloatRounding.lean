import Verif.Model.AccSum
import Mathlib.Tactic.Linarith
import Mathlib.Tactic.Ring
import Mathlib.Tactic.FieldSimp
import Mathlib.Tactic.NormNum
import Mathlib.Tactic.Positivity

/-!
Rounding to the nearest floating point number: numbers on a grid, exact results and errors.
-/

namespace Verif.AccSum

/-- A multiple of a power of two. -/
def Grid (j : ℤ) (x : ℝ) : Prop := ∃ m : ℤ, x = m * 2 ^ j

theorem two_zpow_pos (j : ℤ) : (0 : ℝ) < 2 ^ j := zpow_pos (by norm_num) j

theorem zpow_split {i j : ℤ} : (2 : ℝ) ^ (i + j) = 2 ^ i * 2 ^ j := zpow_add₀ (by norm_num) i j

theorem zpow_mono {i j : ℤ} (h : i ≤ j) : (2 : ℝ) ^ i ≤ 2 ^ j := zpow_le_zpow_right₀ (by norm_num) h

theorem zpow_lt {i j : ℤ} : (2 : ℝ) ^ i < 2 ^ j ↔ i < j := zpow_lt_zpow_iff_right₀ (by norm_num)

theorem zpow_le' {i j : ℤ} : (2 : ℝ) ^ i ≤ 2 ^ j ↔ i ≤ j := zpow_le_zpow_iff_right₀ (by norm_num)

theorem Grid.mono {i j : ℤ} {x : ℝ} (h : Grid j x) (hij : i ≤ j) : Grid i x := by
  obtain ⟨m, rfl⟩ := h
  obtain ⟨n, hn⟩ := Int.eq_ofNat_of_zero_le (show 0 ≤ j - i by omega)
  refine ⟨m * 2 ^ n, ?_⟩
  rw [show j = n + i by omega, zpow_split]
  push_cast
  rw [zpow_natCast]
  ring

theorem Grid.zero (j : ℤ) : Grid j 0 := ⟨0, by simp⟩

theorem Grid.add {j : ℤ} {x y : ℝ} (hx : Grid j x) (hy : Grid j y) : Grid j (x + y) := by
  obtain ⟨m, rfl⟩ := hx
  obtain ⟨n, rfl⟩ := hy
  exact ⟨m + n, by push_cast; ring⟩

theorem Grid.neg {j : ℤ} {x : ℝ} (hx : Grid j x) : Grid j (-x) := by
  obtain ⟨m, rfl⟩ := hx
  exact ⟨-m, by push_cast; ring⟩

theorem Grid.sub {j : ℤ} {x y : ℝ} (hx : Grid j x) (hy : Grid j y) : Grid j (x - y) := by
  rw [sub_eq_add_neg]
  exact hx.add hy.neg

theorem grid_pow {i j : ℤ} (h : i ≤ j) : Grid i (2 ^ j) := Grid.mono ⟨1, by simp⟩ h

/-- A multiple of a power of two other than zero is at least that power. -/
theorem Grid.ge {j : ℤ} {x : ℝ} (h : Grid j x) (h0 : x ≠ 0) : 2 ^ j ≤ |x| := by
  obtain ⟨m, rfl⟩ := h
  have m0 : m ≠ 0 := by
    rintro rfl
    exact h0 (by simp)
  have : (1 : ℝ) ≤ |(m : ℝ)| := by exact_mod_cast Int.one_le_abs m0
  rw [abs_mul, abs_of_pos (two_zpow_pos j)]
  have := mul_le_mul_of_nonneg_right this (two_zpow_pos j).le
  linarith

theorem float_of_grid {j : ℤ} {x : ℝ} (hj : -1074 ≤ j) (h : Grid j x) (hb : |x| ≤ 2 ^ (j + 53)) : IsFloat x := by
  obtain ⟨m, rfl⟩ := h
  rw [abs_mul, abs_of_pos (two_zpow_pos j), add_comm, zpow_split] at hb
  have hm : |(m : ℝ)| ≤ 2 ^ (53 : ℤ) := le_of_mul_le_mul_right hb (two_zpow_pos j)
  have hm' : |m| ≤ 2 ^ 53 := by
    have e : (2 : ℝ) ^ (53 : ℤ) = ((2 ^ 53 : ℤ) : ℝ) := by norm_num
    rw [e, ← Int.cast_abs] at hm
    exact Int.cast_le.mp hm
  rcases lt_or_eq_of_le hm' with h | h
  · exact ⟨m, j, h, hj, rfl⟩
  · rcases (abs_eq (by norm_num : (0 : ℤ) ≤ 2 ^ 53)).mp h with rfl | rfl
    · refine ⟨2 ^ 52, j + 1, by norm_num, by omega, ?_⟩
      rw [zpow_split]
      push_cast
      rw [zpow_one]
      ring
    · refine ⟨-2 ^ 52, j + 1, by norm_num, by omega, ?_⟩
      rw [zpow_split]
      push_cast
      rw [zpow_one]
      ring

theorem float_grid {x : ℝ} (h : IsFloat x) : Grid (-1074) x := by
  obtain ⟨m, e, -, he, rfl⟩ := h
  exact Grid.mono ⟨m, rfl⟩ he

theorem grid_of_float {x : ℝ} {i : ℤ} (h : IsFloat x) (hi : 2 ^ i ≤ |x|) : Grid (max (i - 52) (-1074)) x := by
  obtain ⟨m, e, hm, he, rfl⟩ := h
  refine Grid.mono ⟨m, rfl⟩ ?_
  rw [abs_mul, abs_of_pos (two_zpow_pos e)] at hi
  have hm' : |(m : ℝ)| < 2 ^ (53 : ℤ) := by
    have e : (2 : ℝ) ^ (53 : ℤ) = ((2 ^ 53 : ℤ) : ℝ) := by norm_num
    rw [e, ← Int.cast_abs]
    exact Int.cast_lt.mpr hm
  have := hi.trans_lt (mul_lt_mul_of_pos_right hm' (two_zpow_pos e))
  rw [← zpow_split, zpow_lt] at this
  omega

theorem float_pow {k : ℤ} (h : -1074 ≤ k) : IsFloat (2 ^ k) :=
  float_of_grid h (grid_pow le_rfl) (by rw [abs_of_pos (two_zpow_pos k)]; exact zpow_mono (by omega))

theorem float_zero : IsFloat 0 := ⟨0, 0, by norm_num, by norm_num, by simp⟩

theorem float_neg {x : ℝ} (h : IsFloat x) : IsFloat (-x) := by
  obtain ⟨m, e, hm, he, rfl⟩ := h
  exact ⟨-m, e, by rw [abs_neg]; exact hm, he, by push_cast; ring⟩

section
variable {rn : ℝ → ℝ} (hr : Rounding rn)
include hr

theorem rn_exact {x : ℝ} (h : IsFloat x) : rn x = x := by
  have := hr.nearest x x h
  rw [sub_self, abs_zero] at this
  linarith [abs_eq_zero.mp (le_antisymm this (abs_nonneg _))]

theorem rn_zero : rn 0 = 0 := rn_exact hr float_zero

theorem rn_le {x y : ℝ} (hy : IsFloat y) (h : x ≤ y) : rn x ≤ y := by
  by_contra g
  push Not at g
  have := hr.nearest x y hy
  rw [abs_of_pos (by linarith), abs_of_nonneg (by linarith)] at this
  linarith

theorem le_rn {x y : ℝ} (hy : IsFloat y) (h : y ≤ x) : y ≤ rn x := by
  by_contra g
  push Not at g
  have := hr.nearest x y hy
  rw [abs_of_neg (by linarith), abs_of_nonpos (by linarith)] at this
  linarith

theorem abs_rn_le {x y : ℝ} (hy : IsFloat y) (h : |x| ≤ y) : |rn x| ≤ y := by
  obtain ⟨h1, h2⟩ := abs_le.mp h
  exact abs_le.mpr ⟨le_rn hr (float_neg hy) h1, rn_le hr hy h2⟩

theorem le_abs_rn {x y : ℝ} (hy : IsFloat y) (h : y ≤ |x|) : y ≤ |rn x| := by
  rcases le_total 0 x with h0 | h0
  · rw [abs_of_nonneg h0] at h
    exact (le_rn hr hy h).trans (le_abs_self _)
  · rw [abs_of_nonpos h0] at h
    have := rn_le hr (float_neg hy) (show x ≤ -y by linarith)
    exact (show y ≤ -rn x by linarith).trans (neg_le_abs _)

/-- Rounding keeps the order. -/
theorem rn_mono {x y : ℝ} (h : x ≤ y) : rn x ≤ rn y := by
  by_contra g
  push Not at g
  have h1 : rn y < x := by
    by_contra h1
    push Not at h1
    have := rn_le hr (hr.float y) h1
    linarith
  have h2 : y < rn x := by
    by_contra h2
    push Not at h2
    have := le_rn hr (hr.float x) h2
    linarith
  have a := hr.nearest x _ (hr.float y)
  have b := hr.nearest y _ (hr.float x)
  rw [abs_of_nonneg (by linarith), abs_of_neg (by linarith)] at a
  rw [abs_of_neg (by linarith), abs_of_pos (by linarith)] at b
  rcases lt_or_eq_of_le h with c | c
  · linarith
  · rw [c] at g
    exact lt_irrefl _ g

/-- The error of a rounding that does not underflow. -/
theorem rn_rel {x : ℝ} (h : Grid (-1074) x) : |rn x - x| ≤ 2 ^ (-53 : ℤ) * |x| := by
  by_cases h0 : x = 0
  · subst h0
    rw [rn_zero hr]
    simp
  · have ax : 0 < |x| := abs_pos.mpr h0
    set i := Int.log 2 |x| with hi
    have l1 : (2 : ℝ) ^ i ≤ |x| := by
      have := Int.zpow_log_le_self (b := 2) (r := |x|) (by norm_num) ax
      exact_mod_cast this
    have l2 : |x| < (2 : ℝ) ^ (i + 1) := by
      have := Int.lt_zpow_succ_log_self (b := 2) (by norm_num) |x|
      exact_mod_cast this
    rcases le_or_gt (i - 52) (-1074) with c | c
    · rw [rn_exact hr (float_of_grid le_rfl h (l2.le.trans (zpow_mono (by omega)))), sub_self, abs_zero]
      positivity
    · set j := i - 52 with hj
      set m := round (x / 2 ^ j) with hm
      have pj := two_zpow_pos j
      have e1 : |x / 2 ^ j - m| ≤ 1 / 2 := abs_sub_round _
      have fl : IsFloat (m * 2 ^ j) := by
        refine float_of_grid (by omega) ⟨m, rfl⟩ ?_
        rw [abs_mul, abs_of_pos pj, add_comm j, zpow_split]
        refine mul_le_mul_of_nonneg_right ?_ pj.le
        have b : |x / 2 ^ j| < 2 ^ (53 : ℤ) := by
          rw [abs_div, abs_of_pos pj, div_lt_iff₀ pj, ← zpow_split]
          rwa [show (53 : ℤ) + j = i + 1 by omega]
        have b' : (2 : ℝ) ^ (53 : ℤ) = ((2 ^ 53 : ℤ) : ℝ) := by norm_num
        rw [b'] at b ⊢
        have c1 : |(m : ℝ)| < ((2 ^ 53 : ℤ) : ℝ) + 1 := by
          have := abs_le.mp e1
          have := abs_lt.mp b
          rw [abs_lt]
          constructor <;> linarith
        have c2 : |m| < 2 ^ 53 + 1 := by
          rw [← Int.cast_abs] at c1
          exact_mod_cast c1
        have c3 : |m| ≤ 2 ^ 53 := by omega
        have : ((|m| : ℤ) : ℝ) ≤ ((2 ^ 53 : ℤ) : ℝ) := by exact_mod_cast c3
        push_cast at this ⊢
        exact this
      refine (hr.nearest x _ fl).trans ?_
      have e2 : (m : ℝ) * 2 ^ j - x = -(x / 2 ^ j - m) * 2 ^ j := by field_simp; ring
      rw [e2, abs_mul, abs_neg, abs_of_pos pj]
      have e3 : (2 : ℝ) ^ (-53 : ℤ) * 2 ^ i = 1 / 2 * 2 ^ j := by
        rw [← zpow_split, hj, show (-53 : ℤ) + i = -1 + (i - 52) by ring, zpow_split]
        norm_num
      have a1 := mul_le_mul_of_nonneg_right e1 pj.le
      have a2 := mul_le_mul_of_nonneg_left l1 (two_zpow_pos (-53)).le
      linarith

/-- Rounding the sum of two numbers does not lose the sign. -/
theorem rn_eq_zero {x : ℝ} (h : Grid (-1074) x) : rn x = 0 ↔ x = 0 := by
  constructor
  · intro g
    by_contra h0
    have := le_abs_rn hr (float_pow (k := -1074) le_rfl) (h.ge h0)
    rw [g, abs_zero] at this
    linarith [two_zpow_pos (-1074)]
  · rintro rfl
    exact rn_zero hr

end

/-! ## There is such a rounding -/

/-- The exponent of the last bit. -/
noncomputable def lastBit (x : ℝ) : ℤ := max (Int.log 2 |x| - 52) (-1074)

/-- Rounding to the nearest multiple of the last bit (ties up). -/
noncomputable def roundNearest (x : ℝ) : ℝ := round (x / 2 ^ lastBit x) * 2 ^ lastBit x

theorem roundNearest_spec : Rounding roundNearest := by
  have key : ∀ x, |x / 2 ^ lastBit x| ≤ 2 ^ (53 : ℤ) := by
    intro x
    by_cases h0 : x = 0
    · subst h0
      rw [zero_div, abs_zero]
      positivity
    · rw [abs_div, abs_of_pos (two_zpow_pos _), div_le_iff₀ (two_zpow_pos _), ← zpow_split]
      have := (Int.lt_zpow_succ_log_self (b := 2) (by norm_num) |x|).le
      have l2 : |x| ≤ (2 : ℝ) ^ (Int.log 2 |x| + 1) := by exact_mod_cast this
      refine l2.trans (zpow_mono ?_)
      unfold lastBit
      omega
  constructor
  · intro x
    unfold roundNearest
    refine float_of_grid (le_max_right _ _) ⟨_, rfl⟩ ?_
    rw [abs_mul, abs_of_pos (two_zpow_pos _), add_comm, zpow_split]
    refine mul_le_mul_of_nonneg_right ?_ (two_zpow_pos _).le
    have b' : (2 : ℝ) ^ (53 : ℤ) = ((2 ^ 53 : ℤ) : ℝ) := by norm_num
    have k := key x
    rw [b'] at k ⊢
    have e1 := abs_sub_round (x / 2 ^ lastBit x)
    set m := round (x / 2 ^ lastBit x)
    have c1 : |(m : ℝ)| < ((2 ^ 53 : ℤ) : ℝ) + 1 := by
      have := abs_le.mp e1
      have := abs_le.mp k
      rw [abs_lt]
      constructor <;> linarith
    have c2 : |m| < 2 ^ 53 + 1 := by
      rw [← Int.cast_abs] at c1
      exact_mod_cast c1
    have c3 : |m| ≤ 2 ^ 53 := by omega
    have : ((|m| : ℤ) : ℝ) ≤ ((2 ^ 53 : ℤ) : ℝ) := by exact_mod_cast c3
    push_cast at this ⊢
    exact this
  · intro x y hy
    unfold roundNearest
    set j := lastBit x with hj
    have pj := two_zpow_pos j
    have e2 : ((round (x / 2 ^ j) : ℤ) : ℝ) * 2 ^ j - x = -(x / 2 ^ j - round (x / 2 ^ j)) * 2 ^ j := by field_simp; ring
    have hup : |((round (x / 2 ^ j) : ℤ) : ℝ) * 2 ^ j - x| ≤ 1 / 2 * 2 ^ j := by
      rw [e2, abs_mul, abs_neg, abs_of_pos pj]
      exact mul_le_mul_of_nonneg_right (abs_sub_round _) pj.le
    -- numbers on the grid are not nearer
    have ongrid : ∀ z, Grid j z → |((round (x / 2 ^ j) : ℤ) : ℝ) * 2 ^ j - x| ≤ |z - x| := by
      rintro z ⟨n, rfl⟩
      have := round_le (x / 2 ^ j) n
      rw [e2, abs_mul, abs_neg, abs_of_pos pj, show (n : ℝ) * 2 ^ j - x = -(x / 2 ^ j - n) * 2 ^ j by field_simp; ring, abs_mul, abs_neg, abs_of_pos pj]
      exact mul_le_mul_of_nonneg_right this pj.le
    by_cases h0 : x = 0
    · subst h0
      simp
    have ax : 0 < |x| := abs_pos.mpr h0
    have l1 : (2 : ℝ) ^ Int.log 2 |x| ≤ |x| := by
      have := Int.zpow_log_le_self (b := 2) (r := |x|) (by norm_num) ax
      exact_mod_cast this
    set i := Int.log 2 |x| with hi
    by_cases hz : (2 : ℝ) ^ i ≤ |y|
    · exact ongrid y (grid_of_float hy hz)
    · push Not at hz
      rcases le_or_gt (i - 52) (-1074) with c | c
      · refine ongrid y ?_
        have : j = -1074 := by rw [hj]; unfold lastBit; omega
        rw [this]
        exact float_grid hy
      · have j' : j = i - 52 := by rw [hj]; unfold lastBit; omega
        -- the power of two between is on the grid and nearer
        rcases lt_or_gt_of_ne h0 with s | s
        · rw [abs_of_neg s] at l1
          refine (ongrid (-2 ^ i) (grid_pow (by omega)).neg).trans ?_
          have := (abs_lt.mp hz).1
          rw [abs_of_nonneg (by linarith), abs_of_nonneg (by linarith)]
          linarith
        · rw [abs_of_pos s] at l1
          refine (ongrid (2 ^ i) (grid_pow (by omega))).trans ?_
          have := (abs_lt.mp hz).2
          rw [abs_of_nonpos (by linarith), abs_of_nonpos (by linarith)]
          linarith

/-- The assumption on the logarithm can be met. -/
theorem clog_next : Next (fun d => Int.clog 2 d) := by
  intro d hd
  have h1 : d ≤ (2 : ℝ) ^ Int.clog 2 d := by
    have := Int.self_le_zpow_clog (b := 2) (by norm_num) d
    exact_mod_cast this
  have h2 : (2 : ℝ) ^ (Int.clog 2 d - 1) < d := by
    have := Int.zpow_pred_clog_lt_self (b := 2) (r := d) (by norm_num) hd
    exact_mod_cast this
  have e : (2 : ℝ) ^ Int.clog 2 d = 2 * 2 ^ (Int.clog 2 d - 1) := by
    rw [zpow_sub₀ (by norm_num), zpow_one]
    ring
  constructor
  · have := two_zpow_pos (Int.clog 2 d)
    linarith
  · rw [e]
    linarith

end Verif.AccSum
