import Verif.Model.Common
import Mathlib.Tactic.Linarith
import Mathlib.Tactic.FieldSimp
import Mathlib.Tactic.Ring
import Mathlib.Tactic.NormNum
import Mathlib.Tactic.Positivity
import Mathlib.Algebra.Order.Floor.Ring

namespace Verif

theorem roundHalfEven_abs_le (x : ℚ) : |x - roundHalfEven x| ≤ 1 / 2 := by
  unfold roundHalfEven
  have h1 := Int.floor_le x
  have h2 := Int.lt_floor_add_one x
  simp only
  rw [abs_le]
  split_ifs <;> push_cast <;> constructor <;> linarith

/-- Characterisation of round half to even. -/
theorem roundHalfEven_intCast (k : ℤ) : roundHalfEven (k : ℚ) = k := by
  unfold roundHalfEven
  simp

theorem roundHalfAway_abs_le (x : ℚ) : |x - roundHalfAway x| ≤ 1 / 2 := by
  unfold roundHalfAway
  split_ifs with h
  · have h1 := Int.floor_le (x + 1/2)
    have h2 := Int.lt_floor_add_one (x + 1/2)
    rw [abs_le]; constructor <;> linarith
  · have h1 := Int.floor_le (-x + 1/2)
    have h2 := Int.lt_floor_add_one (-x + 1/2)
    rw [abs_le]; push_cast; constructor <;> linarith

theorem toF32_abs_le (q : ℚ) : |q - toF32 q| ≤ |q| / 2 ^ 24 := by
  unfold toF32
  split_ifs with h
  · subst h; simp
  · simp only
    set e := Int.log 2 |q| with he
    have hq : 0 < |q| := abs_pos.mpr h
    have hu : (0 : ℚ) < (2 : ℚ) ^ (e - 23) := zpow_pos (by norm_num) _
    have hle : ((2 : ℕ) : ℚ) ^ e ≤ |q| := Int.zpow_log_le_self (by norm_num) hq
    have hr := roundHalfEven_abs_le (q / (2 : ℚ) ^ (e - 23))
    set k := roundHalfEven (q / (2 : ℚ) ^ (e - 23))
    have : q - k * (2 : ℚ) ^ (e - 23) = (q / (2 : ℚ) ^ (e - 23) - k) * (2 : ℚ) ^ (e - 23) := by
      field_simp
    rw [this, abs_mul, abs_of_pos hu]
    have h3 : (2 : ℚ) ^ (e - 23) = (2 : ℚ) ^ e / 2 ^ 23 := by
      rw [zpow_sub₀ (by norm_num)]; norm_num
    have h4 : (2:ℚ) ^ e ≤ |q| := by simpa using hle
    calc |q / (2 : ℚ) ^ (e - 23) - k| * (2 : ℚ) ^ (e - 23)
        ≤ 1 / 2 * (2 : ℚ) ^ (e - 23) := by
          apply mul_le_mul_of_nonneg_right hr hu.le
      _ = (2:ℚ) ^ e / 2 ^ 24 := by rw [h3]; ring
      _ ≤ |q| / 2 ^ 24 := by
          apply div_le_div_of_nonneg_right h4 (by positivity)

end Verif
