import Verif.Model.ExactFloat
import Mathlib.NumberTheory.Padics.PadicVal.Basic
import Mathlib.Tactic.Linarith
import Mathlib.Tactic.Ring
import Mathlib.Tactic.FieldSimp
import Mathlib.Tactic.Positivity
import Mathlib.Tactic.NormNum

/-!
Bits of natural numbers and powers of two.
-/

namespace Verif.ExactFloat

theorem lt_pow_numBits (n : ℕ) : n < 2 ^ numBits n := Nat.lt_size_self n

theorem numBits_pos {n : ℕ} (h : n ≠ 0) : 0 < numBits n := Nat.size_pos.mpr (Nat.pos_of_ne_zero h)

theorem pow_le_of_numBits {n : ℕ} (h : n ≠ 0) : 2 ^ (numBits n - 1) ≤ n := by
  have h1 := numBits_pos h
  exact Nat.lt_size.mp (by unfold numBits at *; omega)

theorem numBits_le_iff {n k : ℕ} : numBits n ≤ k ↔ n < 2 ^ k := Nat.size_le

theorem numBits_mul_pow {n : ℕ} (h : n ≠ 0) (k : ℕ) : numBits (n * 2 ^ k) = numBits n + k := by
  unfold numBits
  rw [← Nat.shiftLeft_eq, Nat.size_shiftLeft h]

theorem lowZeros_spec {n : ℕ} (h : n ≠ 0) (k : ℕ) : 2 ^ k ∣ n ↔ k ≤ lowZeros n := by
  unfold lowZeros
  rw [if_neg h]
  haveI : Fact (Nat.Prime 2) := ⟨Nat.prime_two⟩
  rw [padicValNat_dvd_iff_le h]

theorem lowZeros_odd {n : ℕ} (h : n ≠ 0) : n / 2 ^ lowZeros n % 2 = 1 ∧ n / 2 ^ lowZeros n * 2 ^ lowZeros n = n := by
  have h1 : 2 ^ lowZeros n ∣ n := (lowZeros_spec h _).mpr le_rfl
  have hz := lowZeros_spec h
  generalize lowZeros n = z at h1 hz ⊢
  obtain ⟨m, hm⟩ := h1
  have hp : 0 < 2 ^ z := by positivity
  have hd : n / 2 ^ z = m := by
    rw [hm]
    exact Nat.mul_div_cancel_left m hp
  refine ⟨?_, by rw [hd, mul_comm]; exact hm.symm⟩
  rw [hd]
  by_contra g
  have g2 : m % 2 = 0 := by omega
  obtain ⟨q, hq⟩ := Nat.dvd_of_mod_eq_zero g2
  have : 2 ^ (z + 1) ∣ n := ⟨q, by rw [hm, hq]; ring⟩
  have := (hz _).mp this
  omega

/-- Two odd numbers times powers of two are equal only if both parts are. -/
theorem odd_pow_unique {m n : ℕ} {e f : ℤ} (hm : m % 2 = 1) (hn : n % 2 = 1) (h : (m : ℚ) * 2 ^ e = n * 2 ^ f) : m = n ∧ e = f := by
  have key : ∀ {m n : ℕ} {e f : ℤ}, m % 2 = 1 → n % 2 = 1 → e ≤ f → (m : ℚ) * 2 ^ e = n * 2 ^ f → m = n ∧ e = f := by
    intro m n e f hm hn hef h
    obtain ⟨k, rfl⟩ : ∃ k : ℕ, f = e + k := ⟨(f - e).toNat, by omega⟩
    rw [zpow_add₀ (by norm_num), zpow_natCast] at h
    have hp : (2 : ℚ) ^ e ≠ 0 := by positivity
    have h2 : (m : ℚ) = n * 2 ^ k := mul_right_cancel₀ hp (by linarith)
    have h3 : m = n * 2 ^ k := by exact_mod_cast h2
    cases k with
    | zero => exact ⟨by simpa using h3, by simp⟩
    | succ k =>
      exfalso
      rw [pow_succ, ← mul_assoc] at h3
      omega
  rcases le_total e f with g | g
  · exact key hm hn g h
  · obtain ⟨a, b⟩ := key hn hm g h.symm
    exact ⟨a.symm, b.symm⟩

/-- The number of bits of a mantissa gives the size of the number. -/
theorem mant_lt {n : ℕ} (e : ℤ) : (n : ℚ) * 2 ^ e < 2 ^ (e + numBits n) := by
  have h : (n : ℚ) < 2 ^ numBits n := by exact_mod_cast lt_pow_numBits n
  rw [zpow_add₀ (by norm_num), zpow_natCast, mul_comm]
  exact mul_lt_mul_of_pos_left h (by positivity)

theorem mant_ge {n : ℕ} (h0 : n ≠ 0) (e : ℤ) : (2 : ℚ) ^ (e + numBits n - 1) ≤ n * 2 ^ e := by
  have h : (2 : ℚ) ^ (numBits n - 1) ≤ n := by exact_mod_cast pow_le_of_numBits h0
  have h1 := numBits_pos h0
  rw [show e + (numBits n : ℤ) - 1 = e + ((numBits n - 1 : ℕ) : ℤ) by omega, zpow_add₀ (by norm_num), zpow_natCast, mul_comm]
  exact mul_le_mul_of_nonneg_right h (by positivity)

theorem pow_lt_pow_iff {e f : ℤ} : (2 : ℚ) ^ e < 2 ^ f ↔ e < f := zpow_lt_zpow_iff_right₀ (by norm_num)

theorem pow_le_pow_iff {e f : ℤ} : (2 : ℚ) ^ e ≤ 2 ^ f ↔ e ≤ f := zpow_le_zpow_iff_right₀ (by norm_num)

end Verif.ExactFloat
