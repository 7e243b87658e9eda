import Verif.Model.ExactFloatString
import Verif.Props.ExactFloatExp
import Mathlib.Data.Nat.Digits.Lemmas

/-!
C109: decimal strings of exact numbers.
-/

namespace Verif.ExactFloat

open EF

/-! ## Digits -/

theorem incDigits_val (l : List ℕ) (h : ∀ d ∈ l, d < 10) : Nat.ofDigits 10 (incDigits l) = Nat.ofDigits 10 l + 1 ∧ (∀ d ∈ incDigits l, d < 10) ∧
    l.length ≤ (incDigits l).length := by
  induction l with
  | nil => exact ⟨by simp [incDigits], by simp [incDigits], by simp [incDigits]⟩
  | cons d ds ih =>
    obtain ⟨i1, i2, i3⟩ := ih (fun x hx => h x (List.mem_cons_of_mem _ hx))
    have hd := h d List.mem_cons_self
    unfold incDigits
    split_ifs with g
    · refine ⟨by simp only [Nat.ofDigits_cons]; omega, ?_, by simp⟩
      intro x hx
      rcases List.mem_cons.mp hx with rfl | hx
      · omega
      · exact h x (List.mem_cons_of_mem _ hx)
    · refine ⟨?_, ?_, by simpa using i3⟩
      · simp only [Nat.ofDigits_cons, i1]
        omega
      · intro x hx
        rcases List.mem_cons.mp hx with rfl | hx
        · norm_num
        · exact i2 x hx

theorem strip_val (l : List ℕ) : Nat.ofDigits 10 l = 10 ^ (l.length - (strip l).length) * Nat.ofDigits 10 (strip l) ∧ (strip l).length ≤ l.length ∧
    ∀ d ∈ strip l, d ∈ l := by
  induction l with
  | nil => simp [strip]
  | cons d ds ih =>
    obtain ⟨i1, i2, i3⟩ := ih
    by_cases g : d = 0
    · have e : strip (d :: ds) = strip ds := by unfold strip; rw [List.dropWhile_cons_of_pos (by simpa using g)]
      rw [e]
      refine ⟨?_, by simp; omega, fun x hx => List.mem_cons_of_mem _ (i3 x hx)⟩
      rw [Nat.ofDigits_cons, g, i1, List.length_cons, show ds.length + 1 - (strip ds).length = ds.length - (strip ds).length + 1 by omega, pow_succ]
      push_cast
      ring
    · have e : strip (d :: ds) = d :: ds := by unfold strip; rw [List.dropWhile_cons_of_neg (by simpa using g)]
      rw [e]
      exact ⟨by simp, le_rfl, fun _ hx => hx⟩

theorem ofDigits_eq_zero {l : List ℕ} : Nat.ofDigits 10 l = 0 ↔ ∀ d ∈ l, d = 0 := by
  induction l with
  | nil => simp
  | cons d ds ih =>
    rw [Nat.ofDigits_cons]
    simp only [List.mem_cons, forall_eq_or_imp]
    rw [← ih]
    push_cast
    omega

/-- The rounding of the digits of a number: the kept part, the first digit dropped, the rest. -/
theorem roundDigits_spec (n M : ℕ) (hn : n ≠ 0) (hM : 1 ≤ M) :
    (∀ d ∈ (roundDigits M (Nat.digits 10 n)).1, d < 10) ∧
    ((Nat.digits 10 n).length ≤ M → roundDigits M (Nat.digits 10 n) = (Nat.digits 10 n, 0)) ∧
    (M < (Nat.digits 10 n).length → ∃ t K h r P : ℕ, t = (Nat.digits 10 n).length - M ∧ P = 10 ^ (t - 1) ∧ 10 ^ t = 10 * P ∧ n = (10 * K + h) * P + r ∧
      h < 10 ∧ r < P ∧ 10 ^ (M - 1) ≤ K ∧ (roundDigits M (Nat.digits 10 n)).2 = t ∧
      Nat.ofDigits 10 (roundDigits M (Nat.digits 10 n)).1 = K + if 5 ≤ h ∧ (K % 2 = 1 ∨ r ≠ 0) then 1 else 0) := by
  have hdig : ∀ d ∈ Nat.digits 10 n, d < 10 := fun d hd => Nat.digits_lt_base (by norm_num) hd
  by_cases hl : (Nat.digits 10 n).length ≤ M
  · have e : roundDigits M (Nat.digits 10 n) = (Nat.digits 10 n, 0) := by unfold roundDigits; rw [if_pos hl]
    rw [e]
    exact ⟨hdig, fun _ => rfl, fun g => by omega⟩
  set t := (Nat.digits 10 n).length - M with ht
  have hkd : ∀ d ∈ (Nat.digits 10 n).drop t, d < 10 := fun d hd => hdig d (List.mem_of_mem_drop hd)
  obtain ⟨i1, i2, -⟩ := incDigits_val _ hkd
  have e : roundDigits M (Nat.digits 10 n) = if 5 ≤ (Nat.digits 10 n).getD (t - 1) 0 ∧ ((Nat.digits 10 n).getD t 0 % 2 = 1 ∨
      ((Nat.digits 10 n).take (t - 1)).any (fun d => d != 0) = true) then (incDigits ((Nat.digits 10 n).drop t), t) else ((Nat.digits 10 n).drop t, t) := by
    unfold roundDigits
    rw [if_neg hl]
  have hK : Nat.ofDigits 10 ((Nat.digits 10 n).drop t) = n / 10 ^ t := (Nat.self_div_pow_eq_ofDigits_drop t n (by norm_num)).symm
  refine ⟨?_, fun g => absurd g hl, fun _ => ⟨t, n / 10 ^ t, n / 10 ^ (t - 1) % 10, n % 10 ^ (t - 1), 10 ^ (t - 1), rfl, rfl, ?_, ?_, ?_, ?_, ?_, ?_, ?_⟩⟩
  · rw [e]
    split_ifs
    · exact i2
    · exact hkd
  · rw [← pow_succ', show t - 1 + 1 = t by omega]
  · have h1 : n / 10 ^ t = n / 10 ^ (t - 1) / 10 := by rw [Nat.div_div_eq_div_mul, ← pow_succ, show t - 1 + 1 = t by omega]
    rw [h1, Nat.div_add_mod, mul_comm, Nat.div_add_mod]
  · exact Nat.mod_lt _ (by norm_num)
  · exact Nat.mod_lt _ (by positivity)
  · rw [Nat.le_div_iff_mul_le (by positivity), ← pow_add]
    have := Nat.base_pow_length_digits_le 10 n (by norm_num) hn
    have e2 : (Nat.digits 10 n).length = M - 1 + t + 1 := by omega
    rw [e2, pow_succ, mul_comm] at this
    omega
  · rw [e]
    split_ifs <;> rfl
  · rw [e]
    have c1 : (Nat.digits 10 n).getD (t - 1) 0 = n / 10 ^ (t - 1) % 10 := Nat.getD_digits _ _ (by norm_num)
    have c2 : (Nat.digits 10 n).getD t 0 % 2 = n / 10 ^ t % 2 := by
      rw [Nat.getD_digits _ _ (by norm_num)]
      omega
    have c3 : ((Nat.digits 10 n).take (t - 1)).any (fun d => d != 0) = true ↔ n % 10 ^ (t - 1) ≠ 0 := by
      rw [Nat.self_mod_pow_eq_ofDigits_take (t - 1) n (by norm_num), ne_eq, ofDigits_eq_zero]
      simp
    simp only [c1, c2, c3]
    split_ifs
    · rw [i1, hK]
    · rw [hK, add_zero]

/-! ## Decimal form -/

/-- The value of a list of digits after the decimal point, most significant first, times a power of ten. -/
def decVal (d : List ℕ × ℤ) : ℚ := (Nat.ofDigits 10 d.1.reverse : ℕ) * 10 ^ (d.2 - d.1.length)

theorem decimal_val {a : EF} : a.mag = a.decimal.1 * 10 ^ a.decimal.2 := by
  unfold decimal mag
  split_ifs with h
  · have := shift_mant (q := a.bn) (k := a.exp.toNat) rfl 0
    rw [show 0 + (a.exp.toNat : ℤ) = a.exp by omega, zpow_zero, mul_one] at this
    rw [this]
    simp
  · push_cast
    obtain ⟨k, hk⟩ : ∃ k : ℕ, a.exp = -(k : ℤ) := ⟨(-a.exp).toNat, by omega⟩
    rw [hk, show (- -(k : ℤ)).toNat = k by omega, zpow_neg, zpow_neg, zpow_natCast, zpow_natCast]
    rw [show (10 : ℚ) = 5 * 2 by norm_num, mul_pow]
    field_simp

theorem decimal_ne {a : EF} (h : a.bn ≠ 0) : a.decimal.1 ≠ 0 := by
  unfold decimal
  split_ifs <;> positivity

/-- The decimal logarithm. -/
theorem log10_val {a : EF} (ca : Canon a) (h : a.bn ≠ 0) : Int.log 10 |a.val| = a.decimal.2 + (Nat.digits 10 a.decimal.1).length - 1 := by
  have h0 := decimal_ne h
  have hv : |a.val| = a.decimal.1 * 10 ^ a.decimal.2 := by rw [abs_val ca.sign, decimal_val]
  have hpos : 0 < |a.val| := by
    rw [hv]
    have : 0 < a.decimal.1 := Nat.pos_of_ne_zero h0
    positivity
  have h1 := Nat.base_pow_length_digits_le 10 _ (by norm_num) h0
  have h2 := Nat.lt_base_pow_length_digits (b := 10) (m := a.decimal.1) (by norm_num)
  have hl : 1 ≤ (Nat.digits 10 a.decimal.1).length := by
    rw [Nat.one_le_iff_ne_zero, ne_eq, List.length_eq_zero_iff, Nat.digits_eq_nil_iff_eq_zero]
    exact h0
  generalize (Nat.digits 10 a.decimal.1).length = L at *
  have p10 : (0 : ℚ) < 10 ^ a.decimal.2 := by positivity
  have g1 : (10 : ℚ) ^ (a.decimal.2 + L - 1) ≤ |a.val| := by
    rw [hv, show a.decimal.2 + (L : ℤ) - 1 = ((L - 1 : ℕ) : ℤ) + a.decimal.2 by omega, zpow_add₀ (by norm_num), zpow_natCast]
    refine mul_le_mul_of_nonneg_right ?_ p10.le
    have : 10 ^ (L - 1) ≤ a.decimal.1 := by
      obtain ⟨k, rfl⟩ : ∃ k, L = k + 1 := ⟨L - 1, by omega⟩
      rw [pow_succ] at h1
      simp only [Nat.add_sub_cancel]
      omega
    exact_mod_cast this
  have g2 : |a.val| < (10 : ℚ) ^ (a.decimal.2 + L) := by
    rw [hv, add_comm, zpow_add₀ (by norm_num), zpow_natCast]
    refine mul_lt_mul_of_pos_right ?_ p10
    exact_mod_cast h2
  have l1 := (Int.zpow_le_iff_le_log (b := 10) (by norm_num) hpos).mp (by exact_mod_cast g1)
  have l2 := (Int.lt_zpow_iff_log_lt (b := 10) (by norm_num) hpos).mp (by exact_mod_cast g2)
  omega

/-- The digits and the exponent give the rounded integer. -/
theorem decVal_digits (a : EF) (M : ℕ) :
    decVal (a.decimalDigits M) = (Nat.ofDigits 10 (roundDigits M (Nat.digits 10 a.decimal.1)).1 : ℕ) *
      10 ^ (a.decimal.2 + (roundDigits M (Nat.digits 10 a.decimal.1)).2) := by
  unfold decVal decimalDigits
  generalize roundDigits M (Nat.digits 10 a.decimal.1) = r
  obtain ⟨s1, s2, -⟩ := strip_val r.1
  simp only [List.reverse_reverse, List.length_reverse]
  rw [s1]
  push_cast
  rw [show a.decimal.2 + (r.2 : ℤ) + ((r.1.length - (strip r.1).length : ℕ) : ℤ) + ((strip r.1).length : ℤ) - ((strip r.1).length : ℤ) =
    ((r.1.length - (strip r.1).length : ℕ) : ℤ) + (a.decimal.2 + r.2) by ring, zpow_add₀ (by norm_num), zpow_natCast]
  ring

/-- Full statement: the decimal value is the nearest one with the requested number of digits, ties to even. -/
def DecimalStatement : Prop := ∀ (a : EF) (M : ℕ), Canon a → a.isNormal = true → 1 ≤ M →
  ∃ N : ℕ, Rounds .tiesToEven (|a.val| / 10 ^ (Int.log 10 |a.val| + 1 - M)) N ∧ decVal (a.decimalDigits M) = N * 10 ^ (Int.log 10 |a.val| + 1 - M)

/-- **The error of the decimal value is less than one unit of the last digit** (C109), and rounding keeps the number of digits. -/
theorem decimal_error {a : EF} (ca : Canon a) (na : a.isNormal = true) (M : ℕ) (hM : 1 ≤ M) :
    |decVal (a.decimalDigits M) - (|a.val|)| < 10 ^ (Int.log 10 |a.val| + 1 - M) ∧ 10 ^ (Int.log 10 |a.val|) ≤ decVal (a.decimalDigits M) := by
  have hb0 : a.bn ≠ 0 := by
    have := (normal_parts ca na).1
    omega
  have h0 := decimal_ne hb0
  have hlog := log10_val ca hb0
  have hv : |a.val| = a.decimal.1 * 10 ^ a.decimal.2 := by rw [abs_val ca.sign, decimal_val]
  have hpos : 0 < |a.val| := by
    rw [hv]
    have : 0 < a.decimal.1 := Nat.pos_of_ne_zero h0
    positivity
  rw [decVal_digits]
  obtain ⟨-, r2, r3⟩ := roundDigits_spec a.decimal.1 M h0 hM
  by_cases hl : (Nat.digits 10 a.decimal.1).length ≤ M
  · rw [r2 hl]
    simp only [Nat.cast_zero, add_zero, Nat.ofDigits_digits]
    rw [← hv, sub_self, abs_zero]
    exact ⟨by positivity, Int.zpow_log_le_self (by norm_num) hpos⟩
  obtain ⟨t, K, h, r, P, e1, e2, e3, e4, hh, hr, hK, e5, e6⟩ := r3 (by omega)
  rw [e5, e6, hlog, hv]
  rw [show a.decimal.2 + ((Nat.digits 10 a.decimal.1).length : ℤ) - 1 + 1 - (M : ℤ) = a.decimal.2 + t by omega,
    show a.decimal.2 + ((Nat.digits 10 a.decimal.1).length : ℤ) - 1 = ((M - 1 : ℕ) : ℤ) + (a.decimal.2 + t) by omega]
  have pt : (0 : ℚ) < 10 ^ (a.decimal.2 + (t : ℤ)) := by positivity
  have hP : (0 : ℚ) < P := by
    have : 0 < P := by omega
    exact_mod_cast this
  have hy : (a.decimal.1 : ℚ) * 10 ^ a.decimal.2 = (K + (h : ℚ) / 10 + (r : ℚ) / (10 * P)) * 10 ^ (a.decimal.2 + (t : ℤ)) := by
    rw [zpow_add₀ (by norm_num), zpow_natCast]
    have : (10 : ℚ) ^ t = 10 * P := by exact_mod_cast e3
    rw [this, e4]
    push_cast
    field_simp
  have w0 : (0 : ℚ) ≤ (r : ℚ) / (10 * P) := by positivity
  have w1 : (r : ℚ) / (10 * P) < 1 / 10 := by
    rw [div_lt_iff₀ (by positivity)]
    have : (r : ℚ) < P := by exact_mod_cast hr
    linarith
  have hh9 : (h : ℚ) ≤ 9 := by exact_mod_cast (by omega : h ≤ 9)
  have hh0 : (0 : ℚ) ≤ h := by positivity
  constructor
  · rw [hy, ← sub_mul, abs_mul, abs_of_pos pt]
    refine mul_lt_of_lt_one_left pt ?_
    rw [abs_lt]
    split_ifs with c
    · have : (5 : ℚ) ≤ h := by exact_mod_cast c.1
      push_cast
      constructor <;> linarith
    · push_cast
      constructor <;> linarith
  · rw [zpow_add₀ (by norm_num)]
    refine mul_le_mul_of_nonneg_right ?_ pt.le
    rw [zpow_natCast]
    have : 10 ^ (M - 1) ≤ K + if 5 ≤ h ∧ (K % 2 = 1 ∨ r ≠ 0) then 1 else 0 := le_trans hK (Nat.le_add_right _ _)
    exact_mod_cast this

/-- **The decimal value is the nearest one, ties to even** (C109), for numbers that are not integers, and for integers with few digits. -/
theorem decimal_nearest_partial {a : EF} (ca : Canon a) (na : a.isNormal = true) (M : ℕ) (hM : 1 ≤ M) (hi : a.exp < 0 ∨ |a.val| < 10 ^ M) :
    ∃ N : ℕ, Rounds .tiesToEven (|a.val| / 10 ^ (Int.log 10 |a.val| + 1 - M)) N ∧
      decVal (a.decimalDigits M) = N * 10 ^ (Int.log 10 |a.val| + 1 - M) := by
  have odd := (normal_parts ca na).1
  have hb0 : a.bn ≠ 0 := by omega
  have h0 := decimal_ne hb0
  have hlog := log10_val ca hb0
  have hv : |a.val| = a.decimal.1 * 10 ^ a.decimal.2 := by rw [abs_val ca.sign, decimal_val]
  rw [decVal_digits]
  obtain ⟨-, r2, r3⟩ := roundDigits_spec a.decimal.1 M h0 hM
  by_cases hl : (Nat.digits 10 a.decimal.1).length ≤ M
  · rw [r2 hl]
    simp only [Nat.cast_zero, add_zero, Nat.ofDigits_digits]
    rw [hlog]
    obtain ⟨k, hk⟩ : ∃ k : ℕ, a.decimal.2 = (k : ℤ) + (a.decimal.2 + ((Nat.digits 10 a.decimal.1).length : ℤ) - 1 + 1 - M) :=
      ⟨M - (Nat.digits 10 a.decimal.1).length, by omega⟩
    generalize a.decimal.2 + ((Nat.digits 10 a.decimal.1).length : ℤ) - 1 + 1 - M = D at hk ⊢
    have pD : (10 : ℚ) ^ D ≠ 0 := by positivity
    have ee : (a.decimal.1 : ℚ) * 10 ^ a.decimal.2 = ((a.decimal.1 * 10 ^ k : ℕ) : ℚ) * 10 ^ D := by
      rw [hk, zpow_add₀ (by norm_num), zpow_natCast]
      push_cast
      ring
    refine ⟨a.decimal.1 * 10 ^ k, ?_, ee⟩
    rw [hv, ee, mul_div_assoc, div_self pD, mul_one]
    exact Rounds.int _ _
  obtain ⟨t, K, h, r, P, e1, e2, e3, e4, hh, hr, hK, e5, e6⟩ := r3 (by omega)
  have hexp : a.exp < 0 := by
    rcases hi with g | g
    · exact g
    · by_contra c
      have hd2 : a.decimal.2 = 0 := by unfold decimal; rw [if_pos (by omega)]
      rw [hv, hd2, zpow_zero, mul_one] at g
      have g' : a.decimal.1 < 10 ^ M := by exact_mod_cast g
      have := (Nat.digits_length_le_iff (b := 10) (by norm_num) a.decimal.1 (k := M)).mpr g'
      exact hl this
  rw [e5, e6, hlog, hv]
  rw [show a.decimal.2 + ((Nat.digits 10 a.decimal.1).length : ℤ) - 1 + 1 - (M : ℤ) = a.decimal.2 + t by omega]
  have pt : (10 : ℚ) ^ (a.decimal.2 + (t : ℤ)) ≠ 0 := by positivity
  have hP0 : 0 < P := by omega
  have hP : (0 : ℚ) < P := by exact_mod_cast hP0
  have hy : (a.decimal.1 : ℚ) * 10 ^ a.decimal.2 = (K + (h : ℚ) / 10 + (r : ℚ) / (10 * P)) * 10 ^ (a.decimal.2 + (t : ℤ)) := by
    rw [zpow_add₀ (by norm_num), zpow_natCast]
    have : (10 : ℚ) ^ t = 10 * P := by exact_mod_cast e3
    rw [this, e4]
    push_cast
    field_simp
  refine ⟨_, ?_, rfl⟩
  rw [hy, mul_div_assoc, div_self pt, mul_one]
  have w0 : (0 : ℚ) ≤ (r : ℚ) / (10 * P) := by positivity
  have w1 : (r : ℚ) / (10 * P) < 1 / 10 := by
    rw [div_lt_iff₀ (by positivity)]
    have : (r : ℚ) < P := by exact_mod_cast hr
    linarith
  have wz : r = 0 ↔ (r : ℚ) / (10 * P) = 0 := by
    rw [div_eq_zero_iff]
    constructor
    · intro g; left; exact_mod_cast g
    · rintro (g | g)
      · exact_mod_cast g
      · linarith
  -- the last digit of a number that is not an integer is five
  have five : r = 0 → h = 5 ∨ h = 0 ∨ h < 5 := by
    intro r0
    have hd1 : a.decimal.1 = 5 ^ (-a.exp).toNat * a.bn := by unfold decimal; rw [if_neg (by omega)]
    have o5 : a.decimal.1 % 10 = 5 := by
      obtain ⟨k, hk⟩ : ∃ k, (-a.exp).toNat = k + 1 := ⟨(-a.exp).toNat - 1, by omega⟩
      have oo : (5 ^ k * a.bn) % 2 = 1 := by
        rw [Nat.mul_mod, odd, Nat.pow_mod]
        simp
      rw [hd1, hk, pow_succ, show 5 ^ k * 5 * a.bn = 5 * (5 ^ k * a.bn) by ring]
      omega
    rw [r0, add_zero] at e4
    by_cases ht : t = 1
    · rw [ht, Nat.sub_self, pow_zero] at e2
      rw [e2, mul_one] at e4
      left
      omega
    · exfalso
      obtain ⟨k, hk⟩ : ∃ k, t - 1 = k + 1 := ⟨t - 2, by omega⟩
      rw [e2, hk, pow_succ, show (10 * K + h) * (10 ^ k * 10) = 10 * ((10 * K + h) * 10 ^ k) by ring] at e4
      omega
  generalize (r : ℚ) / (10 * P) = w at *
  simp only [Rounds]
  by_cases c : 5 ≤ h ∧ (K % 2 = 1 ∨ r ≠ 0)
  · rw [if_pos c]
    push_cast
    have h5 : (5 : ℚ) ≤ h := by exact_mod_cast c.1
    have h9 : (h : ℚ) ≤ 9 := by exact_mod_cast (by omega : h ≤ 9)
    rw [show (K : ℚ) + h / 10 + w - (K + 1) = h / 10 + w - 1 by ring, abs_of_nonpos (by linarith)]
    refine ⟨by linarith, fun g => ?_⟩
    have hw : w = 0 := by linarith
    have := wz.mpr hw
    rcases c.2 with q | q
    · omega
    · exact absurd this q
  · rw [if_neg c]
    push_cast
    rw [show (K : ℚ) + h / 10 + w - (K + 0) = h / 10 + w by ring, abs_of_nonneg (by positivity)]
    by_cases h5 : 5 ≤ h
    · have c2 : K % 2 = 0 ∧ r = 0 := by
        by_contra q
        apply c
        refine ⟨h5, ?_⟩
        by_contra z
        push Not at z
        exact q ⟨by omega, z.2⟩
      have hfive : h = 5 := by
        rcases five c2.2 with q | q | q <;> omega
      have hw := wz.mp c2.2
      rw [hw, hfive]
      norm_num
      omega
    · have h4 : (h : ℚ) ≤ 4 := by exact_mod_cast (by omega : h ≤ 4)
      exact ⟨by linarith, fun g => by linarith⟩

end Verif.ExactFloat
