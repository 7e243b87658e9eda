import Verif.Props.ExactFloat
import Mathlib.Algebra.Order.Round
import Mathlib.Data.Rat.Floor

/-!
C107: rounding of exact numbers.
-/

namespace Verif.ExactFloat

open EF

/-! ## Specification -/

/-- The integer `n` is the number `y` rounded. -/
def Rounds (mode : Mode) (y : ℚ) (n : ℤ) : Prop :=
  match mode with
  | .towardPositive => n = ⌈y⌉
  | .towardNegative => n = ⌊y⌋
  | .towardZero => n = if 0 ≤ y then ⌊y⌋ else ⌈y⌉
  | .awayFromZero => n = if 0 ≤ y then ⌈y⌉ else ⌊y⌋
  | .tiesAwayFromZero => |y - n| ≤ 1 / 2 ∧ (|y - n| = 1 / 2 → |y| < |(n : ℚ)|)
  | .tiesToEven => |y - n| ≤ 1 / 2 ∧ (|y - n| = 1 / 2 → n % 2 = 0)

/-- Rounding has one result. -/
theorem Rounds.unique {mode : Mode} {y : ℚ} {m n : ℤ} (h : Rounds mode y m) (h' : Rounds mode y n) : m = n := by
  have near : ∀ {m n : ℤ}, |y - m| ≤ 1 / 2 → |y - n| ≤ 1 / 2 → m < n → n = m + 1 ∧ y = m + 1 / 2 := by
    intro m n h1 h2 hl
    rw [abs_le] at h1 h2
    have h3 : (n : ℚ) ≤ m + 1 := by linarith
    have h4 : n ≤ m + 1 := by exact_mod_cast h3
    have h5 : n = m + 1 := by omega
    refine ⟨h5, ?_⟩
    rw [h5] at h2
    push_cast at h2
    linarith
  cases mode with
  | towardPositive => exact h.trans h'.symm
  | towardNegative => exact h.trans h'.symm
  | towardZero => exact h.trans h'.symm
  | awayFromZero => exact h.trans h'.symm
  | tiesToEven =>
    have key : ∀ {m n : ℤ}, Rounds .tiesToEven y m → Rounds .tiesToEven y n → ¬ m < n := by
      rintro m n ⟨a, b⟩ ⟨c, d⟩ hl
      obtain ⟨e1, e2⟩ := near a c hl
      have t1 : |y - m| = 1 / 2 := by rw [e2, add_sub_cancel_left]; norm_num
      have t2 : |y - n| = 1 / 2 := by rw [e2, e1]; push_cast; rw [show (m : ℚ) + 1 / 2 - (m + 1) = -(1 / 2) by ring, abs_neg]; norm_num
      have := b t1
      have := d t2
      omega
    have := key h h'
    have := key h' h
    omega
  | tiesAwayFromZero =>
    have key : ∀ {m n : ℤ}, Rounds .tiesAwayFromZero y m → Rounds .tiesAwayFromZero y n → ¬ m < n := by
      rintro m n ⟨a, b⟩ ⟨c, d⟩ hl
      obtain ⟨e1, e2⟩ := near a c hl
      have t1 : |y - m| = 1 / 2 := by rw [e2, add_sub_cancel_left]; norm_num
      have t2 : |y - n| = 1 / 2 := by rw [e2, e1]; push_cast; rw [show (m : ℚ) + 1 / 2 - (m + 1) = -(1 / 2) by ring, abs_neg]; norm_num
      have b1 := b t1
      have d1 := d t2
      rw [e2] at b1 d1
      rw [e1] at d1
      push_cast at d1
      rcases le_or_gt 0 m with g | g
      · have g' : (0 : ℚ) ≤ m := by exact_mod_cast g
        rw [abs_of_nonneg (by linarith), abs_of_nonneg g'] at b1
        linarith
      · have g' : (m : ℚ) ≤ -1 := by exact_mod_cast (by omega : m ≤ -1)
        rw [abs_of_nonpos (by linarith), abs_of_nonpos (by linarith)] at d1
        linarith
    have := key h h'
    have := key h' h
    omega

/-- An integer rounds to itself. -/
theorem Rounds.int (mode : Mode) (n : ℤ) : Rounds mode n n := by
  cases mode <;> simp [Rounds]

/-! ## The mantissa -/

theorem testBit_iff (n i : ℕ) : n.testBit i = true ↔ n / 2 ^ i % 2 = 1 := by
  rw [Nat.testBit_eq_decide_div_mod_eq, decide_eq_true_iff]

/-- The parts of a mantissa: the kept bits, the first bit dropped, the other ones. -/
theorem split_mant (bn k : ℕ) (hk : 0 < k) : ∃ q b r h : ℕ, h = 2 ^ (k - 1) ∧ 2 ^ k = 2 * h ∧ bn = (2 * q + b) * h + r ∧ r < h ∧ b < 2 ∧
    bn / 2 ^ k = q ∧ bn / 2 ^ (k - 1) % 2 = b ∧ bn / 2 ^ (k - 1) = 2 * q + b := by
  refine ⟨bn / 2 ^ (k - 1) / 2, bn / 2 ^ (k - 1) % 2, bn % 2 ^ (k - 1), 2 ^ (k - 1), rfl, ?_, ?_, ?_, ?_, ?_, rfl, ?_⟩
  · rw [← pow_succ', show k - 1 + 1 = k by omega]
  · rw [Nat.div_add_mod, mul_comm, Nat.div_add_mod]
  · exact Nat.mod_lt _ (by positivity)
  · exact Nat.mod_lt _ (by norm_num)
  · rw [Nat.div_div_eq_div_mul, ← pow_succ, show k - 1 + 1 = k by omega]
  · rw [Nat.div_add_mod]

theorem lowZeros_lt_iff {bn : ℕ} (h : bn ≠ 0) (k : ℕ) : lowZeros bn < k ↔ ¬ 2 ^ k ∣ bn := by
  rw [lowZeros_spec h, not_le]

/-- The rounded mantissa is the rounded quotient. -/
theorem increment_spec {bn k : ℕ} (h0 : bn ≠ 0) (hk : 0 < k) (mode : Mode) (hm : mode ≠ .towardPositive) (hm' : mode ≠ .towardNegative) :
    Rounds mode ((bn : ℚ) / 2 ^ k) ((bn / 2 ^ k + (if increment mode bn k then 1 else 0) : ℕ) : ℤ) := by
  obtain ⟨q, b, r, h, e1, e2, e3, hr, hb, e4, e5, e6⟩ := split_mant bn k hk
  have hpos : 0 < h := by rw [e1]; positivity
  have hposq : (0 : ℚ) < h := by exact_mod_cast hpos
  have hy : (bn : ℚ) / 2 ^ k = q + (b : ℚ) / 2 + (r : ℚ) / (2 * h) := by
    have : ((2 : ℚ) ^ k) = 2 * h := by exact_mod_cast e2
    rw [this, e3]
    push_cast
    field_simp
  have hw0 : (0 : ℚ) ≤ (r : ℚ) / (2 * h) := by positivity
  have hw1 : (r : ℚ) / (2 * h) < 1 / 2 := by
    rw [div_lt_iff₀ (by positivity)]
    have : (r : ℚ) < h := by exact_mod_cast hr
    linarith
  have hwz : (r : ℚ) / (2 * h) = 0 ↔ r = 0 := by
    rw [div_eq_zero_iff]
    constructor
    · rintro (g | g)
      · exact_mod_cast g
      · linarith
    · intro g
      left
      exact_mod_cast g
  have hd1 : 2 ^ (k - 1) ∣ bn ↔ r = 0 := by
    rw [← e1, e3, Nat.dvd_add_right (Dvd.intro_left _ rfl)]
    constructor
    · intro g
      exact Nat.eq_zero_of_dvd_of_lt g hr
    · rintro rfl
      exact dvd_zero _
  have hd : 2 ^ k ∣ bn ↔ r = 0 ∧ b = 0 := by
    constructor
    · intro g
      have g1 : r = 0 := hd1.mp ((Nat.pow_dvd_pow 2 (by omega)).trans g)
      refine ⟨g1, ?_⟩
      rw [e2, e3, g1, add_zero] at g
      have := Nat.dvd_of_mul_dvd_mul_right hpos g
      omega
    · rintro ⟨g1, g2⟩
      rw [e2, e3, g1, g2]
      exact ⟨q, by ring⟩
  have hbit : bn.testBit (k - 1) = true ↔ b = 1 := by rw [testBit_iff, e5]
  have hbit' : bn.testBit k = true ↔ q % 2 = 1 := by rw [testBit_iff, e4]
  rw [hy, e4]
  have hb2 : b = 0 ∨ b = 1 := by omega
  have hypos : (0 : ℚ) ≤ q + (b : ℚ) / 2 + (r : ℚ) / (2 * h) := by positivity
  generalize (r : ℚ) / (2 * h) = w at *
  cases mode with
  | towardPositive => exact absurd rfl hm
  | towardNegative => exact absurd rfl hm'
  | towardZero =>
    unfold increment Rounds
    simp only [Bool.false_eq_true, if_false, add_zero, if_pos hypos]
    symm
    rw [Int.floor_eq_iff]
    rcases hb2 with g | g <;> rw [g] <;> push_cast <;> constructor <;> linarith
  | awayFromZero =>
    have hinc : increment .awayFromZero bn k = true ↔ ¬ (r = 0 ∧ b = 0) := by
      unfold increment
      rw [decide_eq_true_iff, lowZeros_lt_iff h0, hd]
    unfold Rounds
    simp only [if_pos hypos]
    symm
    rw [Int.ceil_eq_iff]
    by_cases g : r = 0 ∧ b = 0
    · rw [if_neg (fun q => hinc.mp q g), g.2, hwz.mpr g.1]
      push_cast
      constructor <;> linarith
    · rw [if_pos (hinc.mpr g)]
      rcases hb2 with z | z
      · have : w ≠ 0 := fun q => g ⟨hwz.mp q, z⟩
        have : 0 < w := lt_of_le_of_ne hw0 (Ne.symm this)
        rw [z]; push_cast; constructor <;> linarith
      · rw [z]; push_cast; constructor <;> linarith
  | tiesAwayFromZero =>
    have hinc : increment .tiesAwayFromZero bn k = true ↔ b = 1 := hbit
    unfold Rounds
    rcases hb2 with z | z
    · rw [if_neg (fun q => by have := hinc.mp q; omega), z]
      push_cast
      rw [show (q : ℚ) + 0 / 2 + w - (q + 0) = w by ring, abs_of_nonneg hw0]
      exact ⟨hw1.le, fun g => by linarith⟩
    · rw [if_pos (hinc.mpr z), z]
      push_cast
      have hq : (0 : ℚ) ≤ q := by positivity
      rw [show (q : ℚ) + 1 / 2 + w - (q + 1) = w - 1 / 2 by ring, abs_of_nonpos (by linarith), abs_of_nonneg (by positivity),
        abs_of_nonneg (by positivity)]
      exact ⟨by linarith, fun g => by linarith⟩
  | tiesToEven =>
    have hinc : increment .tiesToEven bn k = true ↔ b = 1 ∧ (q % 2 = 1 ∨ r ≠ 0) := by
      unfold increment
      rw [Bool.and_eq_true, Bool.or_eq_true, hbit, hbit', decide_eq_true_iff, lowZeros_lt_iff h0, hd1]
    unfold Rounds
    have hq : (0 : ℚ) ≤ q := by positivity
    rcases hb2 with z | z
    · rw [if_neg (fun q => by have := (hinc.mp q).1; omega), z]
      push_cast
      rw [show (q : ℚ) + 0 / 2 + w - (q + 0) = w by ring, abs_of_nonneg hw0]
      exact ⟨hw1.le, fun g => by linarith⟩
    · by_cases c : q % 2 = 1 ∨ r ≠ 0
      · rw [if_pos (hinc.mpr ⟨z, c⟩), z]
        push_cast
        rw [show (q : ℚ) + 1 / 2 + w - (q + 1) = w - 1 / 2 by ring, abs_of_nonpos (by linarith)]
        refine ⟨by linarith, fun g => ?_⟩
        have : r = 0 := hwz.mp (by linarith)
        omega
      · rw [if_neg (fun q => c (hinc.mp q).2), z]
        push Not at c
        push_cast
        rw [hwz.mpr c.2, show (q : ℚ) + 1 / 2 + 0 - (q + 0) = 1 / 2 by ring, abs_of_nonneg (by norm_num)]
        exact ⟨le_rfl, fun _ => by omega⟩

/-- The directed modes are turned into modes for the absolute value. -/
theorem Rounds.signed {mode : Mode} {s : ℤ} (hs : s = 1 ∨ s = -1) {y : ℚ} (hy : 0 < y) {n : ℕ} (h : Rounds (absMode s mode) y n) :
    Rounds mode (s * y) (s * n) := by
  rcases hs with rfl | rfl
  · rw [Int.cast_one, one_mul, one_mul]
    cases mode with
    | towardPositive => simpa [absMode, Rounds, hy.le] using h
    | towardNegative => simpa [absMode, Rounds, hy.le] using h
    | _ => exact h
  · rw [Int.cast_neg, Int.cast_one, neg_one_mul, neg_one_mul]
    have hn : ¬ (0 : ℚ) ≤ -y := by linarith
    cases mode with
    | towardPositive =>
      have h' : (n : ℤ) = ⌊y⌋ := by simpa [absMode, Rounds, hy.le] using h
      show -(n : ℤ) = ⌈-y⌉
      rw [Int.ceil_neg, h']
    | towardNegative =>
      have h' : (n : ℤ) = ⌈y⌉ := by simpa [absMode, Rounds, hy.le] using h
      show -(n : ℤ) = ⌊-y⌋
      rw [Int.floor_neg, h']
    | towardZero =>
      have h' : (n : ℤ) = ⌊y⌋ := by simpa [absMode, Rounds, hy.le] using h
      show -(n : ℤ) = if 0 ≤ -y then ⌊-y⌋ else ⌈-y⌉
      rw [if_neg hn, Int.ceil_neg, h']
    | awayFromZero =>
      have h' : (n : ℤ) = ⌈y⌉ := by simpa [absMode, Rounds, hy.le] using h
      show -(n : ℤ) = if 0 ≤ -y then ⌈-y⌉ else ⌊-y⌋
      rw [if_neg hn, Int.floor_neg, h']
    | tiesAwayFromZero =>
      have h' : |y - (n : ℤ)| ≤ 1 / 2 ∧ (|y - (n : ℤ)| = 1 / 2 → |y| < |((n : ℤ) : ℚ)|) := h
      show |-y - ((-(n : ℤ) : ℤ) : ℚ)| ≤ 1 / 2 ∧ (|-y - ((-(n : ℤ) : ℤ) : ℚ)| = 1 / 2 → |-y| < |((-(n : ℤ) : ℤ) : ℚ)|)
      rw [show -y - ((-(n : ℤ) : ℤ) : ℚ) = -(y - (n : ℤ)) by push_cast; ring, abs_neg, abs_neg, Int.cast_neg, abs_neg]
      exact h'
    | tiesToEven =>
      have h' : |y - (n : ℤ)| ≤ 1 / 2 ∧ (|y - (n : ℤ)| = 1 / 2 → (n : ℤ) % 2 = 0) := h
      show |-y - ((-(n : ℤ) : ℤ) : ℚ)| ≤ 1 / 2 ∧ (|-y - ((-(n : ℤ) : ℤ) : ℚ)| = 1 / 2 → (-(n : ℤ)) % 2 = 0)
      rw [show -y - ((-(n : ℤ) : ℤ) : ℚ) = -(y - (n : ℤ)) by push_cast; ring, abs_neg]
      exact ⟨h'.1, fun g => by have := h'.2 g; omega⟩

/-! ## Rounding to a power of two -/

theorem absMode_directed (s : ℤ) (mode : Mode) : absMode s mode ≠ .towardPositive ∧ absMode s mode ≠ .towardNegative := by
  cases mode <;> simp only [absMode] <;> (try split_ifs) <;> simp

/-- **Rounding to a power of two** (C107): the result is the multiple of the power of two that the mode picks. -/
theorem roundToPowerOf2_spec {a : EF} (ca : Canon a) (na : a.isNormal = true) (e : ℤ) (he : e ≤ kMaxExp) (mode : Mode) :
    ∃ n : ℤ, Rounds mode (a.val / 2 ^ e) n ∧ Represents (a.roundToPowerOf2 e mode) a.sign (n * 2 ^ e) ∧
      (e > a.exp → ∃ m : ℕ, n = a.sign * m ∧ m ≤ a.bn / 2 ^ (e - a.exp).toNat + 1) := by
  have hpe : (2 : ℚ) ^ e ≠ 0 := by positivity
  have odd : a.bn % 2 = 1 := by
    rcases ca.form with ⟨-, o, -⟩ | ⟨g, -⟩
    · exact o
    · rw [na] at g; cases g
  unfold roundToPowerOf2
  by_cases hs : e - a.exp ≤ 0
  · simp only [if_pos hs]
    have hv : a.val = ((a.sign * (a.bn * 2 ^ (a.exp - e).toNat : ℕ) : ℤ) : ℚ) * 2 ^ e := by
      have := shift_mant (q := a.bn) (k := (a.exp - e).toNat) rfl e
      rw [show e + ((a.exp - e).toNat : ℤ) = a.exp by omega] at this
      rw [val_eq, show a.mag = a.bn * 2 ^ a.exp from rfl, this]
      push_cast
      ring
    refine ⟨a.sign * (a.bn * 2 ^ (a.exp - e).toNat : ℕ), ?_, ?_, fun g => by omega⟩
    · rw [hv, mul_div_assoc, div_self hpe, mul_one]
      exact Rounds.int _ _
    · rw [← hv]
      exact represents_self ca na
  · simp only [if_neg hs]
    set k := (e - a.exp).toNat with hk
    have hkpos : 0 < k := by omega
    have hke : a.exp + (e - a.exp) = e := by ring
    rw [hke]
    obtain ⟨d1, d2⟩ := absMode_directed a.sign mode
    have key := increment_spec (bn := a.bn) (by omega) hkpos (absMode a.sign mode) d1 d2
    set m := a.bn / 2 ^ k + (if increment (absMode a.sign mode) a.bn k then 1 else 0) with hm
    have b0 : (0 : ℚ) < a.bn := by exact_mod_cast (by omega : 0 < a.bn)
    have hy : a.val / 2 ^ e = a.sign * ((a.bn : ℚ) / 2 ^ k) := by
      rw [val_eq, show a.mag = a.bn * 2 ^ a.exp from rfl, show e = a.exp + (k : ℤ) by omega, zpow_add₀ (by norm_num), zpow_natCast]
      field_simp
    refine ⟨a.sign * m, ?_, ?_, fun _ => ⟨m, rfl, ?_⟩⟩
    · rw [hy]
      exact Rounds.signed ca.sign (by positivity) key
    · have k2 : kMaxExp < kExpZero := by decide
      have := canonicalize_spec (a := ⟨a.sign, e, m⟩) ca.sign (by rw [isNormal_iff]; show e < kExpZero; omega)
      have ev : EF.val ⟨a.sign, e, m⟩ = ((a.sign * m : ℤ) : ℚ) * 2 ^ e := by unfold EF.val; push_cast; ring
      rw [ev] at this
      exact this
    · rw [hm]
      split_ifs <;> omega

/-- **Zeros, infinities and NaN are not rounded** (C107). -/
theorem roundToPowerOf2_special {a : EF} (na : a.isNormal = false) (e : ℤ) (he : e ≤ kMaxExp) (mode : Mode) : a.roundToPowerOf2 e mode = a := by
  have := (not_normal_iff a).mp na
  have k2 : kMaxExp < kExpZero := by decide
  unfold roundToPowerOf2
  simp only [if_pos (show e - a.exp ≤ 0 by omega)]

/-! ## Rounding to integers -/

/-- **Integers** (C107): ceiling, floor and truncation, and rounding to the nearest integer. -/
theorem integer_spec {a : EF} (ca : Canon a) (na : a.isNormal = true) :
    Represents a.ceil a.sign ⌈a.val⌉ ∧ Represents a.floor a.sign ⌊a.val⌋ ∧
    Represents a.trunc a.sign (if 0 ≤ a.val then ⌊a.val⌋ else ⌈a.val⌉ : ℤ) ∧
    (∃ n : ℤ, Represents a.round a.sign n ∧ |a.val - n| ≤ 1 / 2 ∧ (|a.val - n| = 1 / 2 → |a.val| < |(n : ℚ)|)) ∧
    (∃ n : ℤ, Represents a.rint a.sign n ∧ |a.val - n| ≤ 1 / 2 ∧ (|a.val - n| = 1 / 2 → n % 2 = 0)) := by
  have h := fun mode => roundToPowerOf2_spec ca na 0 (by decide) mode
  simp only [zpow_zero, div_one, mul_one] at h
  refine ⟨?_, ?_, ?_, ?_, ?_⟩
  · obtain ⟨n, h1, h2, -⟩ := h .towardPositive
    have h1' : n = ⌈a.val⌉ := h1
    rw [← h1']
    exact h2
  · obtain ⟨n, h1, h2, -⟩ := h .towardNegative
    have h1' : n = ⌊a.val⌋ := h1
    rw [← h1']
    exact h2
  · obtain ⟨n, h1, h2, -⟩ := h .towardZero
    have h1' : n = if 0 ≤ a.val then ⌊a.val⌋ else ⌈a.val⌉ := h1
    rw [← h1']
    exact h2
  · obtain ⟨n, h1, h2, -⟩ := h .tiesAwayFromZero
    exact ⟨n, h2, h1⟩
  · obtain ⟨n, h1, h2, -⟩ := h .tiesToEven
    exact ⟨n, h2, h1⟩

theorem half_lt {bn k P : ℕ} (h : bn < 2 ^ P) (hk : 1 ≤ k) (hP : 2 ≤ P) : bn / 2 ^ k + 1 < 2 ^ P := by
  have h5 : bn / 2 ^ k ≤ bn / 2 := Nat.div_le_div_left (by
    calc 2 = 2 ^ 1 := rfl
      _ ≤ _ := Nat.pow_le_pow_right (by norm_num) hk) (by norm_num)
  have h6 : 2 ^ 2 ≤ 2 ^ P := Nat.pow_le_pow_right (by norm_num) hP
  omega

/-- An integer result is never lost: it is zero, or the exact integer. -/
theorem round_integer {a : EF} (ca : Canon a) (na : a.isNormal = true) (mode : Mode) :
    ∃ n : ℤ, Rounds mode a.val n ∧ ((n = 0 ∧ a.roundToPowerOf2 0 mode = zero a.sign) ∨
      (n ≠ 0 ∧ (a.roundToPowerOf2 0 mode).isNormal = true ∧ (a.roundToPowerOf2 0 mode).val = n ∧ Canon (a.roundToPowerOf2 0 mode))) := by
  obtain ⟨n, h1, h2, h3⟩ := roundToPowerOf2_spec ca na 0 (by decide) mode
  simp only [zpow_zero, div_one, mul_one] at h1 h2
  refine ⟨n, h1, ?_⟩
  by_cases hn : n = 0
  · left
    refine ⟨hn, h2.small ?_⟩
    rw [hn, Int.cast_zero, abs_zero]
    positivity
  · right
    refine ⟨hn, ?_⟩
    have form : a.bn % 2 = 1 ∧ a.fullExp ≤ kMaxExp ∧ a.prec ≤ kMaxPrec := by
      rcases ca.form with ⟨-, o, -, p, q⟩ | ⟨g, -⟩
      · exact ⟨o, p, q⟩
      · rw [na] at g; cases g
    have one : (1 : ℚ) ≤ |(n : ℚ)| := by exact_mod_cast Int.one_le_abs hn
    have low : (2 : ℚ) ^ (kMinExp - 1) ≤ |(n : ℚ)| := by
      refine le_trans ?_ one
      have : (2 : ℚ) ^ (kMinExp - 1) ≤ 2 ^ (0 : ℤ) := pow_le_pow_iff.mpr (by decide)
      simpa using this
    by_cases hk : (0 : ℤ) > a.exp
    · obtain ⟨m, e1, e2⟩ := h3 hk
      have e3 : |(n : ℚ)| = m * 2 ^ (0 : ℤ) := by
        rw [e1, zpow_zero, mul_one]
        push_cast
        rw [abs_mul, Nat.abs_cast]
        rcases ca.sign with s | s <;> rw [s] <;> simp
      have hlt : m < 2 ^ kMaxPrec := by
        have h4 : a.bn < 2 ^ kMaxPrec := numBits_le_iff.mp form.2.2
        exact e2.trans_lt (half_lt h4 (by omega) (by decide))
      have hr : |(n : ℚ)| < 2 ^ kMaxExp := by
        rw [e3, zpow_zero, mul_one]
        have h6 : (m : ℚ) < 2 ^ kMaxPrec := by
          have := (Nat.cast_lt (α := ℚ)).mpr hlt
          rwa [Nat.cast_pow] at this
        have h7 : (2 : ℚ) ^ ((kMaxPrec : ℕ) : ℤ) ≤ 2 ^ kMaxExp := pow_le_pow_iff.mpr (by decide)
        rw [zpow_natCast] at h7
        exact h6.trans_le h7
      obtain ⟨p1, p2, p3⟩ := h2.exact ⟨low, hr⟩ ⟨m, 0, hlt, e3⟩
      exact ⟨p1, p3, h2.canon⟩
    · have same : a.roundToPowerOf2 0 mode = a := by
        unfold roundToPowerOf2
        simp only [if_pos (show (0 : ℤ) - a.exp ≤ 0 by omega)]
      rw [same] at h2 ⊢
      refine ⟨na, ?_, ca⟩
      have hz : ((a.sign * (a.bn * 2 ^ a.exp.toNat : ℕ) : ℤ) : ℚ) = a.val := by
        have := shift_mant (q := a.bn) (k := a.exp.toNat) rfl 0
        rw [show 0 + (a.exp.toNat : ℤ) = a.exp by omega, zpow_zero, mul_one] at this
        rw [val_eq, show a.mag = a.bn * 2 ^ a.exp from rfl, this]
        push_cast
        ring
      rw [← hz] at h1 ⊢
      rw [(Rounds.int mode _).unique h1]

/-- **Conversion to integers** (C107): the rounded value, clamped to the range of the type. -/
theorem toInteger_spec {a : EF} (ca : Canon a) (na : a.isNormal = true) (mode : Mode) (lo hi : ℤ) (h1 : -2 ^ 63 ≤ lo) (h2 : lo ≤ 0)
    (h3 : 0 ≤ hi) (h4 : hi < 2 ^ 63) : ∃ n : ℤ, Rounds mode a.val n ∧ toInteger lo hi a mode = max lo (min hi n) := by
  obtain ⟨n, r1, r2⟩ := round_integer ca na mode
  refine ⟨n, r1, ?_⟩
  unfold toInteger
  generalize a.roundToPowerOf2 0 mode = r at r2 ⊢
  rcases r2 with ⟨rfl, rfl⟩ | ⟨hn, hr, hv, cr⟩
  · have z1 : (zero a.sign).isNan = false := by simp [isNan, zero, kExpNaN, kExpZero]
    have z2 : (zero a.sign).isZero = true := by simp [isZero, zero]
    simp only [z1, z2, Bool.false_eq_true, if_false, if_true]
    omega
  · have hf : r.isFinite = true := by
      unfold isFinite
      exact decide_eq_true ((isNormal_iff r).mp hr).le
    rcases cr.finite_cases hf with ⟨-, b2, b3, b4, b5, b6⟩ | ⟨g, -⟩
    swap
    · rw [hr] at g; cases g
    simp only [b2, b3, b4, Bool.false_eq_true, if_false]
    have hmag : r.mag = ((n.natAbs : ℕ) : ℚ) := by
      rw [← abs_val cr.sign, hv]
      rw [← Int.cast_abs, Int.abs_eq_natAbs]
      simp
    have hexp : 0 ≤ r.exp := by
      by_contra g
      have e2 := shift_mant (q := n.natAbs) (k := (-r.exp).toNat) rfl r.exp
      rw [show r.exp + ((-r.exp).toNat : ℤ) = 0 by omega, zpow_zero, mul_one, ← hmag] at e2
      have e3 : r.bn = n.natAbs * 2 ^ (-r.exp).toNat := by
        have hp : (2 : ℚ) ^ r.exp ≠ 0 := by positivity
        exact_mod_cast mul_right_cancel₀ hp e2
      obtain ⟨k, hk⟩ : ∃ k, (-r.exp).toNat = k + 1 := ⟨(-r.exp).toNat - 1, by omega⟩
      rw [hk, pow_succ, ← mul_assoc] at e3
      omega
    have hv2 : (r.bn : ℤ) * 2 ^ r.exp.toNat = n.natAbs := by
      have e2 := shift_mant (q := r.bn) (k := r.exp.toNat) rfl 0
      rw [show 0 + (r.exp.toNat : ℤ) = r.exp by omega, zpow_zero, mul_one] at e2
      have : ((r.bn * 2 ^ r.exp.toNat : ℕ) : ℚ) = (n.natAbs : ℚ) := by rw [← e2, ← hmag]; rfl
      exact_mod_cast this
    have hsgn : n = r.sign * n.natAbs := by
      have : (n : ℚ) = ((r.sign * (n.natAbs : ℤ) : ℤ) : ℚ) := by
        rw [Int.cast_mul, Int.cast_natCast, ← hmag, ← val_eq, hv]
      exact Int.cast_injective this
    have hb0 : r.bn ≠ 0 := by omega
    by_cases hfe : r.fullExp < 64
    · rw [if_pos (by simpa using hfe), hv2]
      rcases cr.sign with s | s <;> rw [s] at hsgn <;> rw [s]
      · simp only [show ¬ ((1 : ℤ) < 0) by decide, if_false]
        rw [show ((n.natAbs : ℕ) : ℤ) = n by omega]
      · simp only [show ((-1 : ℤ) < 0) by decide, if_true]
        rw [show -((n.natAbs : ℕ) : ℤ) = n by omega]
    · rw [if_neg (by simpa using hfe)]
      have hbig : (2 : ℤ) ^ 63 ≤ n.natAbs := by
        have g := mant_ge hb0 r.exp
        have g2 : (2 : ℚ) ^ (63 : ℤ) ≤ 2 ^ (r.exp + (numBits r.bn : ℤ) - 1) := pow_le_pow_iff.mpr (by unfold fullExp at hfe; omega)
        have g3 := g2.trans g
        rw [show (r.bn : ℚ) * 2 ^ r.exp = r.mag from rfl, hmag] at g3
        exact_mod_cast g3
      rcases cr.sign with s | s <;> rw [s] at hsgn <;> rw [s]
      · simp only [show ¬ ((1 : ℤ) < 0) by decide, if_false]
        omega
      · simp only [show ((-1 : ℤ) < 0) by decide, if_true]
        omega

/-- **Conversion of special values to integers** (C107). -/
theorem toInteger_special {a : EF} (mode : Mode) (lo hi : ℤ) :
    (a.isZero = true → toInteger lo hi a mode = 0) ∧ (a.isNan = true → toInteger lo hi a mode = hi) ∧
    (a.isInf = true → toInteger lo hi a mode = if a.sign < 0 then lo else hi) := by
  refine ⟨fun h => ?_, fun h => ?_, fun h => ?_⟩
  · have e : a.exp = kExpZero := of_decide_eq_true h
    have nn : a.isNormal = false := (not_normal_iff a).mpr e.ge
    have n2 : a.isNan = false := by unfold isNan; rw [e]; decide
    unfold toInteger
    rw [roundToPowerOf2_special nn _ (by decide)]
    simp [h, n2]
  · unfold toInteger
    rw [roundToPowerOf2_special (nan_parts h).1 _ (by decide)]
    simp [h]
  · unfold toInteger
    rw [roundToPowerOf2_special (inf_parts h).1 _ (by decide)]
    simp [h, (inf_parts h).2.1, (inf_parts h).2.2.1]

/-! ## Rounding to a number of bits -/

/-- A number that represents a multiple by few bits has few bits. -/
theorem prec_le {r : EF} {s : ℤ} {m M : ℕ} {e : ℤ} {x : ℚ} (h : Represents r s x) (hx : |x| = m * 2 ^ e) (hm : m ≤ 2 ^ M) (hM : 1 ≤ M) : r.prec ≤ M := by
  rcases h.canon.form with ⟨hn, odd, -⟩ | ⟨-, z, -⟩
  swap
  · unfold prec; rw [z]; exact Nat.zero_le _
  have hv : r.val = x := by
    by_contra g
    rcases lt_or_ge |x| (2 ^ (kMinExp - 1)) with q | q
    · rw [h.small q] at hn
      rw [isNormal_iff] at hn
      exact absurd hn (lt_irrefl _)
    rcases le_or_gt (2 ^ kMaxExp) |x| with q' | q'
    · rw [h.large q', isNormal_iff] at hn
      have : kExpInfinity < kExpZero := hn
      exact absurd this (by decide)
    by_cases p : Precise x
    · exact g (h.exact ⟨q, q'⟩ p).2.2
    · rw [h.imprecise ⟨q, q'⟩ p] at hn
      exact absurd hn (by decide)
  have e1 : r.mag = m * 2 ^ e := by rw [← abs_val h.canon.sign, hv, hx]
  have hm0 : m ≠ 0 := by
    rintro rfl
    rw [Nat.cast_zero, zero_mul] at e1
    have : (0 : ℚ) < r.mag := by
      unfold mag
      have : 0 < r.bn := by omega
      positivity
    linarith
  obtain ⟨o1, o2⟩ := lowZeros_odd hm0
  have e2 : (r.bn : ℚ) * 2 ^ r.exp = (m / 2 ^ lowZeros m : ℕ) * 2 ^ (e + lowZeros m) := by
    rw [shift_mant o2, ← e1]
    rfl
  obtain ⟨e3, -⟩ := odd_pow_unique odd o1 e2
  unfold prec
  rw [numBits_le_iff]
  rcases hm.eq_or_lt with g | g
  · rw [e3]
    by_contra c
    rw [not_lt] at c
    have h1 : m / 2 ^ lowZeros m ≤ m := Nat.div_le_self _ _
    have h2 : m / 2 ^ lowZeros m = 2 ^ M := by omega
    rw [h2] at o1
    obtain ⟨k, rfl⟩ : ∃ k, M = k + 1 := ⟨M - 1, by omega⟩
    rw [pow_succ] at o1
    omega
  · rw [e3]
    exact (Nat.div_le_self _ _).trans_lt g

/-- **Rounding to a number of bits** (C107): a number with few bits is kept; another one is rounded to a multiple of the power of two that leaves
the requested bits, and the result has no more bits. -/
theorem roundToMaxPrec_spec {a : EF} (ca : Canon a) (na : a.isNormal = true) (M : ℕ) (hM : 2 ≤ M) (mode : Mode) :
    (a.roundToMaxPrec M mode).prec ≤ M ∧ (a.prec ≤ M → a.roundToMaxPrec M mode = a) ∧
    (M < a.prec → ∃ n : ℤ, Rounds mode (a.val / 2 ^ (a.fullExp - M)) n ∧
      Represents (a.roundToMaxPrec M mode) a.sign (n * 2 ^ (a.fullExp - M))) := by
  unfold roundToMaxPrec
  by_cases hs : a.prec ≤ M
  · simp only [if_pos (show (a.prec : ℤ) - M ≤ 0 by omega)]
    exact ⟨hs, fun _ => trivial, fun g => by omega⟩
  · simp only [if_neg (show ¬ ((a.prec : ℤ) - M ≤ 0) by omega)]
    have hfe : a.fullExp = a.exp + a.prec := rfl
    rw [show a.exp + ((a.prec : ℤ) - M) = a.fullExp - M by omega]
    have hle : a.fullExp ≤ kMaxExp := by
      rcases ca.form with ⟨-, -, -, p, -⟩ | ⟨g, -⟩
      · exact p
      · rw [na] at g; cases g
    obtain ⟨n, h1, h2, h3⟩ := roundToPowerOf2_spec ca na (a.fullExp - M) (by omega) mode
    obtain ⟨m, e1, e2⟩ := h3 (by omega)
    refine ⟨?_, fun g => absurd g hs, fun _ => ⟨n, h1, h2⟩⟩
    refine prec_le (m := m) (e := a.fullExp - M) h2 ?_ ?_ (by omega)
    · rw [abs_mul, abs_of_pos (show (0 : ℚ) < 2 ^ (a.fullExp - M) by positivity), e1]
      push_cast
      rw [abs_mul, Nat.abs_cast]
      rcases ca.sign with s | s <;> rw [s] <;> simp
    · have hlt : a.bn / 2 ^ (a.fullExp - M - a.exp).toNat < 2 ^ M := by
        rw [Nat.div_lt_iff_lt_mul (by positivity), ← pow_add]
        have : M + (a.fullExp - M - a.exp).toNat = a.prec := by omega
        rw [this]
        exact lt_pow_numBits _
      omega

/-- **Minus three halves** (C107): truncation gives -1; rounding away from zero on ties, -2. -/
theorem round_example : (∃ n : ℤ, Rounds .towardZero (EF.val ⟨-1, -1, 3⟩) n ∧ toInteger (-2 ^ 31) (2 ^ 31 - 1) ⟨-1, -1, 3⟩ .towardZero = n ∧ n = -1) ∧
    toInteger (-2 ^ 31) (2 ^ 31 - 1) ⟨-1, -1, 3⟩ .tiesAwayFromZero = -2 := by
  have c : Canon ⟨-1, -1, 3⟩ := three_canon (by norm_num) (by norm_num) (.inr rfl)
  have v : EF.val ⟨-1, -1, 3⟩ = -(3 / 2) := by unfold EF.val; norm_num
  constructor
  · obtain ⟨n, h1, h2⟩ := toInteger_spec c (by decide) .towardZero (-2 ^ 31) (2 ^ 31 - 1) (by norm_num) (by norm_num) (by norm_num) (by norm_num)
    have h3 : Rounds .towardZero (EF.val ⟨-1, -1, 3⟩) (-1) := by
      rw [v]
      show (-1 : ℤ) = if (0 : ℚ) ≤ -(3 / 2) then ⌊-(3 / 2 : ℚ)⌋ else ⌈-(3 / 2 : ℚ)⌉
      norm_num
    have h4 := h1.unique h3
    exact ⟨n, h1, by rw [h2, h4]; norm_num, h4⟩
  · obtain ⟨n, h1, h2⟩ := toInteger_spec c (by decide) .tiesAwayFromZero (-2 ^ 31) (2 ^ 31 - 1) (by norm_num) (by norm_num) (by norm_num) (by norm_num)
    have h3 : Rounds .tiesAwayFromZero (EF.val ⟨-1, -1, 3⟩) (-2) := by
      rw [v]
      unfold Rounds
      norm_num [abs_of_pos, abs_of_neg]
    rw [h2, h1.unique h3]
    norm_num

end Verif.ExactFloat
