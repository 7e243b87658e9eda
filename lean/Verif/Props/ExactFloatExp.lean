import Verif.Props.ExactFloatRound
import Mathlib.Data.Int.Log

/-!
C108: exponents of exact numbers, and conversion to `double`.
-/

namespace Verif.ExactFloat

open EF

/-! ## Scaling by a power of two -/

theorem normal_parts {a : EF} (ca : Canon a) (na : a.isNormal = true) :
    a.bn % 2 = 1 ∧ kMinExp ≤ a.fullExp ∧ a.fullExp ≤ kMaxExp ∧ a.prec ≤ kMaxPrec ∧ 0 < a.mag := by
  rcases ca.form with ⟨-, o, p, q, r⟩ | ⟨g, -⟩
  · refine ⟨o, p, q, r, ?_⟩
    have : 0 < a.bn := by omega
    unfold mag
    positivity
  · rw [na] at g; cases g

/-- Full statement: the result is the number times the power of two. -/
def LdexpStatement : Prop := ∀ (a : EF), Canon a → a.isNormal = true → ∀ e : ℤ, Represents (a.ldexp e) a.sign (a.val * 2 ^ e)

theorem ldexp_clamped {a : EF} (ca : Canon a) (na : a.isNormal = true) (e : ℤ) :
    Represents (a.ldexp e) a.sign (a.val * 2 ^ (min (kMaxExp + 1 - a.fullExp) (max (kMinExp - 1 + a.fullExp) e))) := by
  obtain ⟨-, p, q, -⟩ := normal_parts ca na
  have hx := (exponents_fit ca na).1
  rw [abs_lt] at hx
  have k1 : kMinExp = -200000000 := rfl
  have k2 : kMaxExp = 200000000 := rfl
  have k3 : kExpZero = 2147483645 := rfl
  unfold ldexp
  rw [if_neg (by rw [na]; decide)]
  generalize hm : min (kMaxExp + 1 - a.fullExp) (max (kMinExp - 1 + a.fullExp) e) = c
  have key := canonicalize_spec (a := ⟨a.sign, a.exp + c, a.bn⟩) ca.sign (by rw [isNormal_iff]; show a.exp + c < kExpZero; omega)
  have ev : EF.val ⟨a.sign, a.exp + c, a.bn⟩ = a.val * 2 ^ c := by
    unfold EF.val
    rw [zpow_add₀ (by norm_num)]
    ring
  rw [ev] at key
  exact key

theorem abs_scaled {a : EF} (ca : Canon a) (e : ℤ) : |a.val * 2 ^ e| = a.bn * 2 ^ (a.exp + e) := by
  rw [abs_mul, abs_of_pos (show (0 : ℚ) < 2 ^ e by positivity), abs_val ca.sign, zpow_add₀ (by norm_num)]
  unfold mag
  ring

/-- **Scaling is exact where the clamp does not harm** (C108): for numbers below one, and for scales that are not far below. -/
theorem ldexp_spec_partial {a : EF} (ca : Canon a) (na : a.isNormal = true) (e : ℤ) (h : a.fullExp ≤ 0 ∨ kMinExp - 1 + a.fullExp ≤ e) :
    Represents (a.ldexp e) a.sign (a.val * 2 ^ e) := by
  obtain ⟨o, p, q, -, hmag⟩ := normal_parts ca na
  have hb0 : a.bn ≠ 0 := by omega
  have key := ldexp_clamped ca na e
  generalize hm : min (kMaxExp + 1 - a.fullExp) (max (kMinExp - 1 + a.fullExp) e) = c at key
  by_cases hc : c = e
  · rwa [hc] at key
  have hfe : a.fullExp = a.exp + numBits a.bn := rfl
  have k1 : kMinExp = -200000000 := rfl
  have k2 : kMaxExp = 200000000 := rfl
  have big : ∀ {x : ℤ}, kMaxExp < a.fullExp + x → (2 : ℚ) ^ kMaxExp ≤ |a.val * 2 ^ x| := by
    intro x hx
    rw [abs_scaled ca]
    exact (pow_le_pow_iff.mpr (by omega)).trans (mant_ge hb0 _)
  have small : ∀ {x : ℤ}, a.fullExp + x < kMinExp → |a.val * 2 ^ x| < (2 : ℚ) ^ (kMinExp - 1) := by
    intro x hx
    rw [abs_scaled ca]
    exact (mant_lt _).trans_le (pow_le_pow_iff.mpr (by omega))
  have hlt : (2 : ℚ) ^ (kMinExp - 1) < 2 ^ kMaxExp := pow_lt_pow_iff.mpr (by omega)
  rcases lt_or_ge c e with g | g
  · have hcc : c = kMaxExp + 1 - a.fullExp := by omega
    have b1 := big (x := c) (by omega)
    have b2 := big (x := e) (by omega)
    have e1 := key.large b1
    refine ⟨key.canon, fun q => absurd q (not_lt.mpr (hlt.le.trans b2)), fun _ => e1, fun q => absurd q.2 (not_lt.mpr b2),
      fun q => absurd q.2 (not_lt.mpr b2)⟩
  · have hcc : c = kMinExp - 1 + a.fullExp := by omega
    have b1 := small (x := c) (by omega)
    have b2 := small (x := e) (by omega)
    have e1 := key.small b1
    refine ⟨key.canon, fun _ => e1, fun q => absurd q (not_le.mpr (b2.trans hlt)), fun q => absurd q.1 (not_le.mpr b2),
      fun q => absurd q.1 (not_le.mpr b2)⟩

/-- **The clamp is wrong for all other arguments** (C108): the code clamps at the sum with the exponent of the number instead of the
difference, so that numbers that should vanish, or be smaller, come out too large. -/
theorem ldexp_wrong {a : EF} (ca : Canon a) (na : a.isNormal = true) (e : ℤ) (h : 0 < a.fullExp) (h' : e < kMinExp - 1 + a.fullExp) :
    ¬ Represents (a.ldexp e) a.sign (a.val * 2 ^ e) := by
  intro r
  obtain ⟨o, p, q, hp, hmag⟩ := normal_parts ca na
  have hb0 : a.bn ≠ 0 := by omega
  have key := ldexp_clamped ca na e
  have k1 : kMinExp = -200000000 := rfl
  have k2 : kMaxExp = 200000000 := rfl
  have hfe : a.fullExp = a.exp + numBits a.bn := rfl
  generalize hm : min (kMaxExp + 1 - a.fullExp) (max (kMinExp - 1 + a.fullExp) e) = c at key
  have hc : c = kMinExp - 1 + a.fullExp := by omega
  have habs := abs_scaled ca c
  have hin : InRange (a.val * 2 ^ c) := by
    unfold InRange
    rw [habs]
    exact ⟨(pow_le_pow_iff.mpr (by omega)).trans (mant_ge hb0 _), (mant_lt _).trans_le (pow_le_pow_iff.mpr (by omega))⟩
  have hpr : Precise (a.val * 2 ^ c) := (precise_odd o habs).mpr hp
  obtain ⟨r1, r2, r3⟩ := key.exact hin hpr
  have hne : a.val * 2 ^ c ≠ a.val * 2 ^ e := by
    intro g
    have hv : a.val ≠ 0 := by
      intro z
      have := abs_val ca.sign
      rw [z, abs_zero] at this
      linarith
    have := mul_left_cancel₀ hv g
    have := zpow_right_injective₀ (show (0 : ℚ) < 2 by norm_num) (by norm_num) this
    omega
  have habs' := abs_scaled ca e
  have hlt' : |a.val * 2 ^ e| < 2 ^ kMaxExp := by
    rw [habs']
    exact (mant_lt _).trans_le (pow_le_pow_iff.mpr (by omega))
  rcases lt_or_ge |a.val * 2 ^ e| (2 ^ (kMinExp - 1)) with g | g
  · have := r.small g
    rw [this, isNormal_iff] at r1
    exact absurd r1 (lt_irrefl _)
  · have hpr' : Precise (a.val * 2 ^ e) := (precise_odd o habs').mpr hp
    have := (r.exact ⟨g, hlt'⟩ hpr').2.2
    rw [r3] at this
    exact hne this

/-- **Scaling is not exact in general** (C108): for `3 · 2 ^ 98` scaled by `2 ^ kMinExp`. -/
theorem ldexp_violated : ¬ LdexpStatement := by
  intro h
  have c : Canon ⟨1, 98, 3⟩ := three_canon (by norm_num) (by norm_num) (.inl rfl)
  have hf : EF.fullExp ⟨1, 98, 3⟩ = 100 := by decide
  have k1 : kMinExp = -200000000 := rfl
  exact ldexp_wrong c (by decide) kMinExp (by omega) (by omega) (h _ c (by decide) kMinExp)

/-- **Special values are not scaled** (C108). -/
theorem ldexp_special {a : EF} (h : a.isNormal = false) (e : ℤ) : a.ldexp e = a ∧ a.scalbln e = a ∧ a.frexp = (a, 0) := by
  unfold scalbln frexp ldexp
  rw [if_pos h, if_pos h, if_pos h]
  exact ⟨rfl, rfl, rfl⟩

/-- **Scaling by a `long`** (C108): the clamp to `int` does no harm. -/
theorem scalbln_spec_partial {a : EF} (ca : Canon a) (na : a.isNormal = true) (e : ℤ) (h : a.fullExp ≤ 0 ∨ kMinExp - 1 + a.fullExp ≤ e) :
    Represents (a.scalbln e) a.sign (a.val * 2 ^ e) := by
  obtain ⟨o, p, q, hp, hmag⟩ := normal_parts ca na
  have k1 : kMinExp = -200000000 := rfl
  have k2 : kMaxExp = 200000000 := rfl
  have same : a.scalbln e = a.ldexp e := by
    unfold scalbln ldexp
    rw [if_neg (by rw [na]; decide), if_neg (by rw [na]; decide)]
    congr 3
    omega
  rw [same]
  exact ldexp_spec_partial ca na e h

/-- Full statement: the fraction is in `[1/2, 1)` and the number is the fraction times the power of two. -/
def FrexpStatement : Prop := ∀ (a : EF), Canon a → a.isNormal = true → 1 / 2 ≤ |a.frexp.1.val| ∧ |a.frexp.1.val| < 1 ∧ a.frexp.1.val * 2 ^ a.frexp.2 = a.val

/-- **Fractions and exponents** (C108), for exponents up to half of the largest one. -/
theorem frexp_spec_partial {a : EF} (ca : Canon a) (na : a.isNormal = true) (h : a.fullExp ≤ 100000000) :
    1 / 2 ≤ |a.frexp.1.val| ∧ |a.frexp.1.val| < 1 ∧ a.frexp.1.val * 2 ^ a.frexp.2 = a.val ∧ a.frexp.1.sign = a.sign := by
  obtain ⟨o, p, q, hp, hmag⟩ := normal_parts ca na
  have hb0 : a.bn ≠ 0 := by omega
  have k1 : kMinExp = -200000000 := rfl
  have k2 : kMaxExp = 200000000 := rfl
  have hfe : a.fullExp = a.exp + numBits a.bn := rfl
  have key := ldexp_spec_partial ca na (-a.fullExp) (by omega)
  have habs := abs_scaled ca (-a.fullExp)
  have l1 : (1 : ℚ) / 2 ≤ |a.val * 2 ^ (-a.fullExp)| := by
    rw [habs]
    refine le_trans ?_ (mant_ge hb0 _)
    rw [show a.exp + -a.fullExp + (numBits a.bn : ℤ) - 1 = -1 by omega]
    norm_num
  have l2 : |a.val * 2 ^ (-a.fullExp)| < 1 := by
    rw [habs]
    refine lt_of_lt_of_le (mant_lt _) ?_
    rw [show a.exp + -a.fullExp + (numBits a.bn : ℤ) = 0 by omega, zpow_zero]
  have hin : InRange (a.val * 2 ^ (-a.fullExp)) := by
    constructor
    · have : (2 : ℚ) ^ (kMinExp - 1) ≤ 2 ^ (-1 : ℤ) := pow_le_pow_iff.mpr (by omega)
      refine this.trans (le_trans ?_ l1)
      norm_num
    · have : (2 : ℚ) ^ (0 : ℤ) ≤ 2 ^ kMaxExp := pow_le_pow_iff.mpr (by omega)
      rw [zpow_zero] at this
      linarith
  obtain ⟨r1, r2, r3⟩ := key.exact hin ((precise_odd o habs).mpr hp)
  unfold frexp
  rw [if_neg (by rw [na]; decide)]
  simp only
  rw [r3]
  refine ⟨l1, l2, ?_, r2⟩
  rw [mul_assoc, ← zpow_add₀ (by norm_num), neg_add_cancel, zpow_zero, mul_one]

/-- **Fractions are wrong for larger exponents** (C108). -/
theorem frexp_violated : ¬ FrexpStatement := by
  intro h
  have k1 : kMinExp = -200000000 := rfl
  have k2 : kMaxExp = 200000000 := rfl
  have hnb : numBits 1 = 1 := by decide
  have hf : EF.fullExp ⟨1, 199999999, 1⟩ = 200000000 := by
    show (199999999 : ℤ) + (numBits 1 : ℕ) = _
    rw [hnb]
    norm_num
  have c : Canon ⟨1, 199999999, 1⟩ := by
    refine ⟨.inl rfl, .inl ⟨by decide, by show 1 % 2 = 1; norm_num, by omega, by omega, ?_⟩⟩
    show numBits 1 ≤ kMaxPrec
    rw [hnb]; decide
  have n : EF.isNormal ⟨1, 199999999, 1⟩ = true := by decide
  have key := ldexp_wrong c n (-200000000) (by omega) (by omega)
  obtain ⟨h1, h2, h3⟩ := h _ c n
  have e2 : (EF.frexp ⟨1, 199999999, 1⟩).2 = 200000000 := by
    unfold frexp
    rw [if_neg (by rw [n]; decide)]
    exact hf
  have e1 : (EF.frexp ⟨1, 199999999, 1⟩).1 = EF.ldexp ⟨1, 199999999, 1⟩ (-200000000) := by
    unfold frexp
    rw [if_neg (by rw [n]; decide), hf]
  rw [e1] at h1 h2 h3
  rw [e2] at h3
  have cl := ldexp_clamped c n (-200000000)
  rw [hf, show min (kMaxExp + 1 - 200000000) (max (kMinExp - 1 + 200000000) (-200000000)) = -1 by decide] at cl
  have habs := abs_scaled c (-1)
  have m1 := mant_ge (n := 1) (by norm_num) (199999999 + -1)
  have m2 := mant_lt (n := 1) (199999999 + -1)
  rw [hnb] at m1 m2
  rw [show (⟨1, 199999999, 1⟩ : EF).bn = 1 from rfl, show (⟨1, 199999999, 1⟩ : EF).exp = 199999999 from rfl] at habs
  have hin : InRange (EF.val ⟨1, 199999999, 1⟩ * 2 ^ (-1 : ℤ)) := by
    unfold InRange
    rw [habs]
    exact ⟨(pow_le_pow_iff.mpr (by omega)).trans m1, m2.trans_le (pow_le_pow_iff.mpr (by omega))⟩
  have hpr : Precise (EF.val ⟨1, 199999999, 1⟩ * 2 ^ (-1 : ℤ)) := (precise_odd (by norm_num) habs).mpr (by rw [hnb]; decide)
  obtain ⟨r1, r2, r3⟩ := cl.exact hin hpr
  rw [r3] at h2
  rw [habs] at h2
  have : (2 : ℚ) ^ (0 : ℤ) ≤ 2 ^ ((199999999 : ℤ) + -1 + (1 : ℕ) - 1) := pow_le_pow_iff.mpr (by norm_num)
  rw [zpow_zero] at this
  linarith

/-- **Binary logarithms** (C108). -/
theorem ilogb_spec {a : EF} (ca : Canon a) (na : a.isNormal = true) (x y : ℤ) :
    (2 : ℚ) ^ ilogb x y a ≤ |a.val| ∧ |a.val| < 2 ^ (ilogb x y a + 1) ∧
    Represents a.logb (if ilogb x y a ≥ 0 then 1 else -1) (ilogb x y a) := by
  obtain ⟨o, p, q, hp, hmag⟩ := normal_parts ca na
  have hb0 : a.bn ≠ 0 := by omega
  have k1 : kMinExp = -200000000 := rfl
  have hf : a.isFinite = true := by
    unfold isFinite
    exact decide_eq_true ((isNormal_iff a).mp na).le
  rcases ca.finite_cases hf with ⟨-, b2, b3, b4, -, -⟩ | ⟨g, -⟩
  swap
  · rw [na] at g; cases g
  have e : ilogb x y a = a.fullExp - 1 := by unfold ilogb; simp [b2, b3, b4]
  have e' : a.logb = ofInt (a.fullExp - 1) := by unfold logb; simp [b2, b3, b4]
  rw [e, e', abs_val ca.sign]
  refine ⟨mant_ge hb0 _, ?_, ofInt_spec_partial _ (by omega)⟩
  rw [show a.fullExp - 1 + 1 = a.fullExp by ring]
  exact mant_lt _

/-- Logarithms of zeros, infinities and NaN (C108). -/
theorem logb_special (s : ℤ) (x y : ℤ) :
    (zero s).logb = inf (-1) ∧ ilogb x y (zero s) = x ∧
    (inf s).logb = inf 1 ∧ ilogb x y (inf s) = 2147483647 ∧
    nan.logb = nan ∧ ilogb x y nan = y := by
  refine ⟨?_, ?_, ?_, ?_, ?_, ?_⟩ <;> rfl

/-! ## Conversion to `double` -/

/-- The exponent of the last bit of the doubles near a number. -/
noncomputable def lastBit (x : ℚ) : ℤ := max (Int.log 2 |x| + 1 - 53) (-1074)

/-- The double nearest to a number with the given sign, ties to even; infinity at and above `2 ^ 1024`. -/
def NearestDouble (s : ℤ) (x : ℚ) (d : Dbl) : Prop :=
  ∃ n : ℕ, Rounds .tiesToEven (|x| / 2 ^ lastBit x) n ∧
    d = if (n : ℚ) * 2 ^ lastBit x < 2 ^ 1024 then .fin s (n * 2 ^ lastBit x) else .inf s

theorem halfEven_spec (m k : ℕ) : Rounds .tiesToEven ((m : ℚ) / 2 ^ k) (halfEven m k : ℕ) := by
  have hp : 0 < 2 ^ k := by positivity
  have hpq : (0 : ℚ) < ((2 ^ k : ℕ) : ℚ) := by exact_mod_cast hp
  have e1 : 2 ^ k * (m / 2 ^ k) + m % 2 ^ k = m := Nat.div_add_mod _ _
  have hr : m % 2 ^ k < 2 ^ k := Nat.mod_lt _ hp
  unfold halfEven
  simp only [Rounds]
  generalize hq : m / 2 ^ k = q at *
  generalize hrr : m % 2 ^ k = r at *
  have hy : (m : ℚ) / 2 ^ k = q + r / ((2 ^ k : ℕ) : ℚ) := by
    rw [← e1]
    push_cast
    field_simp
  rw [hy]
  generalize 2 ^ k = P at *
  have w0 : (0 : ℚ) ≤ r / (P : ℚ) := by positivity
  have w1 : r / (P : ℚ) < 1 := by rw [div_lt_one hpq]; exact_mod_cast hr
  have half_lt' : 1 / 2 < r / (P : ℚ) ↔ P < 2 * r := by
    rw [lt_div_iff₀ hpq, ← Nat.cast_lt (α := ℚ)]
    push_cast
    constructor <;> intro h <;> linarith
  have half_eq : r / (P : ℚ) = 1 / 2 ↔ 2 * r = P := by
    rw [div_eq_iff hpq.ne', ← Nat.cast_inj (R := ℚ)]
    push_cast
    constructor <;> intro h <;> linarith
  generalize r / (P : ℚ) = w at *
  split_ifs with c
  · push_cast
    rw [show (q : ℚ) + w - (q + 1) = w - 1 by ring, abs_of_nonpos (by linarith)]
    rcases c with c | ⟨c, c'⟩
    · have := half_lt'.mpr c
      exact ⟨by linarith, fun g => by linarith⟩
    · have := half_eq.mpr c
      exact ⟨by linarith, fun _ => by omega⟩
  · push Not at c
    push_cast
    rw [show (q : ℚ) + w - (q + 0) = w by ring, abs_of_nonneg w0]
    have h1 : w ≤ 1 / 2 := not_lt.mp (fun g => absurd (half_lt'.mp g) (not_lt.mpr c.1))
    refine ⟨h1, fun g => ?_⟩
    have := c.2 (half_eq.mp g)
    omega

/-- The binary logarithm of the absolute value. -/
theorem log_val {a : EF} (ca : Canon a) (na : a.isNormal = true) : Int.log 2 |a.val| = a.fullExp - 1 := by
  obtain ⟨o, p, q, hp, hmag⟩ := normal_parts ca na
  have hb0 : a.bn ≠ 0 := by omega
  have hpos : 0 < |a.val| := by rw [abs_val ca.sign]; exact hmag
  have h1 : (2 : ℚ) ^ (a.fullExp - 1) ≤ |a.val| := by rw [abs_val ca.sign]; exact mant_ge hb0 _
  have h2 : |a.val| < (2 : ℚ) ^ a.fullExp := by rw [abs_val ca.sign]; exact mant_lt _
  have g1 := (Int.zpow_le_iff_le_log (b := 2) (by norm_num) hpos).mp (by exact_mod_cast h1)
  have g2 := (Int.lt_zpow_iff_log_lt (b := 2) (by norm_num) hpos).mp (by exact_mod_cast h2)
  omega

theorem lastBit_val {a : EF} (ca : Canon a) (na : a.isNormal = true) : lastBit a.val = max (a.fullExp - 53) (-1074) := by
  unfold lastBit
  rw [log_val ca na]
  congr 1
  ring

theorem helper_spec {a : EF} (ca : Canon a) (na : a.isNormal = true) : NearestDouble a.sign a.val a.toDoubleHelper := by
  have hq := lastBit_val ca na
  unfold NearestDouble
  rw [hq, abs_val ca.sign]
  have hl : stdLdexp a.bn a.exp = if max (a.fullExp - 53) (-1074) ≤ a.exp then (a.bn : ℚ) * 2 ^ a.exp
      else halfEven a.bn (max (a.fullExp - 53) (-1074) - a.exp).toNat * 2 ^ (max (a.fullExp - 53) (-1074)) := rfl
  unfold toDoubleHelper
  rw [if_neg (by rw [na]; decide), hl]
  generalize max (a.fullExp - 53) (-1074) = q
  have hpq : (2 : ℚ) ^ q ≠ 0 := by positivity
  by_cases g : q ≤ a.exp
  · rw [if_pos g]
    have e2 := shift_mant (q := a.bn) (k := (a.exp - q).toNat) rfl q
    rw [show q + ((a.exp - q).toNat : ℤ) = a.exp by omega] at e2
    refine ⟨a.bn * 2 ^ (a.exp - q).toNat, ?_, by rw [e2]⟩
    rw [show a.mag = a.bn * 2 ^ a.exp from rfl, e2, mul_div_assoc, div_self hpq, mul_one]
    exact Rounds.int _ _
  · rw [if_neg g]
    refine ⟨halfEven a.bn (q - a.exp).toNat, ?_, rfl⟩
    have : a.mag / 2 ^ q = (a.bn : ℚ) / 2 ^ (q - a.exp).toNat := by
      rw [show a.mag = a.bn * 2 ^ a.exp from rfl]
      have : (2 : ℚ) ^ q = 2 ^ a.exp * 2 ^ (q - a.exp).toNat := by
        rw [← zpow_natCast, ← zpow_add₀ (by norm_num)]
        congr 1
        omega
      rw [this]
      field_simp
    rw [this]
    exact halfEven_spec _ _

/-- Full statement: the result is the nearest double. -/
def ToDoubleStatement : Prop := ∀ a : EF, Canon a → a.isNormal = true → NearestDouble a.sign a.val a.toDouble

/-- **Conversion to `double` rounds to the nearest one** (C108), for numbers of at most 53 bits and numbers that are not smaller than the least
normal double. -/
theorem toDouble_spec_partial {a : EF} (ca : Canon a) (na : a.isNormal = true) (h : a.prec ≤ 53 ∨ -1021 ≤ a.fullExp) :
    NearestDouble a.sign a.val a.toDouble := by
  unfold toDouble
  have k : kDoubleMantissaBits = 53 := rfl
  rw [k]
  by_cases hp : a.prec ≤ 53
  · rw [if_pos hp]
    exact helper_spec ca na
  rw [if_neg hp]
  have hfe : -1021 ≤ a.fullExp := by tauto
  obtain ⟨o, p, q, hpr, hmag⟩ := normal_parts ca na
  obtain ⟨rp, -, r3⟩ := roundToMaxPrec_spec ca na 53 (by norm_num) .tiesToEven
  obtain ⟨n, n1, n2⟩ := r3 (by omega)
  simp only [Nat.cast_ofNat] at n1 n2
  have hq : lastBit a.val = a.fullExp - 53 := by rw [lastBit_val ca na]; omega
  generalize hrr : a.roundToMaxPrec 53 .tiesToEven = r at rp n2 ⊢
  have k1 : kMinExp = -200000000 := rfl
  have k2 : kMaxExp = 200000000 := rfl
  have hpq : (0 : ℚ) < 2 ^ (a.fullExp - 53) := by positivity
  -- the rounded mantissa
  have hb0 : a.bn ≠ 0 := by omega
  have habs : |a.val| = a.mag := abs_val ca.sign
  have nn : Rounds .tiesToEven (|a.val| / 2 ^ (a.fullExp - 53)) |n| := by
    have e : |a.val| / 2 ^ (a.fullExp - 53) = |a.val / 2 ^ (a.fullExp - 53)| := by rw [abs_div, abs_of_pos hpq]
    rw [e]
    generalize a.val / 2 ^ (a.fullExp - 53) = y at n1
    obtain ⟨t1, t2⟩ := n1
    rcases le_or_gt 0 n with g | g
    · by_cases gy : 0 ≤ y
      · rw [abs_of_nonneg gy, abs_of_nonneg g]; exact ⟨t1, t2⟩
      · have hn0 : n = 0 := by
          rw [abs_le] at t1
          have : (n : ℚ) < 1 := by linarith
          have : n < 1 := by exact_mod_cast this
          omega
        rw [hn0] at t1 t2 ⊢
        rw [Int.cast_zero, sub_zero] at t1
        show |(|y|) - ((|0| : ℤ) : ℚ)| ≤ 1 / 2 ∧ (_ → |(0 : ℤ)| % 2 = 0)
        simp only [abs_zero, Int.cast_zero, sub_zero, abs_abs]
        exact ⟨t1, fun _ => rfl⟩
    · have gy : y ≤ 0 := by
        by_contra c
        rw [abs_le] at t1
        have : (n : ℚ) ≤ -1 := by exact_mod_cast (by omega : n ≤ -1)
        linarith
      rw [abs_of_nonpos gy, abs_of_neg g]
      show |-y - ((-n : ℤ) : ℚ)| ≤ 1 / 2 ∧ (|-y - ((-n : ℤ) : ℚ)| = 1 / 2 → (-n) % 2 = 0)
      rw [show -y - ((-n : ℤ) : ℚ) = -(y - n) by push_cast; ring, abs_neg]
      exact ⟨t1, fun z => by have := t2 z; omega⟩
  have hlow : (2 : ℚ) ^ (52 : ℤ) ≤ |a.val| / 2 ^ (a.fullExp - 53) := by
    rw [le_div_iff₀ hpq, ← zpow_add₀ (by norm_num), habs, show (52 : ℤ) + (a.fullExp - 53) = a.fullExp - 1 by ring]
    exact mant_ge hb0 _
  have hhigh : |a.val| / 2 ^ (a.fullExp - 53) < (2 : ℚ) ^ (53 : ℤ) := by
    rw [div_lt_iff₀ hpq, ← zpow_add₀ (by norm_num), habs, show (53 : ℤ) + (a.fullExp - 53) = a.fullExp by ring]
    exact mant_lt _
  have nlow : (2 : ℤ) ^ 52 ≤ |n| := by
    have := nn.1
    rw [abs_le] at this
    have h1 : (2 : ℚ) ^ 52 - 1 / 2 ≤ ((|n| : ℤ) : ℚ) := by
      have : (2 : ℚ) ^ (52 : ℤ) = 2 ^ 52 := by norm_cast
      linarith
    by_contra c
    have : |n| ≤ 2 ^ 52 - 1 := by omega
    have : ((|n| : ℤ) : ℚ) ≤ 2 ^ 52 - 1 := by exact_mod_cast this
    linarith
  have nhigh : |n| ≤ (2 : ℤ) ^ 53 := by
    have := nn.1
    rw [abs_le] at this
    have h1 : ((|n| : ℤ) : ℚ) ≤ (2 : ℚ) ^ 53 + 1 / 2 := by
      have : (2 : ℚ) ^ (53 : ℤ) = 2 ^ 53 := by norm_cast
      linarith
    by_contra c
    have : 2 ^ 53 + 1 ≤ |n| := by omega
    have : (2 : ℚ) ^ 53 + 1 ≤ ((|n| : ℤ) : ℚ) := by exact_mod_cast this
    linarith
  refine ⟨n.natAbs, ?_, ?_⟩
  · rw [hq, show ((n.natAbs : ℕ) : ℤ) = |n| from (Int.abs_eq_natAbs n).symm]
    exact nn
  rw [hq]
  have hN : (((n.natAbs : ℕ) : ℚ)) = ((|n| : ℤ) : ℚ) := by rw [Int.abs_eq_natAbs]; simp
  have hx : |(n : ℚ) * 2 ^ (a.fullExp - 53)| = (n.natAbs : ℕ) * 2 ^ (a.fullExp - 53) := by
    rw [abs_mul, abs_of_pos hpq, hN, Int.cast_abs]
  have bn52 : (2 : ℚ) ^ (a.fullExp - 1) ≤ (n.natAbs : ℕ) * 2 ^ (a.fullExp - 53) := by
    rw [show a.fullExp - 1 = 52 + (a.fullExp - 53) by ring, zpow_add₀ (by norm_num)]
    refine mul_le_mul_of_nonneg_right ?_ hpq.le
    rw [hN]
    exact_mod_cast nlow
  have bn53 : ((n.natAbs : ℕ) : ℚ) * 2 ^ (a.fullExp - 53) ≤ (2 : ℚ) ^ a.fullExp := by
    rw [show (2 : ℚ) ^ a.fullExp = 2 ^ (53 + (a.fullExp - 53)) by congr 1; ring, zpow_add₀ (by norm_num)]
    refine mul_le_mul_of_nonneg_right ?_ hpq.le
    rw [hN]
    exact_mod_cast nhigh
  by_cases hov : (2 : ℚ) ^ kMaxExp ≤ |(n : ℚ) * 2 ^ (a.fullExp - 53)|
  · have er := n2.large hov
    have b2 : ¬ ((n.natAbs : ℕ) : ℚ) * 2 ^ (a.fullExp - 53) < 2 ^ 1024 := by
      rw [not_lt, ← hx]
      refine le_trans ?_ hov
      have : (2 : ℚ) ^ (1024 : ℤ) ≤ 2 ^ kMaxExp := pow_le_pow_iff.mpr (by omega)
      exact_mod_cast this
    rw [if_neg b2, er]
    unfold toDoubleHelper
    have i1 : (EF.inf a.sign).isNormal = false := (not_normal_iff _).mpr (by show kExpZero ≤ kExpInfinity; decide)
    have i2 : (EF.inf a.sign).isZero = false := by unfold isZero; exact decide_eq_false (by show ¬ kExpInfinity = kExpZero; decide)
    have i3 : (EF.inf a.sign).isInf = true := by unfold isInf; exact decide_eq_true rfl
    rw [if_pos i1, if_neg (by rw [i2]; decide), if_pos i3]
    rfl
  · have hin : InRange ((n : ℚ) * 2 ^ (a.fullExp - 53)) := by
      refine ⟨?_, not_le.mp hov⟩
      rw [hx]
      exact (pow_le_pow_iff.mpr (by omega)).trans bn52
    have hlt : n.natAbs < 2 ^ 200 := by
      have : (n.natAbs : ℤ) ≤ 2 ^ 53 := by rw [← Int.abs_eq_natAbs]; exact nhigh
      have : n.natAbs ≤ 2 ^ 53 := by exact_mod_cast this
      exact this.trans_lt (by norm_num)
    obtain ⟨c1, c2, c3⟩ := n2.exact hin (small_precise _ _ hlt hx)
    have cr := n2.canon
    obtain ⟨ro, -, -, -, rmag⟩ := normal_parts cr c1
    have hrb : r.bn ≠ 0 := by omega
    have hrm : r.mag = (n.natAbs : ℕ) * 2 ^ (a.fullExp - 53) := by rw [← abs_val cr.sign, c3, hx]
    have hrfe : a.fullExp ≤ r.fullExp := by
      have h1 : r.mag < 2 ^ r.fullExp := mant_lt _
      rw [hrm] at h1
      have := pow_lt_pow_iff.mp (bn52.trans_lt h1)
      omega
    -- `std::ldexp` is exact
    have hexp : max (r.fullExp - 53) (-1074) ≤ r.exp := by
      have e1 : r.fullExp = r.exp + r.prec := rfl
      have h2 : a.fullExp - 53 ≤ r.exp := by
        by_contra c
        have e2 := shift_mant (q := n.natAbs) (k := (a.fullExp - 53 - r.exp).toNat) rfl r.exp
        rw [show r.exp + ((a.fullExp - 53 - r.exp).toNat : ℤ) = a.fullExp - 53 by omega, ← hrm] at e2
        have hp0 : (2 : ℚ) ^ r.exp ≠ 0 := by positivity
        have e3 : r.bn = n.natAbs * 2 ^ (a.fullExp - 53 - r.exp).toNat := by exact_mod_cast mul_right_cancel₀ hp0 e2
        obtain ⟨k, hk⟩ : ∃ k, (a.fullExp - 53 - r.exp).toNat = k + 1 := ⟨(a.fullExp - 53 - r.exp).toNat - 1, by omega⟩
        rw [hk, pow_succ, ← mul_assoc] at e3
        omega
      omega
    have hstd : stdLdexp r.bn r.exp = (n.natAbs : ℕ) * 2 ^ (a.fullExp - 53) := by
      have : stdLdexp r.bn r.exp = if max (r.fullExp - 53) (-1074) ≤ r.exp then (r.bn : ℚ) * 2 ^ r.exp
          else halfEven r.bn (max (r.fullExp - 53) (-1074) - r.exp).toNat * 2 ^ (max (r.fullExp - 53) (-1074)) := rfl
      rw [this, if_pos hexp, ← hrm]
      rfl
    unfold toDoubleHelper
    rw [if_neg (by rw [c1]; decide), hstd, c2]

/-- **Special values** (C108). -/
theorem toDouble_special {a : EF} (ca : Canon a) :
    (a.isZero = true → a.toDouble = .fin a.sign 0) ∧ (a.isInf = true → a.toDouble = .inf a.sign) ∧ (a.isNan = true → a.toDouble = .nan) := by
  have hp : a.isNormal = false → a.toDouble = a.toDoubleHelper := by
    intro h
    have : a.bn = 0 := by
      rcases ca.form with ⟨g, -⟩ | ⟨-, z, -⟩
      · rw [h] at g; cases g
      · exact z
    unfold toDouble
    rw [if_pos]
    unfold prec
    rw [this, show numBits 0 = 0 by decide]
    exact Nat.zero_le _
  refine ⟨fun h => ?_, fun h => ?_, fun h => ?_⟩
  · have n : a.isNormal = false := (not_normal_iff a).mpr (of_decide_eq_true h : a.exp = kExpZero).ge
    rw [hp n]
    unfold toDoubleHelper
    rw [if_pos n, if_pos h]
  · rw [hp (inf_parts h).1]
    unfold toDoubleHelper
    rw [if_pos (inf_parts h).1, if_neg (by rw [(inf_parts h).2.2.1]; decide), if_pos h]
  · rw [hp (nan_parts h).1]
    unfold toDoubleHelper
    rw [if_pos (nan_parts h).1, if_neg (by rw [(nan_parts h).2.2.1]; decide), if_neg (by rw [(nan_parts h).2.1]; decide)]

/-- **A double survives the way to an exact number and back** (C108). -/
theorem double_roundtrip (v : FinDouble) (hm : v.m < 2 ^ 53) (he : -1074 ≤ v.e) (he' : v.e ≤ 971) (h0 : v.m ≠ 0) :
    (ofDouble v).toDouble = .fin (if v.neg then -1 else 1) (v.m * 2 ^ v.e) := by
  have h := ofDouble_spec v hm (by omega)
  obtain ⟨n1, n2⟩ := ofDouble_exact v hm (by omega) (by omega) h0
  have habs : |v.val| = v.m * 2 ^ v.e := by
    unfold FinDouble.val
    have : (0 : ℚ) ≤ v.m * 2 ^ v.e := by positivity
    rw [mul_assoc, abs_mul, abs_of_nonneg this]
    split_ifs <;> simp
  have hs : (ofDouble v).sign = if v.neg then -1 else 1 := by
    have hv : (ofDouble v).val = v.val := n2
    rw [val_eq] at hv
    have hmag : (ofDouble v).mag = v.m * 2 ^ v.e := by rw [← abs_val h.canon.sign, n2, habs]
    have hpos : (0 : ℚ) < v.m * 2 ^ v.e := by
      have : 0 < v.m := Nat.pos_of_ne_zero h0
      positivity
    rw [hmag] at hv
    unfold FinDouble.val at hv
    rw [mul_assoc] at hv
    have := mul_right_cancel₀ hpos.ne' hv
    have e2 : (((ofDouble v).sign : ℤ) : ℚ) = ((if v.neg then -1 else 1 : ℤ) : ℚ) := by
      rw [this]
      split_ifs <;> simp
    exact Int.cast_injective e2
  have hp : (ofDouble v).prec ≤ 53 := prec_le h habs hm.le (by norm_num)
  obtain ⟨n, r1, r2⟩ := toDouble_spec_partial h.canon n1 (.inl hp)
  rw [hs, n2] at r2
  rw [n2] at r1
  have hb : numBits v.m ≤ 53 := numBits_le_iff.mpr hm
  have hq : lastBit v.val ≤ v.e := by
    have e1 : lastBit v.val = max ((ofDouble v).fullExp - 53) (-1074) := by rw [← n2]; exact lastBit_val h.canon n1
    have e2 : (ofDouble v).fullExp ≤ v.e + numBits v.m := by
      have b0 : (ofDouble v).bn ≠ 0 := by
        have := (normal_parts h.canon n1).1
        omega
      have g1 := mant_ge b0 (ofDouble v).exp
      rw [show ((ofDouble v).bn : ℚ) * 2 ^ (ofDouble v).exp = (ofDouble v).mag from rfl, ← abs_val h.canon.sign, n2, habs] at g1
      have := pow_lt_pow_iff.mp (g1.trans_lt (mant_lt v.e))
      have e3 : (ofDouble v).fullExp = (ofDouble v).exp + numBits (ofDouble v).bn := rfl
      omega
    omega
  generalize lastBit v.val = q at *
  have hpq : (2 : ℚ) ^ q ≠ 0 := by positivity
  have e2 := shift_mant (q := v.m) (k := (v.e - q).toNat) rfl q
  rw [show q + ((v.e - q).toNat : ℤ) = v.e by omega] at e2
  rw [habs, e2, mul_div_assoc, div_self hpq, mul_one] at r1
  have hn : (n : ℤ) = ((v.m * 2 ^ (v.e - q).toNat : ℕ) : ℤ) := r1.unique (Rounds.int _ ((v.m * 2 ^ (v.e - q).toNat : ℕ) : ℤ))
  have hn' : n = v.m * 2 ^ (v.e - q).toNat := by exact_mod_cast hn
  rw [hn', ← e2, if_pos] at r2
  · exact r2
  · refine (mant_lt v.e).trans_le ?_
    have : (2 : ℚ) ^ (v.e + (numBits v.m : ℤ)) ≤ 2 ^ (1024 : ℤ) := pow_le_pow_iff.mpr (by omega)
    exact_mod_cast this

/-- **Subnormal doubles are rounded twice** (C108): `(2 ^ 60 + 1) · 2 ^ -1135` is nearest to `2 ^ -1074`; the code gives zero. -/
theorem toDouble_violated : ¬ ToDoubleStatement := by
  intro h
  have hnb : numBits (2 ^ 60 + 1) = 61 := by decide +kernel
  have hf : EF.fullExp ⟨1, -1135, 2 ^ 60 + 1⟩ = -1074 := by
    show (-1135 : ℤ) + (numBits (2 ^ 60 + 1) : ℕ) = _
    rw [hnb]
    norm_num
  have k1 : kMinExp = -200000000 := rfl
  have k2 : kMaxExp = 200000000 := rfl
  have n : EF.isNormal ⟨1, -1135, 2 ^ 60 + 1⟩ = true := by rw [isNormal_iff]; show (-1135 : ℤ) < kExpZero; decide
  have pr : EF.prec ⟨1, -1135, 2 ^ 60 + 1⟩ = 61 := hnb
  have c : Canon ⟨1, -1135, 2 ^ 60 + 1⟩ := by
    refine ⟨.inl rfl, .inl ⟨n, by show (2 ^ 60 + 1) % 2 = 1; norm_num, by omega, by omega, ?_⟩⟩
    rw [pr]; decide
  have hv : EF.val ⟨1, -1135, 2 ^ 60 + 1⟩ = (2 ^ 60 + 1) * 2 ^ (-1135 : ℤ) := by
    unfold EF.val
    push_cast
    ring
  have key := h _ c n
  -- the code
  obtain ⟨-, -, r3⟩ := roundToMaxPrec_spec c n 53 (by norm_num) .tiesToEven
  obtain ⟨m, m1, m2⟩ := r3 (by rw [pr]; norm_num)
  rw [hf, hv] at m1
  rw [hf] at m2
  simp only [Nat.cast_ofNat] at m1 m2
  have hm : m = 2 ^ 52 := by
    refine m1.unique ?_
    have e : ((2 : ℚ) ^ 60 + 1) * 2 ^ (-1135 : ℤ) / 2 ^ ((-1074 : ℤ) - 53) = 2 ^ 52 + 1 / 2 ^ 8 := by
      rw [mul_div_assoc, ← zpow_sub₀ (by norm_num)]
      norm_num
    rw [e]
    simp only [Rounds]
    norm_num [abs_of_pos]
  have one : EF.fullExp ⟨1, -1075, 1⟩ = -1074 := by
    show (-1075 : ℤ) + (numBits 1 : ℕ) = _
    rw [show numBits 1 = 1 by decide]
    norm_num
  have n1 : EF.isNormal ⟨1, -1075, 1⟩ = true := by rw [isNormal_iff]; show (-1075 : ℤ) < kExpZero; decide
  have c1 : Canon ⟨1, -1075, 1⟩ := by
    refine ⟨.inl rfl, .inl ⟨n1, by show 1 % 2 = 1; norm_num, by omega, by omega, ?_⟩⟩
    show numBits 1 ≤ kMaxPrec
    rw [show numBits 1 = 1 by decide]; decide
  have v1 : EF.val ⟨1, -1075, 1⟩ = ((m : ℤ) : ℚ) * 2 ^ ((-1074 : ℤ) - 53) := by
    unfold EF.val
    rw [hm, show ((2 ^ 52 : ℤ) : ℚ) = 2 ^ (52 : ℤ) by norm_cast, ← zpow_add₀ (by norm_num)]
    norm_num
  have er : EF.roundToMaxPrec ⟨1, -1135, 2 ^ 60 + 1⟩ 53 .tiesToEven = ⟨1, -1075, 1⟩ := by
    refine m2.unique ?_
    rw [← v1]
    exact represents_self c1 n1
  have ec : EF.toDouble ⟨1, -1135, 2 ^ 60 + 1⟩ = .fin 1 0 := by
    unfold toDouble
    have k : kDoubleMantissaBits = 53 := rfl
    rw [pr, k, if_neg (by norm_num), er]
    unfold toDoubleHelper
    rw [if_neg (by rw [n1]; decide)]
    have hz : stdLdexp 1 (-1075) = 0 := by
      have : stdLdexp 1 (-1075) = (halfEven 1 1 : ℕ) * 2 ^ (-1074 : ℤ) := by
        unfold stdLdexp
        rw [show numBits 1 = 1 by decide, k]
        norm_num
      rw [this, show halfEven 1 1 = 0 by decide]
      simp
    show (if stdLdexp 1 (-1075) < 2 ^ 1024 then Dbl.fin 1 (stdLdexp 1 (-1075)) else .inf 1) = _
    rw [hz, if_pos (by positivity)]
  -- the nearest double
  rw [ec] at key
  obtain ⟨N, N1, N2⟩ := key
  have hq : lastBit (EF.val ⟨1, -1135, 2 ^ 60 + 1⟩) = -1074 := by
    rw [lastBit_val c n, hf]
    norm_num
  have hN : ((N : ℕ) : ℤ) = 1 := by
    refine N1.unique ?_
    rw [hq, hv, abs_of_pos (by positivity)]
    have e : ((2 : ℚ) ^ 60 + 1) * 2 ^ (-1135 : ℤ) / 2 ^ (-1074 : ℤ) = 1 / 2 + 1 / 2 ^ 61 := by
      rw [mul_div_assoc, ← zpow_sub₀ (by norm_num)]
      norm_num
    rw [e]
    simp only [Rounds]
    norm_num [abs_of_pos, abs_of_neg]
  have hN' : N = 1 := by exact_mod_cast hN
  rw [hq, hN', Nat.cast_one, one_mul] at N2
  have hlt : (2 : ℚ) ^ (-1074 : ℤ) < 2 ^ 1024 := by
    have : (2 : ℚ) ^ (-1074 : ℤ) < 2 ^ (1024 : ℤ) := pow_lt_pow_iff.mpr (by norm_num)
    exact_mod_cast this
  rw [if_pos hlt] at N2
  injection N2 with _ e
  have : (0 : ℚ) < 2 ^ (-1074 : ℤ) := by positivity
  linarith

end Verif.ExactFloat
