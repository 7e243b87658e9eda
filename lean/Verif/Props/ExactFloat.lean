import Verif.Lemmas.ExactFloat

/-!
C105: arithmetic on exact numbers is exact.
-/

namespace Verif.ExactFloat

/-! ## Specification -/

/-- The value of a finite number. -/
def EF.val (a : EF) : ℚ := a.sign * a.bn * 2 ^ a.exp

/-- The numbers that the public interface can make: signs are ±1; normal numbers have an odd mantissa of at most
`kMaxPrec` bits and an exponent in range; the others are zeros, infinities and NaN. -/
structure Canon (a : EF) : Prop where
  sign : a.sign = 1 ∨ a.sign = -1
  form : (a.isNormal = true ∧ a.bn % 2 = 1 ∧ kMinExp ≤ a.fullExp ∧ a.fullExp ≤ kMaxExp ∧ a.prec ≤ kMaxPrec) ∨
    (a.isNormal = false ∧ a.bn = 0 ∧ (a.isZero = true ∨ a.isInf = true ∨ a.isNan = true))

/-- The size is in the range of exponents. -/
def InRange (x : ℚ) : Prop := 2 ^ (kMinExp - 1) ≤ |x| ∧ |x| < 2 ^ kMaxExp

/-- The number is a multiple of a power of two by at most `kMaxPrec` bits. -/
def Precise (x : ℚ) : Prop := ∃ (n : ℕ) (e : ℤ), n < 2 ^ kMaxPrec ∧ |x| = n * 2 ^ e

/-- The result of a computation whose exact value is `x`: the exact value; zero or infinity with the given sign if it is too small or too large;
NaN if it needs too many bits. -/
structure Represents (r : EF) (s : ℤ) (x : ℚ) : Prop where
  canon : Canon r
  small : |x| < 2 ^ (kMinExp - 1) → r = .zero s
  large : 2 ^ kMaxExp ≤ |x| → r = .inf s
  exact : InRange x → Precise x → r.isNormal = true ∧ r.sign = s ∧ r.val = x
  imprecise : InRange x → ¬ Precise x → r = .nan

/-- The sign of a number, or the given one for zero. -/
def sgnOr (z : ℤ) (x : ℚ) : ℤ := if 0 < x then 1 else if x < 0 then -1 else z

/-! ## The canonical form -/

namespace EF

/-- The absolute value of a finite number. -/
def mag (a : EF) : ℚ := a.bn * 2 ^ a.exp

theorem mag_nonneg (a : EF) : 0 ≤ a.mag := by unfold mag; positivity

theorem val_eq (a : EF) : a.val = a.sign * a.mag := by unfold val mag; ring

theorem abs_val {a : EF} (h : a.sign = 1 ∨ a.sign = -1) : |a.val| = a.mag := by
  rw [val_eq]
  rcases h with h | h <;> rw [h]
  · push_cast; rw [one_mul, abs_of_nonneg a.mag_nonneg]
  · push_cast; rw [neg_one_mul, abs_neg, abs_of_nonneg a.mag_nonneg]

theorem isNormal_iff (a : EF) : a.isNormal = true ↔ a.exp < kExpZero := by unfold isNormal; exact decide_eq_true_iff

theorem not_normal_iff (a : EF) : a.isNormal = false ↔ kExpZero ≤ a.exp := by
  rw [← Bool.not_eq_true, isNormal_iff, not_lt]

end EF

open EF

/-- The number that `canonicalize` tests for the precision. -/
private def core (a : EF) : EF :=
  if a.fullExp < kMinExp ∨ a.bn = 0 then zero a.sign
  else if a.fullExp > kMaxExp then inf a.sign
  else if a.bn % 2 = 1 then a
  else ⟨a.sign, a.exp + lowZeros a.bn, a.bn / 2 ^ lowZeros a.bn⟩

private theorem canonicalize_core {a : EF} (hn : a.isNormal = true) {r : EF} (h : core a = r) :
    a.canonicalize = if r.prec > kMaxPrec then nan else r := by
  rw [← h]
  unfold canonicalize
  rw [if_neg (by rw [hn]; decide)]
  rfl

theorem canon_zero {s : ℤ} (h : s = 1 ∨ s = -1) : Canon (zero s) :=
  ⟨h, .inr ⟨by simp [isNormal, zero], rfl, .inl (by simp [isZero, zero])⟩⟩

theorem canon_inf {s : ℤ} (h : s = 1 ∨ s = -1) : Canon (inf s) :=
  ⟨h, .inr ⟨(not_normal_iff _).mpr (by show kExpZero ≤ kExpInfinity; decide), rfl, .inr (.inl (by simp [isInf, inf]))⟩⟩

theorem canon_nan : Canon nan := ⟨.inl rfl, .inr ⟨by decide, rfl, .inr (.inr (by decide))⟩⟩

theorem mag_range {a : EF} (h0 : a.bn ≠ 0) :
    (a.fullExp < kMinExp ↔ a.mag < 2 ^ (kMinExp - 1)) ∧ (a.fullExp > kMaxExp ↔ 2 ^ kMaxExp ≤ a.mag) := by
  have h1 := mant_lt (n := a.bn) a.exp
  have h2 := mant_ge h0 a.exp
  unfold fullExp mag
  constructor
  · constructor
    · intro h
      exact h1.trans_le (pow_le_pow_iff.mpr (by omega))
    · intro h
      have := pow_lt_pow_iff.mp (h2.trans_lt h)
      omega
  · constructor
    · intro h
      exact (pow_le_pow_iff.mpr (by omega)).trans h2
    · intro h
      exact pow_lt_pow_iff.mp (h.trans_lt h1)

theorem shift_mant {q k n : ℕ} (h : q * 2 ^ k = n) (e : ℤ) : (q : ℚ) * 2 ^ (e + (k : ℤ)) = n * 2 ^ e := by
  rw [← h, zpow_add₀ (by norm_num), zpow_natCast]
  push_cast
  ring

/-- A number with an odd mantissa is precise exactly if the mantissa is short enough. -/
theorem precise_odd {n : ℕ} {e : ℤ} (hn : n % 2 = 1) {x : ℚ} (hx : |x| = n * 2 ^ e) : Precise x ↔ numBits n ≤ kMaxPrec := by
  have hn0 : 0 < n := by omega
  constructor
  · rintro ⟨m, f, hm, e2⟩
    have hm0 : m ≠ 0 := by
      rintro rfl
      rw [e2, Nat.cast_zero, zero_mul] at hx
      have : (0 : ℚ) < n * 2 ^ e := by positivity
      linarith
    obtain ⟨o1, o2⟩ := lowZeros_odd hm0
    have e3 : (n : ℚ) * 2 ^ e = (m / 2 ^ lowZeros m : ℕ) * 2 ^ (f + lowZeros m) := by
      rw [shift_mant o2, ← hx, e2]
    rw [(odd_pow_unique hn o1 e3).1, numBits_le_iff]
    exact (Nat.div_le_self _ _).trans_lt hm
  · intro h
    exact ⟨n, e, numBits_le_iff.mp h, hx⟩

theorem lowZeros_of_odd {n : ℕ} (h : n % 2 = 1) : lowZeros n = 0 := by
  by_contra g
  have h0 : n ≠ 0 := by omega
  have := (lowZeros_spec h0 1).mpr (by omega)
  omega

/-- **The canonical form** (C105). -/
theorem canonicalize_spec {a : EF} (hs : a.sign = 1 ∨ a.sign = -1) (hn : a.isNormal = true) :
    Represents a.canonicalize a.sign a.val := by
  have habs := abs_val hs
  have hpos : (0 : ℚ) < 2 ^ (kMinExp - 1) := by positivity
  have hlt : (2 : ℚ) ^ (kMinExp - 1) < 2 ^ kMaxExp := pow_lt_pow_iff.mpr (by unfold kMinExp kMaxExp; norm_num)
  have pz : ∀ s, (zero s).prec = 0 := fun s => Nat.size_zero
  have pi : ∀ s, (inf s).prec = 0 := fun s => Nat.size_zero
  by_cases h0 : a.bn = 0
  · have hm : a.mag = 0 := by unfold mag; rw [h0]; simp
    have hc : a.canonicalize = zero a.sign := by
      rw [canonicalize_core hn (if_pos (.inr h0)), if_neg (by rw [pz]; exact Nat.not_lt_zero _)]
    rw [hc]
    refine ⟨canon_zero hs, fun _ => rfl, fun h => ?_, fun h => ?_, fun h => ?_⟩
    · rw [habs, hm] at h; linarith
    · unfold InRange at h; rw [habs, hm] at h; linarith [h.1]
    · unfold InRange at h; rw [habs, hm] at h; linarith [h.1]
  obtain ⟨r1, r2⟩ := mag_range h0
  by_cases h1 : a.fullExp < kMinExp
  · have hc : a.canonicalize = zero a.sign := by
      rw [canonicalize_core hn (if_pos (.inl h1)), if_neg (by rw [pz]; exact Nat.not_lt_zero _)]
    rw [hc]
    have hm := r1.mp h1
    refine ⟨canon_zero hs, fun _ => rfl, fun h => ?_, fun h => ?_, fun h => ?_⟩
    · rw [habs] at h; linarith
    · unfold InRange at h; rw [habs] at h; linarith [h.1]
    · unfold InRange at h; rw [habs] at h; linarith [h.1]
  by_cases h2 : a.fullExp > kMaxExp
  · have hc : a.canonicalize = inf a.sign := by
      rw [canonicalize_core hn ((if_neg (by rintro (g | g); exacts [h1 g, h0 g])).trans (if_pos h2)),
        if_neg (by rw [pi]; exact Nat.not_lt_zero _)]
    rw [hc]
    have hm := r2.mp h2
    refine ⟨canon_inf hs, fun h => ?_, fun _ => rfl, fun h => ?_, fun h => ?_⟩
    · rw [habs] at h; linarith
    · unfold InRange at h; rw [habs] at h; linarith [h.2]
    · unfold InRange at h; rw [habs] at h; linarith [h.2]
  obtain ⟨o1, o2⟩ := lowZeros_odd h0
  set r : EF := ⟨a.sign, a.exp + lowZeros a.bn, a.bn / 2 ^ lowZeros a.bn⟩ with hr
  have hrr : (if a.bn % 2 = 1 then a else r) = r := by
    split_ifs with g
    · rw [hr, lowZeros_of_odd g]
      ext <;> simp
    · rfl
  have hc : a.canonicalize = if r.prec > kMaxPrec then nan else r :=
    canonicalize_core hn ((if_neg (by rintro (g | g); exacts [h1 g, h0 g])).trans ((if_neg h2).trans hrr))
  have hb0 : r.bn ≠ 0 := by
    intro g
    have : a.bn / 2 ^ lowZeros a.bn = 0 := g
    rw [this] at o1
    exact absurd o1 (by decide)
  have hmag : r.mag = a.mag := by
    unfold mag
    show ((a.bn / 2 ^ lowZeros a.bn : ℕ) : ℚ) * 2 ^ (a.exp + (lowZeros a.bn : ℤ)) = _
    exact shift_mant o2 _
  have hval : r.val = a.val := by rw [val_eq, val_eq, hmag]
  have hfe : r.fullExp = a.fullExp := by
    unfold fullExp
    show a.exp + (lowZeros a.bn : ℤ) + (numBits (a.bn / 2 ^ lowZeros a.bn) : ℤ) = _
    have : numBits a.bn = numBits (a.bn / 2 ^ lowZeros a.bn) + lowZeros a.bn := by
      conv_lhs => rw [← o2]
      exact numBits_mul_pow hb0 _
    omega
  have hnorm : r.isNormal = true := by
    rw [isNormal_iff]
    have := numBits_pos hb0
    have h3 : r.fullExp = r.exp + numBits r.bn := rfl
    have h4 : kMaxExp < kExpZero := by decide
    omega
  have hin : InRange a.val := by
    unfold InRange
    rw [habs]
    exact ⟨not_lt.mp (fun g => h1 (r1.mpr g)), not_le.mp (fun g => h2 (r2.mpr g))⟩
  have hprec := precise_odd (x := a.val) (n := r.bn) (e := r.exp) o1 (by rw [habs, ← hmag]; rfl)
  rw [hc]
  by_cases hp : r.prec > kMaxPrec
  · rw [if_pos hp]
    refine ⟨canon_nan, fun h => ?_, fun h => ?_, fun _ h => ?_, fun _ _ => rfl⟩
    · exact absurd h (not_lt.mpr hin.1)
    · exact absurd h (not_le.mpr hin.2)
    · exact absurd (hprec.mp h) (not_le.mpr hp)
  · rw [if_neg hp]
    refine ⟨⟨hs, .inl ⟨hnorm, o1, by omega, by omega, not_lt.mp hp⟩⟩, fun h => ?_, fun h => ?_, fun _ _ => ⟨hnorm, rfl, hval⟩, fun _ h => ?_⟩
    · exact absurd h (not_lt.mpr hin.1)
    · exact absurd h (not_le.mpr hin.2)
    · exact absurd (hprec.mpr (not_lt.mp hp)) h


/-! ## Numbers -/

theorem Canon.finite_cases {a : EF} (h : Canon a) (hf : a.isFinite = true) :
    (a.isNormal = true ∧ a.isZero = false ∧ a.isInf = false ∧ a.isNan = false ∧ a.bn % 2 = 1 ∧ 0 < a.mag) ∨
    (a.isNormal = false ∧ a.isZero = true ∧ a.isInf = false ∧ a.isNan = false ∧ a.bn = 0 ∧ a.mag = 0) := by
  have hle : a.exp ≤ kExpZero := by unfold isFinite at hf; exact of_decide_eq_true hf
  have k1 : kExpZero < kExpInfinity := by decide
  have k2 : kExpZero < kExpNaN := by decide
  have hi : a.isInf = false := by unfold isInf; simpa using by omega
  have hnn : a.isNan = false := by unfold isNan; simpa using by omega
  rcases h.form with ⟨g, o, -⟩ | ⟨g, z, c⟩
  · refine .inl ⟨g, ?_, hi, hnn, o, ?_⟩
    · have := (isNormal_iff a).mp g
      unfold isZero
      simpa using by omega
    · have : 0 < a.bn := by omega
      unfold mag
      positivity
  · refine .inr ⟨g, ?_, hi, hnn, z, by unfold mag; rw [z]; simp⟩
    rw [hi, hnn] at c
    simpa using c

/-- A number represents its own value. -/
theorem represents_self {a : EF} (h : Canon a) (hn : a.isNormal = true) : Represents a a.sign a.val := by
  have habs := abs_val h.sign
  rcases h.form with ⟨-, o, h1, h2, hp⟩ | ⟨g, -⟩
  · have h0 : a.bn ≠ 0 := by omega
    obtain ⟨r1, r2⟩ := mag_range h0
    have hin : InRange a.val := by
      unfold InRange
      rw [habs]
      exact ⟨not_lt.mp (fun g => absurd (r1.mpr g) (not_lt.mpr h1)), not_le.mp (fun g => absurd (r2.mpr g) (not_lt.mpr h2))⟩
    have hprec := (precise_odd (x := a.val) (n := a.bn) (e := a.exp) o (by rw [habs]; rfl)).mpr hp
    exact ⟨h, fun g => absurd g (not_lt.mpr hin.1), fun g => absurd g (not_le.mpr hin.2), fun _ _ => ⟨hn, rfl, rfl⟩,
      fun _ g => absurd hprec g⟩
  · rw [hn] at g; cases g

theorem represents_zero {s : ℤ} (h : s = 1 ∨ s = -1) : Represents (zero s) s 0 := by
  have hpos : (0 : ℚ) < 2 ^ (kMinExp - 1) := by positivity
  have hpos2 : (0 : ℚ) < 2 ^ kMaxExp := by positivity
  refine ⟨canon_zero h, fun _ => rfl, fun g => ?_, fun g => ?_, fun g => ?_⟩
  · rw [abs_zero] at g; linarith
  · unfold InRange at g; rw [abs_zero] at g; linarith [g.1]
  · unfold InRange at g; rw [abs_zero] at g; linarith [g.1]

/-- The result of a computation is determined by its exact value and the sign. -/
theorem Represents.unique {r r' : EF} {s : ℤ} {x : ℚ} (h : Represents r s x) (h' : Represents r' s x) : r = r' := by
  rcases lt_or_ge |x| (2 ^ (kMinExp - 1)) with g | g
  · rw [h.small g, h'.small g]
  rcases le_or_gt (2 ^ kMaxExp) |x| with g' | g'
  · rw [h.large g', h'.large g']
  by_cases p : Precise x
  · obtain ⟨a1, a2, a3⟩ := h.exact ⟨g, g'⟩ p
    obtain ⟨b1, b2, b3⟩ := h'.exact ⟨g, g'⟩ p
    have om : r.bn % 2 = 1 := by
      rcases h.canon.form with ⟨-, o, -⟩ | ⟨q, -⟩
      · exact o
      · rw [a1] at q; cases q
    have om' : r'.bn % 2 = 1 := by
      rcases h'.canon.form with ⟨-, o, -⟩ | ⟨q, -⟩
      · exact o
      · rw [b1] at q; cases q
    have e : r.mag = r'.mag := by rw [← abs_val h.canon.sign, ← abs_val h'.canon.sign, a3, b3]
    obtain ⟨e1, e2⟩ := odd_pow_unique om om' e
    ext
    · rw [a2, b2]
    · exact e2
    · exact e1
  · rw [h.imprecise ⟨g, g'⟩ p, h'.imprecise ⟨g, g'⟩ p]

/-- **Each value has one representation** (C105). -/
theorem val_injective {a b : EF} (ha : Canon a) (hb : Canon b) (na : a.isNormal = true) (nb : b.isNormal = true) (h : a.val = b.val) : a = b := by
  have h1 := represents_self ha na
  have h2 := represents_self hb nb
  have pos : ∀ {c : EF}, Canon c → c.isNormal = true → 0 < c.mag := by
    intro c hc nc
    have hf : c.isFinite = true := by
      unfold isFinite
      exact decide_eq_true ((isNormal_iff c).mp nc).le
    rcases hc.finite_cases hf with g | g
    · exact g.2.2.2.2.2
    · rw [nc] at g; cases g.1
  have hs : a.sign = b.sign := by
    rw [val_eq, val_eq] at h
    have pa := pos ha na
    have pb := pos hb nb
    rcases ha.sign with x | x <;> rcases hb.sign with y | y <;> rw [x, y] at h ⊢ <;> push_cast at h <;> linarith
  rw [← h, ← hs] at h2
  exact h1.unique h2

/-- **The exponents stay far from the limits of `int`** (C105): sums and differences of two of them do not overflow. -/
theorem exponents_fit {a : EF} (h : Canon a) (hn : a.isNormal = true) : |a.exp| < 2 ^ 29 ∧ |a.fullExp| < 2 ^ 29 := by
  rcases h.form with ⟨-, -, h1, h2, hp⟩ | ⟨g, -⟩
  · have e : a.fullExp = a.exp + a.prec := rfl
    have k : kMinExp = -200000000 := rfl
    have k' : kMaxExp = 200000000 := rfl
    have k'' : kMaxPrec = 67108864 := rfl
    rw [abs_lt, abs_lt]
    omega
  · rw [hn] at g; cases g

/-! ## Constructors -/

/-- The value of a finite `double`. -/
def FinDouble.val (v : FinDouble) : ℚ := (if v.neg then -1 else 1) * v.m * 2 ^ v.e

/-- **Conversion from `double` is exact** (C105). -/
theorem ofDouble_spec (v : FinDouble) (hm : v.m < 2 ^ 53) (he : v.e < 2000) :
    Represents (ofDouble v) (if v.neg then -1 else 1) v.val := by
  have hs : (if v.neg then (-1 : ℤ) else 1) = 1 ∨ (if v.neg then (-1 : ℤ) else 1) = -1 := by split_ifs <;> simp
  have k : kExpZero = 2147483645 := rfl
  unfold ofDouble
  by_cases h0 : v.m = 0
  · simp only [h0, if_true]
    have := canonicalize_spec (a := ⟨if v.neg then -1 else 1, -53, 0⟩) hs (by rw [isNormal_iff]; show (-53 : ℤ) < kExpZero; decide)
    have e : v.val = EF.val ⟨if v.neg then -1 else 1, -53, 0⟩ := by unfold FinDouble.val EF.val; rw [h0]; simp
    rw [e]
    exact this
  · simp only [h0, if_false]
    have hb : numBits v.m ≤ 53 := numBits_le_iff.mpr hm
    have hmm : v.m * 2 ^ (53 - numBits v.m) = v.m * 2 ^ (53 - numBits v.m) := rfl
    have key := canonicalize_spec (a := ⟨if v.neg then -1 else 1, v.e + numBits v.m - 53, v.m * 2 ^ (53 - numBits v.m)⟩) hs
      (by rw [isNormal_iff]; show v.e + numBits v.m - 53 < kExpZero; omega)
    have e : v.val = EF.val ⟨if v.neg then -1 else 1, v.e + numBits v.m - 53, v.m * 2 ^ (53 - numBits v.m)⟩ := by
      unfold FinDouble.val EF.val
      have e2 := shift_mant hmm (v.e + numBits v.m - 53)
      simp only
      rw [mul_assoc, mul_assoc, ← e2, show v.e + (numBits v.m : ℤ) - 53 + ((53 - numBits v.m : ℕ) : ℤ) = v.e by omega]
      split_ifs <;> simp
    rw [e]
    exact key

/-- **Doubles are represented**, as their exponents are in range (C105). -/
theorem ofDouble_exact (v : FinDouble) (hm : v.m < 2 ^ 53) (he : v.e < 2000) (he' : -2000 < v.e) (h0 : v.m ≠ 0) :
    (ofDouble v).isNormal = true ∧ (ofDouble v).val = v.val := by
  have h := ofDouble_spec v hm he
  have habs : |v.val| = v.m * 2 ^ v.e := by
    unfold FinDouble.val
    have : (0 : ℚ) ≤ v.m * 2 ^ v.e := by positivity
    rw [mul_assoc, abs_mul, abs_of_nonneg this]
    split_ifs <;> simp
  have h1 := mant_lt (n := v.m) v.e
  have h2 := mant_ge h0 v.e
  have hb : numBits v.m ≤ 53 := numBits_le_iff.mpr hm
  have hb1 := numBits_pos h0
  have k : kMinExp = -200000000 := rfl
  have k' : kMaxExp = 200000000 := rfl
  have hp : Precise v.val := ⟨v.m, v.e, hm.trans_le (Nat.pow_le_pow_right (by norm_num) (by decide)), habs⟩
  have hi : InRange v.val := by
    unfold InRange
    rw [habs]
    exact ⟨(pow_le_pow_iff.mpr (by omega)).trans h2, h1.trans_le (pow_le_pow_iff.mpr (by omega))⟩
  exact ⟨(h.exact hi hp).1, (h.exact hi hp).2.2⟩

/-- Full statement: the constructor gives every `int`. -/
def OfIntStatement : Prop := ∀ v : ℤ, -2 ^ 31 ≤ v → v < 2 ^ 31 → Represents (ofInt v) (if v ≥ 0 then 1 else -1) v

/-- **Conversion from `int` is exact** (C105), except for the least one. -/
theorem ofInt_spec_partial (v : ℤ) (hv : v ≠ -2147483648) : Represents (ofInt v) (if v ≥ 0 then 1 else -1) v := by
  have hs : (if v ≥ 0 then (1 : ℤ) else -1) = 1 ∨ (if v ≥ 0 then (1 : ℤ) else -1) = -1 := by split_ifs <;> simp
  unfold ofInt
  rw [if_neg hv]
  have key := canonicalize_spec (a := ⟨if v ≥ 0 then 1 else -1, 0, v.natAbs⟩) hs (by rw [isNormal_iff]; show (0 : ℤ) < kExpZero; decide)
  have e : (v : ℚ) = EF.val ⟨if v ≥ 0 then 1 else -1, 0, v.natAbs⟩ := by
    unfold EF.val
    simp only [zpow_zero, mul_one]
    have : v = (if v ≥ 0 then 1 else -1) * (v.natAbs : ℤ) := by split_ifs <;> omega
    rw [← Int.cast_natCast (R := ℚ) v.natAbs, ← Int.cast_mul, ← this]
  rw [e]
  exact key


theorem small_inRange {x : ℚ} (h : 1 ≤ |x|) (h' : |x| < 2 ^ 200) : InRange x := by
  refine ⟨le_trans ?_ h, h'.trans_le ?_⟩
  · have : (2 : ℚ) ^ (kMinExp - 1) ≤ 2 ^ (0 : ℤ) := pow_le_pow_iff.mpr (by decide)
    simpa using this
  · have : (2 : ℚ) ^ (200 : ℤ) ≤ 2 ^ kMaxExp := pow_le_pow_iff.mpr (by decide)
    exact_mod_cast this

theorem small_precise {x : ℚ} (n : ℕ) (e : ℤ) (hn : n < 2 ^ 200) (h : |x| = n * 2 ^ e) : Precise x :=
  ⟨n, e, hn.trans_le (Nat.pow_le_pow_right (by norm_num) (by decide)), h⟩

/-- **The least `int` is converted to another number** (C105): `std::abs` leaves it negative, and the mantissa is an unsigned word. -/
theorem ofInt_violated : ¬ OfIntStatement := by
  intro h
  have h1 := h (-2 ^ 31) le_rfl (by norm_num)
  have h2 : Represents (ofInt (-2 ^ 31)) (-1) (-(2 ^ 64 - 2147483648)) := by
    have key := canonicalize_spec (a := ⟨-1, 0, 2 ^ 64 - 2147483648⟩) (.inr rfl) (by decide)
    have e : EF.val ⟨-1, 0, 2 ^ 64 - 2147483648⟩ = -(2 ^ 64 - 2147483648) := by unfold EF.val; norm_num
    rw [e] at key
    exact key
  have e1 := (h1.exact (small_inRange (by norm_num) (by norm_num)) (small_precise (2 ^ 31) 0 (by norm_num) (by norm_num))).2.2
  have e2 := (h2.exact (small_inRange (by norm_num) (by norm_num)) (small_precise (2 ^ 64 - 2147483648) 0 (by norm_num) (by norm_num))).2.2
  rw [e1] at e2
  norm_num at e2

/-! ## Sums -/

theorem sgnOr_pos {z : ℤ} {x : ℚ} (h : 0 < x) : sgnOr z x = 1 := if_pos h
theorem sgnOr_neg {z : ℤ} {x : ℚ} (h : x < 0) : sgnOr z x = -1 := by unfold sgnOr; rw [if_neg (not_lt.mpr h.le), if_pos h]
theorem sgnOr_zero {z : ℤ} : sgnOr z 0 = z := by unfold sgnOr; rw [if_neg (lt_irrefl _), if_neg (lt_irrefl _)]
theorem sgnOr_mul {s z : ℤ} {m : ℚ} (hs : s = 1 ∨ s = -1) (h : 0 < m) : sgnOr z (s * m) = s := by
  rcases hs with rfl | rfl
  · exact sgnOr_pos (by push_cast; linarith)
  · exact sgnOr_neg (by push_cast; linarith)

theorem normalSum_spec {a b : EF} {sa sb : ℤ} (ha : sa = 1 ∨ sa = -1) (hb : sb = 1 ∨ sb = -1) (nb : b.isNormal = true)
    (a0 : a.bn ≠ 0) (b0 : b.bn ≠ 0) (he : b.exp ≤ a.exp) :
    Represents (normalSum sa a sb b) (sgnOr 1 (sa * a.mag + sb * b.mag)) (sa * a.mag + sb * b.mag) := by
  have hnb := (isNormal_iff b).mp nb
  set an := a.bn * 2 ^ (a.exp - b.exp).toNat with han
  have han2 : (if a.exp > b.exp then a.bn * 2 ^ (a.exp - b.exp).toNat else a.bn) = an := by
    split_ifs with g
    · rfl
    · rw [han, show (a.exp - b.exp).toNat = 0 by omega, pow_zero, mul_one]
  have hma : a.mag = an * 2 ^ b.exp := by
    have := shift_mant (q := a.bn) (k := (a.exp - b.exp).toNat) rfl b.exp
    rw [show b.exp + ((a.exp - b.exp).toNat : ℤ) = a.exp by omega] at this
    exact this
  have hmb : b.mag = b.bn * 2 ^ b.exp := rfl
  have an0 : 0 < an := by positivity
  have b0' : 0 < b.bn := Nat.pos_of_ne_zero b0
  have hp : (0 : ℚ) < 2 ^ b.exp := by positivity
  have build : ∀ (s : ℤ) (m : ℕ), (s = 1 ∨ s = -1) → s * (m : ℤ) = sa * an + sb * b.bn → s = sgnOr 1 (sa * a.mag + sb * b.mag) →
      Represents (canonicalize ⟨s, b.exp, m⟩) (sgnOr 1 (sa * a.mag + sb * b.mag)) (sa * a.mag + sb * b.mag) := by
    intro s m hs e es
    have key := canonicalize_spec (a := ⟨s, b.exp, m⟩) hs (by rw [isNormal_iff]; exact hnb)
    have e2 : EF.val ⟨s, b.exp, m⟩ = sa * a.mag + sb * b.mag := by
      unfold EF.val
      rw [hma, hmb, ← mul_assoc, ← mul_assoc, ← add_mul]
      congr 1
      exact_mod_cast e
    rw [e2] at key
    rw [← es]
    exact key
  have ex : (sa : ℚ) * a.mag + sb * b.mag = ((sa * an + sb * b.bn : ℤ) : ℚ) * 2 ^ b.exp := by
    rw [hma, hmb]; push_cast; ring
  unfold normalSum
  simp only [han2]
  by_cases hss : sa = sb
  · rw [if_pos hss]
    subst hss
    refine build sa (an + b.bn) ha (by push_cast; ring) ?_
    rw [← mul_add]
    exact (sgnOr_mul ha (by rw [hma, hmb]; positivity)).symm
  · rw [if_neg hss]
    have hsb : sb = -sa := by omega
    split_ifs with d0 dn
    · refine build 1 0 (.inl rfl) ?_ ?_
      · rw [hsb, show ((b.bn : ℤ)) = an by omega]; push_cast; ring
      · rw [ex, hsb, show ((b.bn : ℤ)) = an by omega]
        rw [show sa * (an : ℤ) + -sa * an = 0 by ring, Int.cast_zero, zero_mul, sgnOr_zero]
    · refine build sb _ hb ?_ ?_
      · rw [show ((((an : ℤ) - b.bn).natAbs : ℕ) : ℤ) = b.bn - an by omega, hsb]; ring
      · rw [show (sa : ℚ) * a.mag + sb * b.mag = (sb : ℤ) * (b.mag - a.mag) by rw [hsb]; push_cast; ring]
        refine (sgnOr_mul hb ?_).symm
        rw [hma, hmb, ← sub_mul]
        have : (0 : ℚ) < (b.bn : ℚ) - an := by exact_mod_cast (by omega : (0 : ℤ) < (b.bn : ℤ) - an)
        positivity
    · refine build sa _ ha ?_ ?_
      · rw [show ((((an : ℤ) - b.bn).natAbs : ℕ) : ℤ) = an - b.bn by omega, hsb]; ring
      · rw [show (sa : ℚ) * a.mag + sb * b.mag = (sa : ℤ) * (a.mag - b.mag) by rw [hsb]; push_cast; ring]
        refine (sgnOr_mul ha ?_).symm
        rw [hma, hmb, ← sub_mul]
        have : (0 : ℚ) < (an : ℚ) - b.bn := by exact_mod_cast (by omega : (0 : ℤ) < (an : ℤ) - b.bn)
        positivity

theorem withSign_canon {a : EF} (h : Canon a) {s : ℤ} (hs : s = 1 ∨ s = -1) : Canon (a.withSign s) := ⟨hs, h.form⟩

theorem signedSum_spec {a b : EF} {sa sb : ℤ} (ca : Canon a) (cb : Canon b) (ha : sa = 1 ∨ sa = -1) (hb : sb = 1 ∨ sb = -1)
    (fa : a.isFinite = true) (fb : b.isFinite = true) :
    Represents (signedSum sa a sb b) (sgnOr (if sa = sb then sa else 1) (sa * a.mag + sb * b.mag)) (sa * a.mag + sb * b.mag) := by
  have self : ∀ {c : EF} {s : ℤ}, Canon c → (s = 1 ∨ s = -1) → c.isNormal = true → Represents (c.withSign s) s (s * c.mag) := by
    intro c s hc hs hn
    have := represents_self (withSign_canon hc hs) hn
    rwa [val_eq] at this
  unfold signedSum
  rcases ca.finite_cases fa with ⟨a1, a2, a3, a4, a5, a6⟩ | ⟨a1, a2, a3, a4, a5, a6⟩ <;>
  rcases cb.finite_cases fb with ⟨b1, b2, b3, b4, b5, b6⟩ | ⟨b1, b2, b3, b4, b5, b6⟩
  · rw [if_neg (by simp [a1, b1])]
    have hz : ∀ x : ℚ, x = sa * a.mag + sb * b.mag → sgnOr (if sa = sb then sa else 1) x = sgnOr 1 x := by
      intro x hx
      split_ifs with g
      · rw [hx, ← g, ← mul_add, sgnOr_mul ha (by linarith), sgnOr_mul ha (by linarith)]
      · rfl
    rw [hz _ rfl]
    split_ifs with g
    · rw [add_comm]
      exact normalSum_spec hb ha a1 (by omega) (by omega) g.le
    · exact normalSum_spec ha hb b1 (by omega) (by omega) (not_lt.mp g)
  · rw [if_pos (by simp [b1])]
    unfold specialSum
    simp only [a2, a3, a4, b3, b4, Bool.false_eq_true, if_false]
    rw [b6, mul_zero, add_zero, sgnOr_mul ha a6]
    exact self ca ha a1
  · rw [if_pos (by simp [a1])]
    unfold specialSum
    simp only [a2, a3, a4, b2, b3, b4, Bool.false_eq_true, if_false, if_true]
    rw [a6, mul_zero, zero_add, sgnOr_mul hb b6]
    exact self cb hb b1
  · rw [if_pos (by simp [a1])]
    unfold specialSum
    simp only [a2, a3, a4, b2, b3, b4, Bool.false_eq_true, if_false, if_true, Bool.true_eq_false]
    rw [a6, b6, mul_zero, mul_zero, add_zero, sgnOr_zero]
    split_ifs with g
    · exact represents_zero ha
    · exact represents_zero (.inl rfl)

/-- **Sums are exact** (C105). -/
theorem add_spec {a b : EF} (ca : Canon a) (cb : Canon b) (fa : a.isFinite = true) (fb : b.isFinite = true) :
    Represents (a.add b) (sgnOr (if a.sign = b.sign then a.sign else 1) (a.val + b.val)) (a.val + b.val) := by
  rw [val_eq, val_eq]
  exact signedSum_spec ca cb ca.sign cb.sign fa fb

/-- **Differences are exact** (C105). -/
theorem sub_spec {a b : EF} (ca : Canon a) (cb : Canon b) (fa : a.isFinite = true) (fb : b.isFinite = true) :
    Represents (a.sub b) (sgnOr (if a.sign = -b.sign then a.sign else 1) (a.val - b.val)) (a.val - b.val) := by
  rw [val_eq, val_eq, sub_eq_add_neg, ← neg_mul, ← Int.cast_neg]
  have := cb.sign
  exact signedSum_spec ca cb ca.sign (by omega) fa fb

/-- **Negation is exact** (C105). -/
theorem neg_spec {a : EF} (ca : Canon a) : Canon a.neg ∧ a.neg.sign = -a.sign ∧ a.neg.val = -a.val ∧
    a.neg.isZero = a.isZero ∧ a.neg.isInf = a.isInf ∧ a.neg.isNan = a.isNan := by
  have := ca.sign
  refine ⟨withSign_canon ca (by omega), rfl, ?_, rfl, rfl, rfl⟩
  unfold EF.val
  show ((-a.sign : ℤ) : ℚ) * a.bn * 2 ^ a.exp = _
  push_cast
  ring

/-- **Products are exact** (C105). -/
theorem mul_spec {a b : EF} (ca : Canon a) (cb : Canon b) (fa : a.isFinite = true) (fb : b.isFinite = true) :
    Represents (a.mul b) (a.sign * b.sign) (a.val * b.val) := by
  have hs : a.sign * b.sign = 1 ∨ a.sign * b.sign = -1 := by
    rcases ca.sign with x | x <;> rcases cb.sign with y | y <;> rw [x, y] <;> simp
  unfold mul
  rcases ca.finite_cases fa with ⟨a1, a2, a3, a4, a5, a6⟩ | ⟨a1, a2, a3, a4, a5, a6⟩ <;>
  rcases cb.finite_cases fb with ⟨b1, b2, b3, b4, b5, b6⟩ | ⟨b1, b2, b3, b4, b5, b6⟩
  · rw [if_neg (by simp [a1, b1])]
    have ea := (exponents_fit ca a1).1
    have eb := (exponents_fit cb b1).1
    rw [abs_lt] at ea eb
    have k : kExpZero = 2147483645 := rfl
    have key := canonicalize_spec (a := ⟨a.sign * b.sign, a.exp + b.exp, a.bn * b.bn⟩) hs
      (by rw [isNormal_iff]; show a.exp + b.exp < kExpZero; omega)
    have e : EF.val ⟨a.sign * b.sign, a.exp + b.exp, a.bn * b.bn⟩ = a.val * b.val := by
      unfold EF.val
      rw [zpow_add₀ (by norm_num)]
      push_cast
      ring
    rw [e] at key
    exact key
  all_goals
    rw [if_pos (by simp [a1, b1])]
    simp only [a3, a4, b3, b4, Bool.false_eq_true, if_false]
    rw [val_eq, val_eq]
    first | rw [a6] | rw [b6]
    simp only [mul_zero, zero_mul]
    exact represents_zero hs


/-- **Sums and products do not depend on the order** (C105). -/
theorem add_comm_spec {a b : EF} (ca : Canon a) (cb : Canon b) (fa : a.isFinite = true) (fb : b.isFinite = true) :
    a.add b = b.add a ∧ a.mul b = b.mul a := by
  constructor
  · have h1 := add_spec ca cb fa fb
    have h2 := add_spec cb ca fb fa
    rw [add_comm b.val] at h2
    have e : (if b.sign = a.sign then b.sign else 1) = (if a.sign = b.sign then a.sign else 1) := by
      split_ifs <;> omega
    rw [e] at h2
    exact h1.unique h2
  · have h1 := mul_spec ca cb fa fb
    have h2 := mul_spec cb ca fb fa
    rw [mul_comm b.val, mul_comm b.sign] at h2
    exact h1.unique h2

/-! ## Special values -/

theorem nan_parts {a : EF} (h : a.isNan = true) : a.isNormal = false ∧ a.isInf = false ∧ a.isZero = false ∧ a.isFinite = false := by
  have e : a.exp = kExpNaN := by unfold isNan at h; simpa using h
  unfold isNormal isInf isZero isFinite
  rw [e]
  decide

theorem inf_parts {a : EF} (h : a.isInf = true) : a.isNormal = false ∧ a.isNan = false ∧ a.isZero = false ∧ a.isFinite = false := by
  have e : a.exp = kExpInfinity := by unfold isInf at h; simpa using h
  unfold isNormal isNan isZero isFinite
  rw [e]
  decide

/-- An infinity in canonical form. -/
theorem Canon.eq_inf {a : EF} (h : Canon a) (hi : a.isInf = true) : a = inf a.sign := by
  rcases h.form with ⟨g, -⟩ | ⟨-, z, -⟩
  · rw [(inf_parts hi).1] at g; cases g
  · ext
    · rfl
    · exact of_decide_eq_true hi
    · exact z

/-- **Arithmetic on special values** (C105): NaN gives NaN; infinities are as in IEEE arithmetic. -/
theorem add_special {a b : EF} (ca : Canon a) (cb : Canon b) :
    ((a.isNan = true ∨ b.isNan = true) → (a.add b).isNan = true ∧ Canon (a.add b)) ∧
    (a.isInf = true → b.isNan = false → (b.isInf = true → b.sign = a.sign) → a.add b = inf a.sign) ∧
    (b.isInf = true → a.isNan = false → (a.isInf = true → a.sign = b.sign) → a.add b = inf b.sign) ∧
    (a.isInf = true → b.isInf = true → a.sign ≠ b.sign → a.add b = nan) := by
  unfold add signedSum specialSum
  refine ⟨?_, ?_, ?_, ?_⟩
  · rintro (h | h)
    · rw [if_pos (by simp [(nan_parts h).1]), if_pos h]
      exact ⟨h, ca⟩
    · rw [if_pos (by simp [(nan_parts h).1])]
      split_ifs with g
      · exact ⟨g, ca⟩
      · exact ⟨h, cb⟩
  · intro h hb hs
    rw [if_pos (by simp [(inf_parts h).1])]
    simp only [(inf_parts h).2.1, hb, h, if_true, Bool.false_eq_true, if_false]
    rw [if_neg]
    intro g
    rw [Bool.and_eq_true] at g
    exact absurd (hs g.1).symm (by simpa using g.2)
  · intro h ha hs
    rw [if_pos (by simp [(inf_parts h).1])]
    simp only [(inf_parts h).2.1, ha, h, if_true, Bool.false_eq_true, if_false, Bool.true_and]
    by_cases g : a.isInf = true
    · rw [if_pos g, hs g]
      simp
    · rw [if_neg g]
  · intro h h' hs
    rw [if_pos (by simp [(inf_parts h).1])]
    simp [(inf_parts h).2.1, (inf_parts h').2.1, h, h', hs]

/-- **Differences of special values** (C105). -/
theorem sub_special {a b : EF} (ca : Canon a) (cb : Canon b) :
    ((a.isNan = true ∨ b.isNan = true) → (a.sub b).isNan = true ∧ Canon (a.sub b)) ∧
    (a.isInf = true → b.isNan = false → (b.isInf = true → b.sign = -a.sign) → a.sub b = inf a.sign) ∧
    (b.isInf = true → a.isNan = false → (a.isInf = true → a.sign = -b.sign) → a.sub b = inf (-b.sign)) ∧
    (a.isInf = true → b.isInf = true → a.sign = b.sign → a.sub b = nan) := by
  have sa := ca.sign
  unfold sub signedSum specialSum
  refine ⟨?_, ?_, ?_, ?_⟩
  · rintro (h | h)
    · rw [if_pos (by simp [(nan_parts h).1]), if_pos h]
      exact ⟨h, ca⟩
    · rw [if_pos (by simp [(nan_parts h).1])]
      split_ifs with g
      · exact ⟨g, ca⟩
      · exact ⟨h, cb⟩
  · intro h hb hs
    rw [if_pos (by simp [(inf_parts h).1])]
    simp only [(inf_parts h).2.1, hb, h, if_true, Bool.false_eq_true, if_false]
    rw [if_neg]
    intro g
    rw [Bool.and_eq_true] at g
    have := hs g.1
    exact absurd (show a.sign = -b.sign by omega) (by simpa using g.2)
  · intro h ha hs
    rw [if_pos (by simp [(inf_parts h).1])]
    simp only [(inf_parts h).2.1, ha, h, if_true, Bool.false_eq_true, if_false, Bool.true_and]
    by_cases g : a.isInf = true
    · rw [if_pos g, hs g]
      simp
    · rw [if_neg g]
  · intro h h' hs
    rw [if_pos (by simp [(inf_parts h).1])]
    have : a.sign ≠ -b.sign := by omega
    simp [(inf_parts h).2.1, (inf_parts h').2.1, h, h', this]

/-- **Products of special values** (C105). -/
theorem mul_special {a b : EF} (ca : Canon a) (cb : Canon b) :
    ((a.isNan = true ∨ b.isNan = true) → (a.mul b).isNan = true ∧ Canon (a.mul b)) ∧
    ((a.isInf = true ∧ b.isZero = true ∨ a.isZero = true ∧ b.isInf = true) → a.mul b = nan) ∧
    (a.isNan = false → b.isNan = false → a.isZero = false → b.isZero = false → (a.isInf = true ∨ b.isInf = true) →
      a.mul b = inf (a.sign * b.sign)) := by
  unfold mul
  refine ⟨?_, ?_, ?_⟩
  · rintro (h | h)
    · rw [if_pos (by simp [(nan_parts h).1]), if_pos h]
      exact ⟨h, ca⟩
    · rw [if_pos (by simp [(nan_parts h).1])]
      split_ifs with g
      · exact ⟨g, ca⟩
      · exact ⟨h, cb⟩
  · have nz : ∀ {c : EF}, c.isZero = true → c.isNan = false ∧ c.isInf = false ∧ c.isNormal = false := by
      intro c hc
      have e : c.exp = kExpZero := by unfold isZero at hc; simpa using hc
      unfold isNan isInf isNormal
      rw [e]
      decide
    rintro (⟨h, h'⟩ | ⟨h, h'⟩)
    · rw [if_pos (by simp [(inf_parts h).1])]
      simp [(inf_parts h).2.1, (nz h').1, h, h']
    · rw [if_pos (by simp [(inf_parts h').1])]
      simp [(inf_parts h').2.1, (nz h).1, (nz h).2.1, h, h']
  · rintro h1 h2 h3 h4 (h | h)
    · rw [if_pos (by simp [(inf_parts h).1])]
      simp [h1, h2, h4, h]
    · rw [if_pos (by simp [(inf_parts h).1])]
      simp [h1, h2, h3, h4, h]

/-- **Every result is in canonical form** (C105). -/
theorem closed {a b : EF} (ca : Canon a) (cb : Canon b) : Canon (a.add b) ∧ Canon (a.sub b) ∧ Canon (a.mul b) ∧ Canon a.neg := by
  have sa := ca.sign
  have sb := cb.sign
  have hs : a.sign * b.sign = 1 ∨ a.sign * b.sign = -1 := by
    rcases sa with x | x <;> rcases sb with y | y <;> rw [x, y] <;> simp
  have kinds : ∀ {c : EF}, Canon c → c.isNan = true ∨ c.isInf = true ∨ c.isFinite = true := by
    intro c hc
    rcases hc.form with ⟨g, -⟩ | ⟨-, -, g | g | g⟩
    · right; right
      unfold isFinite
      exact decide_eq_true ((isNormal_iff c).mp g).le
    · right; right
      unfold isZero at g
      unfold isFinite
      exact decide_eq_true (of_decide_eq_true g).le
    · exact .inr (.inl g)
    · exact .inl g
  refine ⟨?_, ?_, ?_, (neg_spec ca).1⟩
  · have S := add_special ca cb
    rcases kinds ca with h | h | h
    · exact (S.1 (.inl h)).2
    · by_cases hb : b.isNan = true
      · exact (S.1 (.inr hb)).2
      · by_cases g : b.isInf = true ∧ a.sign ≠ b.sign
        · rw [S.2.2.2 h g.1 g.2]; exact canon_nan
        · rw [S.2.1 h (by simpa using hb) (fun q => by by_contra w; exact g ⟨q, fun z => w z.symm⟩)]
          exact canon_inf sa
    · rcases kinds cb with h' | h' | h'
      · exact (S.1 (.inr h')).2
      · have ni : a.isInf ≠ true := fun q => by rw [(inf_parts q).2.2.2] at h; cases h
        have nn : a.isNan ≠ true := fun q => by rw [(nan_parts q).2.2.2] at h; cases h
        rw [S.2.2.1 h' (by simpa using nn) (fun q => absurd q ni)]
        exact canon_inf sb
      · exact (add_spec ca cb h h').canon
  · have S := sub_special ca cb
    rcases kinds ca with h | h | h
    · exact (S.1 (.inl h)).2
    · by_cases hb : b.isNan = true
      · exact (S.1 (.inr hb)).2
      · by_cases g : b.isInf = true ∧ a.sign = b.sign
        · rw [S.2.2.2 h g.1 g.2]; exact canon_nan
        · rw [S.2.1 h (by simpa using hb) (fun q => by
            have : ¬ a.sign = b.sign := fun z => g ⟨q, z⟩
            omega)]
          exact canon_inf sa
    · rcases kinds cb with h' | h' | h'
      · exact (S.1 (.inr h')).2
      · have ni : a.isInf ≠ true := fun q => by rw [(inf_parts q).2.2.2] at h; cases h
        have nn : a.isNan ≠ true := fun q => by rw [(nan_parts q).2.2.2] at h; cases h
        rw [S.2.2.1 h' (by simpa using nn) (fun q => absurd q ni)]
        exact canon_inf (by omega)
      · exact (sub_spec ca cb h h').canon
  · have S := mul_special ca cb
    by_cases h1 : a.isNan = true
    · exact (S.1 (.inl h1)).2
    by_cases h2 : b.isNan = true
    · exact (S.1 (.inr h2)).2
    by_cases hf : a.isFinite = true ∧ b.isFinite = true
    · exact (mul_spec ca cb hf.1 hf.2).canon
    have hi : a.isInf = true ∨ b.isInf = true := by
      rcases kinds ca with h | h | h
      · exact absurd h h1
      · exact .inl h
      · rcases kinds cb with h' | h' | h'
        · exact absurd h' h2
        · exact .inr h'
        · exact absurd ⟨h, h'⟩ hf
    by_cases za : a.isZero = true
    · rcases hi with hi | hi
      · rw [(inf_parts hi).2.2.1] at za; cases za
      · rw [S.2.1 (.inr ⟨za, hi⟩)]; exact canon_nan
    by_cases zb : b.isZero = true
    · rcases hi with hi | hi
      · rw [S.2.1 (.inl ⟨hi, zb⟩)]; exact canon_nan
      · rw [(inf_parts hi).2.2.1] at zb; cases zb
    rw [S.2.2 (by simpa using h1) (by simpa using h2) (by simpa using za) (by simpa using zb) hi]
    exact canon_inf hs

/-! ## Examples -/

/-- Three times a power of two. -/
theorem three_canon {e : ℤ} (h : -100 ≤ e) (h' : e ≤ 100) {s : ℤ} (hs : s = 1 ∨ s = -1) : Canon ⟨s, e, 3⟩ := by
  have k : kMinExp = -200000000 := rfl
  have k' : kMaxExp = 200000000 := rfl
  have k'' : kExpZero = 2147483645 := rfl
  have e2 : EF.fullExp ⟨s, e, 3⟩ = e + 2 := by
    show e + (numBits 3 : ℤ) = _
    rw [show numBits 3 = 2 by decide]
    rfl
  refine ⟨hs, .inl ⟨?_, (by show 3 % 2 = 1; norm_num), ?_, ?_, ?_⟩⟩
  · rw [isNormal_iff]; show e < kExpZero; omega
  · omega
  · omega
  · show numBits 3 ≤ kMaxPrec
    decide

/-- **A sum that `double` cannot hold** (C105): `3 · 2 ^ 100 + 3 · 2 ^ -100`. -/
theorem add_example : (add ⟨1, 100, 3⟩ ⟨1, -100, 3⟩).val = 3 * 2 ^ 100 + 3 / 2 ^ 100 := by
  have h := add_spec (three_canon (e := 100) (by norm_num) (by norm_num) (.inl rfl)) (three_canon (e := -100) (by norm_num) (by norm_num) (.inl rfl))
    (by decide) (by decide)
  have e : EF.val ⟨1, 100, 3⟩ + EF.val ⟨1, -100, 3⟩ = 3 * 2 ^ 100 + 3 / 2 ^ 100 := by
    unfold EF.val
    norm_num
  rw [e] at h
  refine (h.exact (small_inRange ?_ ?_) ⟨3 * 2 ^ 200 + 3, -100, ?_, ?_⟩).2.2
  · rw [abs_of_pos (by positivity)]; norm_num
  · rw [abs_of_pos (by positivity)]; norm_num
  · exact lt_of_lt_of_le (by norm_num : 3 * 2 ^ 200 + 3 < 2 ^ 203) (Nat.pow_le_pow_right (by norm_num) (by decide))
  · rw [abs_of_pos (by positivity)]; norm_num

end Verif.ExactFloat
