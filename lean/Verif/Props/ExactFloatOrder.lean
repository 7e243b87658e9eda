import Verif.Props.ExactFloat
import Mathlib.Data.EReal.Operations

/-!
C106: comparisons of exact numbers agree with the order of the extended reals.
-/

namespace Verif.ExactFloat

open EF

/-! ## Specification -/

/-- The size as an extended real. -/
noncomputable def EF.umag (a : EF) : EReal := if a.isInf then ⊤ else ((a.mag : ℝ) : EReal)

/-- The value as an extended real; it means nothing for NaN. -/
noncomputable def EF.ext' (a : EF) : EReal := if a.sign < 0 then -a.umag else a.umag

/-- The value of a finite number is its rational value. -/
theorem ext_finite {a : EF} (h : Canon a) (hf : a.isFinite = true) : a.ext' = ((a.val : ℝ) : EReal) := by
  have hi : a.isInf = false := by
    rcases h.finite_cases hf with g | g
    · exact g.2.2.1
    · exact g.2.2.1
  unfold EF.ext' EF.umag
  rw [val_eq, hi]
  rcases h.sign with s | s <;> rw [s] <;> simp

/-- The values of the infinities. -/
theorem ext_inf {a : EF} (hi : a.isInf = true) : a.ext' = if a.sign < 0 then ⊥ else ⊤ := by
  unfold EF.ext' EF.umag
  rw [hi]
  simp

/-! ## Sizes -/

theorem umag_nonneg (a : EF) : 0 ≤ a.umag := by
  unfold EF.umag
  split_ifs
  · exact le_top
  · exact_mod_cast a.mag_nonneg

theorem kinds {a : EF} (h : Canon a) (hn : a.isNan = false) :
    (a.isInf = true ∧ a.isNormal = false ∧ a.isZero = false ∧ a.bn = 0) ∨
    (a.isInf = false ∧ a.isNormal = true ∧ a.isZero = false ∧ a.bn % 2 = 1 ∧ 0 < a.mag) ∨
    (a.isInf = false ∧ a.isNormal = false ∧ a.isZero = true ∧ a.bn = 0 ∧ a.mag = 0) := by
  rcases h.form with ⟨g, o, -⟩ | ⟨g, z, c⟩
  · have hf : a.isFinite = true := by
      unfold isFinite
      exact decide_eq_true ((isNormal_iff a).mp g).le
    rcases h.finite_cases hf with q | q
    · exact .inr (.inl ⟨q.2.2.1, g, q.2.1, o, q.2.2.2.2.2⟩)
    · rw [g] at q; cases q.1
  · rcases c with c | c | c
    · have hf : a.isFinite = true := by
        unfold isZero at c
        unfold isFinite
        exact decide_eq_true (of_decide_eq_true c).le
      rcases h.finite_cases hf with q | q
      · rw [g] at q; cases q.1
      · exact .inr (.inr ⟨q.2.2.1, g, c, z, q.2.2.2.2.2⟩)
    · exact .inl ⟨c, g, (inf_parts c).2.2.1, z⟩
    · rw [c] at hn; cases hn

theorem mag_lt_of_fullExp {a b : EF} (b0 : b.bn ≠ 0) (h : a.fullExp < b.fullExp) : a.mag < b.mag :=
  (mant_lt (n := a.bn) a.exp).trans_le ((pow_le_pow_iff.mpr (by unfold fullExp at h; omega)).trans (mant_ge b0 b.exp))

theorem scaled_mag {a b : EF} (h : b.exp ≤ a.exp) : a.mag = (a.scaled b : ℕ) * 2 ^ b.exp := by
  have := shift_mant (q := a.bn) (k := (a.exp - b.exp).toNat) rfl b.exp
  rw [show b.exp + ((a.exp - b.exp).toNat : ℤ) = a.exp by omega] at this
  exact this

theorem unsignedLess_spec {a b : EF} (ca : Canon a) (cb : Canon b) (na : a.isNan = false) (nb : b.isNan = false) :
    a.unsignedLess b = true ↔ a.umag < b.umag := by
  have hp : ∀ e : ℤ, (0 : ℚ) < 2 ^ e := fun e => by positivity
  unfold unsignedLess EF.umag
  rcases kinds ca na with ⟨a1, a2, a3, a4⟩ | ⟨a1, a2, a3, a4, a5⟩ | ⟨a1, a2, a3, a4, a5⟩
  · simp [a1]
  · rcases kinds cb nb with ⟨b1, b2, b3, b4⟩ | ⟨b1, b2, b3, b4, b5⟩ | ⟨b1, b2, b3, b4, b5⟩
    · simp [a1, b1, b3]
    · simp only [a1, a3, b1, b3, Bool.or_self, Bool.false_eq_true, if_false]
      rw [EReal.coe_lt_coe_iff, Rat.cast_lt]
      split_ifs with h1 h2
      · rw [decide_eq_true_iff]
        constructor
        · intro h
          exact mag_lt_of_fullExp (by omega) (by omega)
        · intro h
          by_contra g
          exact absurd (mag_lt_of_fullExp (a := b) (b := a) (by omega) (by omega)) (not_lt.mpr h.le)
      · rw [decide_eq_true_iff, scaled_mag h2, show b.mag = b.bn * 2 ^ b.exp from rfl, mul_lt_mul_iff_left₀ (hp _), Nat.cast_lt]
      · rw [decide_eq_true_iff, scaled_mag (a := b) (b := a) (by omega), show a.mag = a.bn * 2 ^ a.exp from rfl, mul_lt_mul_iff_left₀ (hp _),
          Nat.cast_lt]
    · simp only [a1, b1, b3, b5, Bool.or_true, if_true, Bool.false_eq_true, if_false, false_iff, not_lt]
      exact_mod_cast a5.le
  · rcases kinds cb nb with ⟨b1, b2, b3, b4⟩ | ⟨b1, b2, b3, b4, b5⟩ | ⟨b1, b2, b3, b4, b5⟩
    · simp [a1, b1, b3]
    · simp only [a1, a3, b1, b3, a5, Bool.or_self, Bool.or_false, Bool.false_eq_true, if_false, if_true, true_iff]
      exact_mod_cast b5
    · simp [a1, b1, b3, a5, b5]

theorem umag_zero {a : EF} (ca : Canon a) (na : a.isNan = false) : a.umag = 0 ↔ a.isZero = true := by
  unfold EF.umag
  rcases kinds ca na with ⟨a1, a2, a3, a4⟩ | ⟨a1, a2, a3, a4, a5⟩ | ⟨a1, a2, a3, a4, a5⟩
  · simp [a1, a3]
  · simp only [a1, a3, Bool.false_eq_true, if_false, iff_false]
    exact_mod_cast a5.ne'
  · simp [a1, a3, a5]

theorem neg_lt_zero_of {x : EReal} (h : 0 < x) : -x < 0 := by
  have := EReal.neg_lt_neg_iff.mpr h
  rwa [neg_zero] at this

/-! ## Comparisons -/

/-- **Less is the order of the values** (C106). -/
theorem lt_spec {a b : EF} (ca : Canon a) (cb : Canon b) (na : a.isNan = false) (nb : b.isNan = false) :
    a.lt b = true ↔ a.ext' < b.ext' := by
  have za := umag_zero ca na
  have zb := umag_zero cb nb
  have pa := umag_nonneg a
  have pb := umag_nonneg b
  unfold lt
  simp only [na, nb, Bool.or_self, Bool.false_eq_true, if_false]
  by_cases hz : a.isZero = true ∧ b.isZero = true
  · rw [if_pos (by simp [hz.1, hz.2])]
    unfold EF.ext'
    rw [za.mpr hz.1, zb.mpr hz.2]
    simp
  · rw [if_neg (by simpa using hz)]
    by_cases hs : a.sign = b.sign
    · rw [if_neg (by simpa using hs)]
      rcases ca.sign with s | s
      · rw [if_pos (by omega), unsignedLess_spec ca cb na nb]
        unfold EF.ext'
        rw [if_neg (by omega), if_neg (by omega)]
      · rw [if_neg (by omega), unsignedLess_spec cb ca nb na]
        unfold EF.ext'
        rw [if_pos (by omega), if_pos (by omega), EReal.neg_lt_neg_iff]
    · rw [if_pos hs, decide_eq_true_iff]
      unfold EF.ext'
      rcases ca.sign with s | s <;> rcases cb.sign with t | t
      · omega
      · rw [s, t]
        simp only [show ¬ ((1 : ℤ) < -1) by decide, show ¬ ((1 : ℤ) < 0) by decide, show ((-1 : ℤ) < 0) by decide, if_true, if_false, false_iff,
          not_lt]
        exact le_trans (by simpa using pb) pa
      · rw [s, t]
        simp only [show ((-1 : ℤ) < 1) by decide, show ¬ ((1 : ℤ) < 0) by decide, show ((-1 : ℤ) < 0) by decide, if_true, if_false, true_iff]
        rcases pa.eq_or_lt with h | h
        · rw [← h, neg_zero]
          exact lt_of_le_of_ne pb (fun g => hz ⟨za.mp h.symm, zb.mp g.symm⟩)
        · exact lt_of_lt_of_le (neg_lt_zero_of h) pb
      · omega

/-- **Equality is equality of the values** (C106). -/
theorem eq_spec {a b : EF} (ca : Canon a) (cb : Canon b) (na : a.isNan = false) (nb : b.isNan = false) :
    a.eq b = true ↔ a.ext' = b.ext' := by
  have fwd : a.eq b = true → a.ext' = b.ext' := by
    unfold eq
    simp only [na, nb, Bool.or_self, Bool.false_eq_true, if_false]
    by_cases he : a.exp = b.exp
    · rw [if_neg (by simpa using he)]
      by_cases hz : a.isZero = true ∧ b.isZero = true
      · intro _
        unfold EF.ext'
        rw [(umag_zero ca na).mpr hz.1, (umag_zero cb nb).mpr hz.2]
        simp
      · rw [if_neg (by simpa using hz)]
        intro h
        rw [Bool.and_eq_true, decide_eq_true_iff, decide_eq_true_iff] at h
        have : a = b := by ext <;> tauto
        rw [this]
    · rw [if_pos (by simpa using he)]
      intro h
      cases h
  refine ⟨fwd, fun h => ?_⟩
  have hu : a.umag = b.umag := by
    have pa := umag_nonneg a
    have pb := umag_nonneg b
    unfold EF.ext' at h
    split_ifs at h
    · exact neg_injective h
    · have h1 : b.umag ≤ 0 := by rw [← h]; simpa using pa
      have e := le_antisymm h1 pb
      rw [e] at h ⊢
      simpa using h
    · have h1 : a.umag ≤ 0 := by rw [h]; simpa using pb
      have e := le_antisymm h1 pa
      rw [e] at h ⊢
      have g : -(-b.umag) = -0 := by rw [← h]
      rw [neg_neg, neg_zero] at g
      exact g.symm
    · exact h
  by_cases hz : a.umag = 0
  · have z1 := (umag_zero ca na).mp hz
    have z2 := (umag_zero cb nb).mp (hu ▸ hz)
    unfold eq
    have e : a.exp = b.exp := by
      unfold isZero at z1 z2
      rw [of_decide_eq_true z1, of_decide_eq_true z2]
    simp [na, nb, z1, z2, e]
  have hs : a.sign = b.sign := by
    have pa := lt_of_le_of_ne (umag_nonneg a) (Ne.symm hz)
    have pb := hu ▸ pa
    unfold EF.ext' at h
    have sa := ca.sign
    have sb := cb.sign
    split_ifs at h with g1 g2 g2
    · omega
    · have := neg_lt_zero_of pa
      rw [h] at this
      exact absurd this (not_lt.mpr pb.le)
    · have := neg_lt_zero_of pb
      rw [← h] at this
      exact absurd this (not_lt.mpr pa.le)
    · omega
  have nza : ¬ a.isZero = true := fun g => hz ((umag_zero ca na).mpr g)
  have core : a.exp = b.exp ∧ a.bn = b.bn := by
    unfold EF.umag at hu
    rcases kinds ca na with ⟨a1, a2, a3, a4⟩ | ⟨a1, a2, a3, a4, a5⟩ | ⟨a1, a2, a3, a4, a5⟩
    · rcases kinds cb nb with ⟨b1, b2, b3, b4⟩ | ⟨b1, b2, b3, b4, b5⟩ | ⟨b1, b2, b3, b4, b5⟩
      · refine ⟨?_, by rw [a4, b4]⟩
        unfold isInf at a1 b1
        rw [of_decide_eq_true a1, of_decide_eq_true b1]
      · simp [a1, b1] at hu
      · simp [a1, b1] at hu
    · rcases kinds cb nb with ⟨b1, b2, b3, b4⟩ | ⟨b1, b2, b3, b4, b5⟩ | ⟨b1, b2, b3, b4, b5⟩
      · simp [a1, b1] at hu
      · simp only [a1, b1, Bool.false_eq_true, if_false] at hu
        rw [EReal.coe_eq_coe_iff, Rat.cast_inj] at hu
        exact (odd_pow_unique a4 b4 hu).symm
      · simp only [a1, b1, Bool.false_eq_true, if_false, b5] at hu
        rw [EReal.coe_eq_coe_iff, Rat.cast_inj] at hu
        exact absurd hu a5.ne'
    · exact absurd a3 nza
  unfold eq
  simp [na, nb, core.1, core.2, hs]

/-- **The other comparisons** (C106). -/
theorem order_spec {a b : EF} (ca : Canon a) (cb : Canon b) (na : a.isNan = false) (nb : b.isNan = false) :
    (a.le b = true ↔ a.ext' ≤ b.ext') ∧ (a.gt b = true ↔ a.ext' > b.ext') ∧ (a.ge b = true ↔ a.ext' ≥ b.ext') := by
  have h1 := lt_spec ca cb na nb
  have h2 := lt_spec cb ca nb na
  refine ⟨?_, h2, ?_⟩
  · unfold le
    simp only [na, nb, Bool.or_self, Bool.false_eq_true, if_false]
    rw [Bool.not_eq_true', ← Bool.not_eq_true, h2, not_lt]
  · unfold ge le
    simp only [na, nb, Bool.or_self, Bool.false_eq_true, if_false]
    rw [Bool.not_eq_true', ← Bool.not_eq_true, h1, not_lt, ge_iff_le]

/-- **NaN compares with nothing, not even itself** (C106). -/
theorem nan_unordered {a b : EF} (h : a.isNan = true ∨ b.isNan = true) :
    a.eq b = false ∧ a.lt b = false ∧ a.le b = false ∧ a.gt b = false ∧ a.ge b = false := by
  unfold eq gt ge le lt
  rcases h with h | h <;> simp [h]

/-! ## Selections -/

/-- **The larger of two numbers** (C106): its value is the maximum; it is one of the arguments; a NaN argument is ignored. -/
theorem fmax_spec {a b : EF} (ca : Canon a) (cb : Canon b) :
    (a.isNan = true → a.fmax b = b) ∧ (a.isNan = false → b.isNan = true → a.fmax b = a) ∧
    (a.isNan = false → b.isNan = false → (a.fmax b = a ∨ a.fmax b = b) ∧ (a.fmax b).ext' = max a.ext' b.ext' ∧
      (a.isZero = true → b.isZero = true → (a.fmax b).sign = max a.sign b.sign)) := by
  unfold fmax
  refine ⟨fun h => by rw [if_pos h], fun h h' => by rw [if_neg (by simp [h]), if_pos h'], fun na nb => ?_⟩
  have hl := lt_spec ca cb na nb
  have sgn_le : ∀ {c d : EF}, Canon c → Canon d → c.sign < d.sign → c.ext' ≤ d.ext' := by
    intro c d hc hd h
    have sc := hc.sign
    have sd := hd.sign
    have pc := umag_nonneg c
    have pd := umag_nonneg d
    unfold EF.ext'
    rw [if_pos (by omega), if_neg (by omega)]
    exact le_trans (by simpa using pc) pd
  rw [if_neg (by simp [na]), if_neg (by simp [nb])]
  split_ifs with h1 h2 h3
  · exact ⟨.inr rfl, (max_eq_right (sgn_le ca cb h2)).symm, fun _ _ => by omega⟩
  · exact ⟨.inl rfl, (max_eq_left (sgn_le cb ca (by omega))).symm, fun _ _ => by omega⟩
  · exact ⟨.inr rfl, (max_eq_right (hl.mp h3).le).symm, fun _ _ => by omega⟩
  · exact ⟨.inl rfl, (max_eq_left (not_lt.mp (fun g => h3 (hl.mpr g)))).symm, fun _ _ => by omega⟩

/-- **The smaller of two numbers** (C106). -/
theorem fmin_spec {a b : EF} (ca : Canon a) (cb : Canon b) :
    (a.isNan = true → a.fmin b = b) ∧ (a.isNan = false → b.isNan = true → a.fmin b = a) ∧
    (a.isNan = false → b.isNan = false → (a.fmin b = a ∨ a.fmin b = b) ∧ (a.fmin b).ext' = min a.ext' b.ext' ∧
      (a.isZero = true → b.isZero = true → (a.fmin b).sign = min a.sign b.sign)) := by
  unfold fmin
  refine ⟨fun h => by rw [if_pos h], fun h h' => by rw [if_neg (by simp [h]), if_pos h'], fun na nb => ?_⟩
  have hl := lt_spec ca cb na nb
  have sgn_le : ∀ {c d : EF}, Canon c → Canon d → c.sign < d.sign → c.ext' ≤ d.ext' := by
    intro c d hc hd h
    have sc := hc.sign
    have sd := hd.sign
    have pc := umag_nonneg c
    have pd := umag_nonneg d
    unfold EF.ext'
    rw [if_pos (by omega), if_neg (by omega)]
    exact le_trans (by simpa using pc) pd
  rw [if_neg (by simp [na]), if_neg (by simp [nb])]
  split_ifs with h1 h2 h3
  · exact ⟨.inl rfl, (min_eq_left (sgn_le ca cb h2)).symm, fun _ _ => by omega⟩
  · exact ⟨.inr rfl, (min_eq_right (sgn_le cb ca (by omega))).symm, fun _ _ => by omega⟩
  · exact ⟨.inl rfl, (min_eq_left (hl.mp h3).le).symm, fun _ _ => by omega⟩
  · exact ⟨.inr rfl, (min_eq_right (not_lt.mp (fun g => h3 (hl.mpr g)))).symm, fun _ _ => by omega⟩

/-- **The positive difference** (C106). -/
theorem fdim_spec {a b : EF} (ca : Canon a) (cb : Canon b) (fa : a.isFinite = true) (fb : b.isFinite = true) :
    Represents (a.fdim b) 1 (max (a.val - b.val) 0) := by
  have na : a.isNan = false := by
    rcases ca.finite_cases fa with g | g
    · exact g.2.2.2.1
    · exact g.2.2.2.1
  have nb : b.isNan = false := by
    rcases cb.finite_cases fb with g | g
    · exact g.2.2.2.1
    · exact g.2.2.2.1
  have hle := (order_spec ca cb na nb).1
  rw [ext_finite ca fa, ext_finite cb fb, EReal.coe_le_coe_iff, Rat.cast_le] at hle
  unfold fdim
  split_ifs with h
  · rw [max_eq_right (by linarith [hle.mp h])]
    exact_mod_cast ofInt_spec_partial 0 (by decide)
  · have h' : b.val < a.val := not_le.mp (fun g => h (hle.mpr g))
    rw [max_eq_left (by linarith)]
    have := sub_spec ca cb fa fb
    rwa [sgnOr_pos (by linarith)] at this

/-- **Absolute values and signs** (C106). -/
theorem abs_spec {a b : EF} (ca : Canon a) (cb : Canon b) :
    Canon a.abs ∧ a.abs.val = |a.val| ∧ a.abs.sign = 1 ∧ Canon (a.copysign b) ∧ (a.copysign b).sign = b.sign ∧
    |(a.copysign b).val| = |a.val| ∧ (a.abs.isInf = a.isInf ∧ a.abs.isNan = a.isNan) ∧
    ((a.copysign b).isInf = a.isInf ∧ (a.copysign b).isNan = a.isNan) := by
  refine ⟨withSign_canon ca (.inl rfl), ?_, rfl, withSign_canon ca cb.sign, rfl, ?_, ⟨rfl, rfl⟩, ⟨rfl, rfl⟩⟩
  · rw [abs_val ca.sign, val_eq]
    show ((1 : ℤ) : ℚ) * a.mag = a.mag
    simp
  · rw [abs_val ca.sign, abs_val (show (a.copysign b).sign = 1 ∨ _ from cb.sign)]
    rfl

/-- **A comparison of numbers with different exponents** (C106): `3 · 2 ^ 100` and `3 · 2 ^ -100`. -/
theorem lt_example : EF.lt ⟨1, -100, 3⟩ ⟨1, 100, 3⟩ = true ∧ EF.lt ⟨-1, -100, 3⟩ ⟨-1, 100, 3⟩ = false := by
  have c : ∀ (e s : ℤ), -100 ≤ e → e ≤ 100 → (s = 1 ∨ s = -1) → Canon ⟨s, e, 3⟩ := fun e s h h' hs => three_canon h h' hs
  constructor
  · rw [lt_spec (c _ _ (by norm_num) (by norm_num) (.inl rfl)) (c _ _ (by norm_num) (by norm_num) (.inl rfl)) (by decide) (by decide),
      ext_finite (c _ _ (by norm_num) (by norm_num) (.inl rfl)) (by decide), ext_finite (c _ _ (by norm_num) (by norm_num) (.inl rfl)) (by decide),
      EReal.coe_lt_coe_iff, Rat.cast_lt]
    unfold EF.val
    norm_num
  · rw [← Bool.not_eq_true,
      lt_spec (c _ _ (by norm_num) (by norm_num) (.inr rfl)) (c _ _ (by norm_num) (by norm_num) (.inr rfl)) (by decide) (by decide),
      ext_finite (c _ _ (by norm_num) (by norm_num) (.inr rfl)) (by decide), ext_finite (c _ _ (by norm_num) (by norm_num) (.inr rfl)) (by decide),
      EReal.coe_lt_coe_iff, Rat.cast_lt]
    unfold EF.val
    norm_num

end Verif.ExactFloat
