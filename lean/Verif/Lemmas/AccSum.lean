import Verif.Lemmas.FloatRounding

/-!
The steps of the accurate summation: extraction of the leading part of every number, the sums of both parts, and the decision to stop.
-/

namespace Verif.AccSum

/-- The grid of the numbers extracted by `2 ^ k`. -/
def gridOf (k : ℤ) : ℤ := max (k - 53) (-1074)

theorem gridOf_ge (k : ℤ) : -1074 ≤ gridOf k := le_max_right _ _

theorem le_gridOf (k : ℤ) : (2 : ℝ) ^ k ≤ 2 ^ (gridOf k + 53) := zpow_mono (by unfold gridOf; omega)

theorem zpow_sub53 (k : ℤ) : (2 : ℝ) ^ (k - 53) = 2 ^ (-53 : ℤ) * 2 ^ k := by
  rw [← zpow_split]
  congr 1
  ring

theorem eps_val : (2 : ℝ) ^ (-53 : ℤ) = 1 / 9007199254740992 := by norm_num

section
variable {rn : ℝ → ℝ} (hr : Rounding rn)
include hr

/-- One number is split without error. -/
theorem extract {k : ℤ} {p : ℝ} (hk : -1074 ≤ k) (hp : IsFloat p) (hb : |p| ≤ 3 / 64 * 2 ^ k) :
    let q := rn (rn (2 ^ k + p) - 2 ^ k)
    Grid (gridOf k) q ∧ |q| ≤ 7 / 128 * 2 ^ k ∧ rn (p - q) = p - q ∧ |p - q| ≤ 67 / 64 * 2 ^ (k - 53) ∧ (k ≤ -1022 → p - q = 0) := by
  intro q
  have pk := two_zpow_pos k
  obtain ⟨b1, b2⟩ := abs_le.mp hb
  set s := rn (2 ^ k + p) with hs
  have g74 : Grid (-1074) (2 ^ k + p) := (grid_pow hk).add (float_grid hp)
  -- the grid of the rounded sum
  have gs : Grid (gridOf k) s := by
    rcases lt_or_eq_of_le hk with h | h
    · have : (2 : ℝ) ^ (k - 1) ≤ |s| := by
        refine le_abs_rn hr (float_pow (by omega)) ?_
        have e : (2 : ℝ) ^ k = 2 * 2 ^ (k - 1) := by
          rw [zpow_sub₀ (by norm_num), zpow_one]
          ring
        rw [abs_of_nonneg (by linarith)]
        linarith
      have := grid_of_float (hr.float _) this
      rwa [show max (k - 1 - 52) (-1074) = gridOf k by unfold gridOf; congr 1; ring] at this
    · rw [show gridOf k = -1074 by unfold gridOf; omega]
      exact float_grid (hr.float _)
  -- the rounding error
  have es : |s - (2 ^ k + p)| ≤ 67 / 64 * 2 ^ (k - 53) := by
    refine (rn_rel hr g74).trans ?_
    rw [zpow_sub53, abs_of_nonneg (by linarith)]
    have := two_zpow_pos (-53)
    nlinarith
  have ep : |s - (2 ^ k + p)| ≤ |p| := by
    have := hr.nearest (2 ^ k + p) (2 ^ k) (float_pow hk)
    rwa [show (2 : ℝ) ^ k - (2 ^ k + p) = -p by ring, abs_neg] at this
  have gq : Grid (gridOf k) (s - 2 ^ k) := gs.sub (grid_pow (by unfold gridOf; omega))
  have small : 67 / 64 * (2 : ℝ) ^ (k - 53) ≤ 1 / 128 * 2 ^ k := by
    rw [zpow_sub53, eps_val]
    linarith
  have bq : |s - 2 ^ k| ≤ 7 / 128 * 2 ^ k := by
    obtain ⟨c1, c2⟩ := abs_le.mp es
    rw [abs_le]
    constructor <;> linarith
  have hq : q = s - 2 ^ k := by
    refine rn_exact hr (float_of_grid (gridOf_ge k) gq (bq.trans ?_))
    have := le_gridOf k
    linarith
  have hpq : p - q = -(s - (2 ^ k + p)) := by rw [hq]; ring
  refine ⟨hq ▸ gq, hq ▸ bq, ?_, ?_, ?_⟩
  · refine rn_exact hr ?_
    obtain ⟨m, e, hm, he, hp'⟩ := hp
    rcases le_or_gt (gridOf k) e with c | c
    · have g : Grid (gridOf k) (p - q) := (Grid.mono ⟨m, hp'⟩ c).sub (hq ▸ gq)
      refine float_of_grid (gridOf_ge k) g ?_
      rw [hpq, abs_neg]
      have := le_gridOf k
      linarith
    · have g : Grid e (p - q) := Grid.sub ⟨m, hp'⟩ ((hq ▸ gq : Grid (gridOf k) q).mono c.le)
      refine float_of_grid he g ?_
      rw [hpq, abs_neg]
      refine ep.trans ?_
      rw [hp', abs_mul, abs_of_pos (two_zpow_pos e), add_comm, zpow_split]
      refine mul_le_mul_of_nonneg_right ?_ (two_zpow_pos e).le
      have e53 : (2 : ℝ) ^ (53 : ℤ) = ((2 ^ 53 : ℤ) : ℝ) := by norm_num
      rw [e53, ← Int.cast_abs]
      exact Int.cast_le.mpr hm.le
  · rw [hpq, abs_neg]
    exact es
  · intro h
    have : s = 2 ^ k + p := by
      refine rn_exact hr (float_of_grid le_rfl g74 ?_)
      have : (2 : ℝ) ^ (k + 1) ≤ 2 ^ (-1074 + 53 : ℤ) := zpow_mono (by omega)
      rw [zpow_split, zpow_one] at this
      rw [abs_of_nonneg (by linarith)]
      linarith
    rw [hpq, this]
    ring

/-- What the inner loop computes. -/
theorem pass_spec {k : ℤ} (hk : -1074 ≤ k) {b : ℝ} (b0 : 0 ≤ b) (bf : ∀ j : ℕ, j ≤ 16 → IsFloat (j * b))
    (hb : 67 / 64 * (2 : ℝ) ^ (k - 53) ≤ b ∨ (k ≤ -1022 ∧ b = 0)) :
    ∀ (ps : List ℝ) (j : ℕ) (tau sum : ℝ), (∀ p ∈ ps, IsFloat p ∧ |p| ≤ 3 / 64 * 2 ^ k) → j + ps.length ≤ 16 → Grid (gridOf k) tau →
      |tau| ≤ j * (7 / 128 * 2 ^ k) → IsFloat sum → |sum| ≤ j * b →
      let r := pass rn (2 ^ k) ps tau sum
      Grid (gridOf k) r.1 ∧ |r.1| ≤ (j + ps.length : ℕ) * (7 / 128 * 2 ^ k) ∧ r.1 + r.2.2.sum = tau + ps.sum ∧ r.2.2.length = ps.length ∧
        (∀ p ∈ r.2.2, IsFloat p ∧ |p| ≤ 67 / 64 * 2 ^ (k - 53) ∧ |p| ≤ b) ∧ IsFloat r.2.1 ∧ |r.2.1| ≤ (j + ps.length : ℕ) * b ∧
        |r.2.1 - (sum + r.2.2.sum)| ≤ ps.length * (2 ^ (-53 : ℤ) * (16 * b)) := by
  intro ps
  induction ps with
  | nil =>
    intro j tau sum _ _ gt bt fs bs
    simp only [pass, List.length_nil, Nat.add_zero, List.sum_nil, add_zero, sub_self, abs_zero, Nat.cast_zero, zero_mul, le_refl, and_true, true_and, List.not_mem_nil, false_implies, implies_true]
    exact ⟨gt, bt, fs, bs⟩
  | cons p ps ih =>
    intro j tau sum hps hj gt bt fs bs
    have pk := two_zpow_pos k
    rw [List.length_cons] at hj
    obtain ⟨fp, bp⟩ := hps p (List.mem_cons_self ..)
    obtain ⟨gq, bq, ex, bd, ez⟩ := extract hr hk fp bp
    set q := rn (rn (2 ^ k + p) - 2 ^ k) with hq
    have bpb : |p - q| ≤ b := by
      rcases hb with h | ⟨h, h'⟩
      · exact bd.trans h
      · rw [ez h, abs_zero]
        exact b0
    have fpq : IsFloat (p - q) := ex ▸ hr.float (p - q)
    have j16 : ((j + 1 : ℕ) : ℝ) ≤ 16 := by exact_mod_cast (by omega : j + 1 ≤ 16)
    have tq : |tau + q| ≤ (j + 1 : ℕ) * (7 / 128 * 2 ^ k) := by
      refine (abs_add_le _ _).trans ?_
      push_cast
      linarith
    have et : rn (tau + q) = tau + q := by
      refine rn_exact hr (float_of_grid (gridOf_ge k) (gt.add gq) (tq.trans ?_))
      have := le_gridOf k
      nlinarith
    have sx : |sum + (p - q)| ≤ (j + 1 : ℕ) * b := by
      refine (abs_add_le _ _).trans ?_
      push_cast
      linarith
    have sr := abs_rn_le hr (bf (j + 1) (by omega)) sx
    have se := rn_rel hr ((float_grid fs).add (float_grid fpq))
    have step := ih (j + 1) (tau + q) (rn (sum + (p - q))) (fun x hx => hps x (List.mem_cons_of_mem _ hx)) (by omega) (gt.add gq) tq (hr.float _) sr
    obtain ⟨h1, h2, h3, h4, h5, h6, h7, h8⟩ := step
    simp only [pass]
    rw [← hq, ex, et]
    refine ⟨h1, ?_, ?_, ?_, ?_, h6, ?_, ?_⟩
    · rw [List.length_cons, show j + (ps.length + 1) = j + 1 + ps.length by ring]
      exact h2
    · rw [List.sum_cons, List.sum_cons]
      linarith
    · rw [List.length_cons, List.length_cons, h4]
    · intro x hx
      rcases List.mem_cons.mp hx with rfl | hx
      · exact ⟨fpq, bd, bpb⟩
      · exact h5 x hx
    · rw [List.length_cons, show j + (ps.length + 1) = j + 1 + ps.length by ring]
      exact h7
    · rw [List.sum_cons, List.length_cons]
      have e16 : |sum + (p - q)| ≤ 16 * b := sx.trans (mul_le_mul_of_nonneg_right j16 b0)
      have a1 := mul_le_mul_of_nonneg_left e16 (two_zpow_pos (-53)).le
      set R := pass rn (2 ^ k) ps (tau + q) (rn (sum + (p - q)))
      rw [show R.2.1 - (sum + (p - q + R.2.2.sum)) = (R.2.1 - (rn (sum + (p - q)) + R.2.2.sum)) + (rn (sum + (p - q)) - (sum + (p - q))) by ring]
      refine (abs_add_le _ _).trans ?_
      push_cast
      linarith

/-- The leading sums are added without error: either exactly or with the error found exactly. -/
theorem two_sum {k : ℤ} {t tau : ℝ} (gt : Grid (gridOf k) t) (gtau : Grid (gridOf k) tau) (bt : |t| ≤ 2 ^ (k + 5)) (btau : |tau| ≤ 7 / 8 * 2 ^ k) :
    rn (tau - rn (rn (t + tau) - t)) = t + tau - rn (t + tau) ∧ (|rn (t + tau)| < 2 ^ k → rn (t + tau) = t + tau) := by
  have pk := two_zpow_pos k
  have gT := gt.add gtau
  rw [show (2 : ℝ) ^ (k + 5) = 32 * 2 ^ k by rw [zpow_split]; norm_num; ring] at bt
  have bT : |t + tau| ≤ 33 * 2 ^ k := by
    refine (abs_add_le _ _).trans ?_
    linarith
  have exact' : |t + tau| ≤ 2 ^ (gridOf k + 53) → rn (t + tau) = t + tau := fun h => rn_exact hr (float_of_grid (gridOf_ge k) gT h)
  have big : ¬ |t + tau| ≤ 2 ^ (gridOf k + 53) → 2 ^ (gridOf k + 53) ≤ |rn (t + tau)| := by
    intro h
    push Not at h
    exact le_abs_rn hr (float_pow (by have := gridOf_ge k; omega)) h.le
  have g1 : Grid (gridOf k) (rn (t + tau)) := by
    by_cases h : |t + tau| ≤ 2 ^ (gridOf k + 53)
    · rw [exact' h]
      exact gT
    · exact (grid_of_float (hr.float _) (big h)).mono (le_max_of_le_left (by omega))
  have err := rn_rel hr (gT.mono (gridOf_ge k))
  have err' : |rn (t + tau) - (t + tau)| ≤ 1 / 8 * 2 ^ k := by
    refine err.trans ?_
    rw [eps_val]
    linarith
  have lg := le_gridOf k
  have e1 : rn (rn (t + tau) - t) = rn (t + tau) - t := by
    refine rn_exact hr (float_of_grid (gridOf_ge k) (g1.sub gt) ?_)
    rw [show rn (t + tau) - t = (rn (t + tau) - (t + tau)) + tau by ring]
    refine (abs_add_le _ _).trans ?_
    linarith
  refine ⟨?_, ?_⟩
  · rw [e1, show tau - (rn (t + tau) - t) = t + tau - rn (t + tau) by ring]
    refine rn_exact hr (float_of_grid (gridOf_ge k) (gT.sub g1) ?_)
    rw [abs_sub_comm]
    linarith
  · intro h
    by_contra c
    have := big (fun g => c (exact' g))
    linarith

end

end Verif.AccSum
