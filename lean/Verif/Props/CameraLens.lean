import Verif.Model.Camera
import Mathlib.Analysis.Complex.Basic
import Mathlib.Tactic.Linarith
import Mathlib.Tactic.LinearCombination
import Mathlib.Tactic.Positivity
import Mathlib.Tactic.FieldSimp
import Mathlib.Tactic.NormNum

/-!
C110: the lens.  Directions become pixels by OpenCV's distortion, pixels become directions by an iteration that converges.
-/

namespace Verif.Camera

/-! ## Specification -/

/-- The length of a vector of the plane. -/
noncomputable def len (p : ℝ × ℝ) : ℝ := √(p.1 ^ 2 + p.2 ^ 2)

/-- OpenCV's distortion with the radial coefficients `k1 k2 k3` and the tangential coefficients `p1 p2`. -/
noncomputable def openCV (k1 k2 p1 p2 k3 : ℝ) (a : ℝ × ℝ) : ℝ × ℝ :=
  let f := 1 + k1 * len a ^ 2 + k2 * len a ^ 4 + k3 * len a ^ 6
  (a.1 * f + 2 * p1 * a.1 * a.2 + p2 * (len a ^ 2 + 2 * a.1 ^ 2), a.2 * f + p1 * (len a ^ 2 + 2 * a.2 ^ 2) + 2 * p2 * a.1 * a.2)

namespace Calib

/-- The distortion of a camera, with the order of the intrinsics in dataset.proto:98. -/
noncomputable def distort (c : Calib) (p : ℝ × ℝ) : ℝ × ℝ := openCV c.k1 c.k2 c.k3 c.k4 c.k5 p

/-- The pixel of a direction. -/
noncomputable def pixelOf (c : Calib) (p : ℝ × ℝ) : ℝ × ℝ := (c.fu * (c.distort p).1 + c.cu, c.fv * (c.distort p).2 + c.cv)

/-- The radial factor of a direction. -/
noncomputable def factorOf (c : Calib) (p : ℝ × ℝ) : ℝ := 1 + c.k1 * len p ^ 2 + c.k2 * len p ^ 4 + c.k5 * len p ^ 6

/-- The distortion is mild up to the radius `R`. -/
structure Mild (c : Calib) (R L : ℝ) : Prop where
  radius : 0 ≤ R
  nonneg : 0 ≤ L
  lt_one : L < 1
  radial : |c.k1| * R ^ 2 + |c.k2| * R ^ 4 + |c.k5| * R ^ 6 < 1
  bound : 2 * (|c.k1| * R ^ 2) + 4 * (|c.k2| * R ^ 4) + 6 * (|c.k5| * R ^ 6) + 6 * R * (|c.k3| + |c.k4|) ≤
    L * (1 - (|c.k1| * R ^ 2 + |c.k2| * R ^ 4 + |c.k5| * R ^ 6))

end Calib

/-! ## Complex numbers as the plane -/

/-- A vector of the plane as a complex number. -/
def toC (p : ℝ × ℝ) : ℂ := ⟨p.1, p.2⟩

theorem toC_inj {p q : ℝ × ℝ} (h : toC p = toC q) : p = q := Prod.ext (congrArg Complex.re h) (congrArg Complex.im h)

theorem len_eq (p : ℝ × ℝ) : len p = ‖toC p‖ := by
  rw [Complex.norm_def, Complex.normSq_apply]
  unfold len toC
  simp only [pow_two]

theorem toC_sub (p q : ℝ × ℝ) : toC (p - q) = toC p - toC q := Complex.ext (by simp [toC]) (by simp [toC])

theorem len_sq (p : ℝ × ℝ) : len p ^ 2 = p.1 * p.1 + p.2 * p.2 := by
  unfold len
  rw [Real.sq_sqrt (by positivity)]
  ring

theorem len_nonneg (p : ℝ × ℝ) : 0 ≤ len p := Real.sqrt_nonneg _

theorem radial_eq (c : Calib) (p : ℝ × ℝ) : c.radial p = c.factorOf p := by
  unfold Calib.radial Calib.factorOf
  have h4 : len p ^ 4 = (len p ^ 2) ^ 2 := by ring
  have h6 : len p ^ 6 = (len p ^ 2) ^ 3 := by ring
  rw [h4, h6, len_sq]
  ring

/-- The two tangential coefficients as a complex number. -/
def Calib.kappa (c : Calib) : ℂ := ⟨c.k4, c.k3⟩

theorem norm_sq_toC (p : ℝ × ℝ) : (‖toC p‖ : ℝ) ^ 2 = p.1 * p.1 + p.2 * p.2 := by rw [← len_eq, len_sq]

theorem tangential_toC (c : Calib) (p : ℝ × ℝ) :
    toC (c.tangential p) = 2 * ((‖toC p‖ ^ 2 : ℝ) : ℂ) * c.kappa + (starRingEnd ℂ) c.kappa * toC p ^ 2 := by
  rw [norm_sq_toC]
  apply Complex.ext
  · simp [toC, Calib.tangential, Calib.kappa, pow_two]
    ring
  · simp [toC, Calib.tangential, Calib.kappa, pow_two]
    ring

theorem distort_toC (c : Calib) (p : ℝ × ℝ) : toC (c.distort p) = toC p * (c.radial p : ℝ) + toC (c.tangential p) := by
  have h := radial_eq c p
  unfold Calib.factorOf at h
  apply Complex.ext
  · simp only [toC, Calib.distort, openCV, Calib.tangential, Complex.add_re, Complex.mul_re, Complex.ofReal_re, Complex.ofReal_im, h, len_sq]
    ring
  · simp only [toC, Calib.distort, openCV, Calib.tangential, Complex.add_im, Complex.mul_im, Complex.ofReal_re, Complex.ofReal_im, h, len_sq]
    ring

/-! ## From directions to pixels -/

theorem directionToImage_out {c : Calib} {p : ℝ × ℝ} (h : c.radial p < 0.8 ∨ 1.2 < c.radial p) :
    c.directionToImage p = (false, (p.1 * (1 / √(p.1 * p.1 + p.2 * p.2)) * √((c.width : ℝ) * c.width + (c.height : ℝ) * c.height) + c.cu,
      p.2 * (1 / √(p.1 * p.1 + p.2 * p.2)) * √((c.width : ℝ) * c.width + (c.height : ℝ) * c.height) + c.cv)) := by
  unfold Calib.directionToImage
  exact if_pos (show c.radial p < Calib.kMinRadialDistortion ∨ Calib.kMaxRadialDistortion < c.radial p from h)

theorem directionToImage_in {c : Calib} {p : ℝ × ℝ} (h : ¬(c.radial p < 0.8 ∨ 1.2 < c.radial p)) : c.directionToImage p = (true, c.pixelOf p) := by
  have r := radial_eq c p
  unfold Calib.factorOf at r
  unfold Calib.directionToImage
  refine (if_neg (show ¬(c.radial p < Calib.kMinRadialDistortion ∨ Calib.kMaxRadialDistortion < c.radial p) from h)).trans ?_
  unfold Calib.pixelOf Calib.distort openCV
  simp only
  rw [r, len_sq]
  ext <;> simp only <;> ring

/-- **Directions become pixels by OpenCV's distortion** (C110). -/
theorem directionToImage_spec (c : Calib) (p : ℝ × ℝ) :
    ((c.directionToImage p).1 = true ↔ 0.8 ≤ c.factorOf p ∧ c.factorOf p ≤ 1.2) ∧ ((c.directionToImage p).1 = true → (c.directionToImage p).2 = c.pixelOf p) := by
  by_cases h : c.radial p < 0.8 ∨ 1.2 < c.radial p
  · rw [directionToImage_out h]
    rw [radial_eq] at h
    refine ⟨⟨fun g => absurd g (by simp), fun g => ?_⟩, fun g => absurd g (by simp)⟩
    rcases h with h | h <;> linarith
  · rw [directionToImage_in h]
    push Not at h
    rw [radial_eq] at h
    exact ⟨⟨fun _ => h, fun _ => rfl⟩, fun _ => rfl⟩

/-- **A direction that is refused gets a pixel outside of the image, on its side** (C110), if the principal point is in the image. -/
theorem directionToImage_outside (c : Calib) (p : ℝ × ℝ) (h : (c.directionToImage p).1 = false) :
    (c.width ≠ 0 ∨ c.height ≠ 0 → ∃ s : ℝ, 0 < s ∧ (c.directionToImage p).2 = (c.cu + s * p.1, c.cv + s * p.2)) ∧
    (c.inImage (c.cu, c.cv) = true → c.inImage (c.directionToImage p).2 = false) := by
  have g : c.radial p < 0.8 ∨ 1.2 < c.radial p := by
    by_contra g
    rw [directionToImage_in g] at h
    simp at h
  rw [directionToImage_out g]
  clear h
  simp only
  have r0 : 0 < p.1 * p.1 + p.2 * p.2 := by
    rcases (add_nonneg (mul_self_nonneg p.1) (mul_self_nonneg p.2)).eq_or_lt with e | e
    · exfalso
      unfold Calib.radial at g
      simp only [← e] at g
      norm_num at g
    · exact e
  set r := √(p.1 * p.1 + p.2 * p.2) with hr
  have rpos : 0 < r := Real.sqrt_pos.mpr r0
  have rsq : r * r = p.1 * p.1 + p.2 * p.2 := Real.mul_self_sqrt r0.le
  set W : ℝ := (c.width : ℝ) with hW
  set H : ℝ := (c.height : ℝ) with hH
  have dsq : √(W * W + H * H) * √(W * W + H * H) = W * W + H * H := Real.mul_self_sqrt (add_nonneg (mul_self_nonneg W) (mul_self_nonneg H))
  constructor
  · intro z
    have : 0 < W * W + H * H := by
      rcases z with q | q
      · have : W ≠ 0 := by rw [hW]; exact_mod_cast q
        have := mul_self_pos.mpr this
        nlinarith [mul_self_nonneg H]
      · have : H ≠ 0 := by rw [hH]; exact_mod_cast q
        have := mul_self_pos.mpr this
        nlinarith [mul_self_nonneg W]
    have d0 : 0 < √(W * W + H * H) := Real.sqrt_pos.mpr this
    refine ⟨1 / r * √(W * W + H * H), by positivity, ?_⟩
    ext <;> simp only <;> ring
  · intro hc
    unfold Calib.inImage at hc ⊢
    rw [decide_eq_true_eq] at hc
    rw [decide_eq_false_iff_not]
    rintro ⟨a1, a2, a3, a4⟩
    obtain ⟨b1, b2, b3, b4⟩ := hc
    simp only at a1 a2 a3 a4 b1 b2 b3 b4
    set d := √(W * W + H * H) with hd
    have key : (p.1 * (1 / r) * d) ^ 2 + (p.2 * (1 / r) * d) ^ 2 = W * W + H * H := by
      rw [show (p.1 * (1 / r) * d) ^ 2 + (p.2 * (1 / r) * d) ^ 2 = (p.1 * p.1 + p.2 * p.2) * (1 / r) ^ 2 * (d * d) by ring, ← rsq, dsq]
      field_simp
    have x1 : (p.1 * (1 / r) * d) ^ 2 < W * W := by
      rw [← pow_two]
      exact sq_lt_sq' (by linarith) (by linarith)
    have x2 : (p.2 * (1 / r) * d) ^ 2 < H * H := by
      rw [← pow_two]
      exact sq_lt_sq' (by linarith) (by linarith)
    linarith

/-! ## From pixels to directions -/

/-- **The iteration rests exactly at the directions of the pixel** (C110). -/
theorem undistStep_fixed (c : Calib) (t p : ℝ × ℝ) (h : c.radial p ≠ 0) : c.undistStep t p = p ↔ c.distort p = t := by
  have e := distort_toC c p
  have e1 : (c.distort p).1 = p.1 * c.radial p + (c.tangential p).1 := by
    have := congrArg Complex.re e
    simpa [toC] using this
  have e2 : (c.distort p).2 = p.2 * c.radial p + (c.tangential p).2 := by
    have := congrArg Complex.im e
    simpa [toC] using this
  unfold Calib.undistStep
  rw [Prod.ext_iff, Prod.ext_iff]
  simp only
  rw [div_eq_iff h, div_eq_iff h, e1, e2]
  constructor
  · rintro ⟨a, b⟩
    exact ⟨by linarith, by linarith⟩
  · rintro ⟨a, b⟩
    exact ⟨by linarith, by linarith⟩

section Contraction

variable {c : Calib} {R L : ℝ}

theorem pow_diff {a b R : ℝ} (ha : 0 ≤ a) (hb : 0 ≤ b) (aR : a ≤ R) (bR : b ≤ R) :
    |a ^ 2 - b ^ 2| ≤ |a - b| * (2 * R) ∧ |a ^ 4 - b ^ 4| ≤ |a - b| * (4 * R ^ 3) ∧ |a ^ 6 - b ^ 6| ≤ |a - b| * (6 * R ^ 5) := by
  have R0 : 0 ≤ R := ha.trans aR
  refine ⟨?_, ?_, ?_⟩
  · rw [show a ^ 2 - b ^ 2 = (a - b) * (a + b) by ring, abs_mul, abs_of_nonneg (add_nonneg ha hb)]
    exact mul_le_mul_of_nonneg_left (by linarith) (abs_nonneg _)
  · rw [show a ^ 4 - b ^ 4 = (a - b) * (a ^ 3 + a ^ 2 * b + a * b ^ 2 + b ^ 3) by ring, abs_mul,
      abs_of_nonneg (show 0 ≤ a ^ 3 + a ^ 2 * b + a * b ^ 2 + b ^ 3 by positivity)]
    refine mul_le_mul_of_nonneg_left ?_ (abs_nonneg _)
    have h1 : a ^ 3 ≤ R ^ 3 := pow_le_pow_left₀ ha aR 3
    have h2 : b ^ 3 ≤ R ^ 3 := pow_le_pow_left₀ hb bR 3
    have h3 : a ^ 2 * b ≤ R ^ 2 * R := mul_le_mul (pow_le_pow_left₀ ha aR 2) bR hb (by positivity)
    have h4 : a * b ^ 2 ≤ R * R ^ 2 := mul_le_mul aR (pow_le_pow_left₀ hb bR 2) (by positivity) R0
    nlinarith
  · rw [show a ^ 6 - b ^ 6 = (a - b) * (a ^ 5 + a ^ 4 * b + a ^ 3 * b ^ 2 + a ^ 2 * b ^ 3 + a * b ^ 4 + b ^ 5) by ring, abs_mul,
      abs_of_nonneg (show 0 ≤ a ^ 5 + a ^ 4 * b + a ^ 3 * b ^ 2 + a ^ 2 * b ^ 3 + a * b ^ 4 + b ^ 5 by positivity)]
    refine mul_le_mul_of_nonneg_left ?_ (abs_nonneg _)
    have h1 : a ^ 5 ≤ R ^ 5 := pow_le_pow_left₀ ha aR 5
    have h2 : b ^ 5 ≤ R ^ 5 := pow_le_pow_left₀ hb bR 5
    have h3 : a ^ 4 * b ≤ R ^ 4 * R := mul_le_mul (pow_le_pow_left₀ ha aR 4) bR hb (by positivity)
    have h4 : a ^ 3 * b ^ 2 ≤ R ^ 3 * R ^ 2 := mul_le_mul (pow_le_pow_left₀ ha aR 3) (pow_le_pow_left₀ hb bR 2) (by positivity) (by positivity)
    have h5 : a ^ 2 * b ^ 3 ≤ R ^ 2 * R ^ 3 := mul_le_mul (pow_le_pow_left₀ ha aR 2) (pow_le_pow_left₀ hb bR 3) (by positivity) (by positivity)
    have h6 : a * b ^ 4 ≤ R * R ^ 4 := mul_le_mul aR (pow_le_pow_left₀ hb bR 4) (by positivity) R0
    nlinarith

theorem radial_diff (hR : 0 ≤ R) {p q : ℝ × ℝ} (hp : len p ≤ R) (hq : len q ≤ R) :
    |c.radial p - c.radial q| * R ≤ (2 * (|c.k1| * R ^ 2) + 4 * (|c.k2| * R ^ 4) + 6 * (|c.k5| * R ^ 6)) * ‖toC p - toC q‖ := by
  obtain ⟨h1, h2, h3⟩ := pow_diff (len_nonneg p) (len_nonneg q) hp hq
  have hd : |len p - len q| ≤ ‖toC p - toC q‖ := by
    rw [len_eq, len_eq]
    exact abs_norm_sub_norm_le _ _
  rw [radial_eq, radial_eq]
  unfold Calib.factorOf
  have e : 1 + c.k1 * len p ^ 2 + c.k2 * len p ^ 4 + c.k5 * len p ^ 6 - (1 + c.k1 * len q ^ 2 + c.k2 * len q ^ 4 + c.k5 * len q ^ 6) =
      c.k1 * (len p ^ 2 - len q ^ 2) + c.k2 * (len p ^ 4 - len q ^ 4) + c.k5 * (len p ^ 6 - len q ^ 6) := by ring
  rw [e]
  have t : |c.k1 * (len p ^ 2 - len q ^ 2) + c.k2 * (len p ^ 4 - len q ^ 4) + c.k5 * (len p ^ 6 - len q ^ 6)| ≤
      |c.k1| * (|len p - len q| * (2 * R)) + |c.k2| * (|len p - len q| * (4 * R ^ 3)) + |c.k5| * (|len p - len q| * (6 * R ^ 5)) := by
    refine (abs_add_three _ _ _).trans ?_
    rw [abs_mul, abs_mul, abs_mul]
    gcongr
  calc _ ≤ (|c.k1| * (|len p - len q| * (2 * R)) + |c.k2| * (|len p - len q| * (4 * R ^ 3)) + |c.k5| * (|len p - len q| * (6 * R ^ 5))) * R := by gcongr
    _ = (2 * (|c.k1| * R ^ 2) + 4 * (|c.k2| * R ^ 4) + 6 * (|c.k5| * R ^ 6)) * |len p - len q| := by ring
    _ ≤ _ := by gcongr

theorem kappa_norm (c : Calib) : ‖c.kappa‖ ≤ |c.k3| + |c.k4| := by
  have := Complex.norm_le_abs_re_add_abs_im c.kappa
  simp only [Calib.kappa] at this ⊢
  linarith

theorem tangential_diff (hR : 0 ≤ R) {p q : ℝ × ℝ} (hp : len p ≤ R) (hq : len q ≤ R) :
    ‖toC (c.tangential p) - toC (c.tangential q)‖ ≤ 6 * R * (|c.k3| + |c.k4|) * ‖toC p - toC q‖ := by
  rw [tangential_toC, tangential_toC]
  rw [len_eq] at hp hq
  set z := toC p
  set w := toC q
  have e : 2 * ((‖z‖ ^ 2 : ℝ) : ℂ) * c.kappa + (starRingEnd ℂ) c.kappa * z ^ 2 - (2 * ((‖w‖ ^ 2 : ℝ) : ℂ) * c.kappa + (starRingEnd ℂ) c.kappa * w ^ 2) =
      2 * (((‖z‖ - ‖w‖) * (‖z‖ + ‖w‖) : ℝ) : ℂ) * c.kappa + (starRingEnd ℂ) c.kappa * ((z - w) * (z + w)) := by
    push_cast
    ring
  rw [e]
  have hd : |‖z‖ - ‖w‖| ≤ ‖z - w‖ := abs_norm_sub_norm_le _ _
  have s1 : ‖(2 : ℂ) * (((‖z‖ - ‖w‖) * (‖z‖ + ‖w‖) : ℝ) : ℂ) * c.kappa‖ ≤ 2 * (‖z - w‖ * (2 * R)) * ‖c.kappa‖ := by
    rw [norm_mul, norm_mul, Complex.norm_real, Real.norm_eq_abs, abs_mul, abs_of_nonneg (add_nonneg (norm_nonneg z) (norm_nonneg w))]
    have : ‖(2 : ℂ)‖ = 2 := by simp
    rw [this]
    gcongr
    linarith
  have s2 : ‖(starRingEnd ℂ) c.kappa * ((z - w) * (z + w))‖ ≤ ‖c.kappa‖ * (‖z - w‖ * (2 * R)) := by
    rw [norm_mul, norm_mul, RCLike.norm_conj]
    gcongr
    exact (norm_add_le _ _).trans (by linarith)
  calc _ ≤ 2 * (‖z - w‖ * (2 * R)) * ‖c.kappa‖ + ‖c.kappa‖ * (‖z - w‖ * (2 * R)) := (norm_add_le _ _).trans (add_le_add s1 s2)
    _ = 6 * R * ‖c.kappa‖ * ‖z - w‖ := by ring
    _ ≤ _ := by
      have := kappa_norm c
      gcongr

theorem radial_ge (hm : c.Mild R L) {p : ℝ × ℝ} (hp : len p ≤ R) :
    1 - (|c.k1| * R ^ 2 + |c.k2| * R ^ 4 + |c.k5| * R ^ 6) ≤ c.radial p ∧ c.radial p ≤ 1 + (|c.k1| * R ^ 2 + |c.k2| * R ^ 4 + |c.k5| * R ^ 6) := by
  rw [radial_eq]
  unfold Calib.factorOf
  have l0 := len_nonneg p
  have h : ∀ (k : ℝ) (n : ℕ), |k * len p ^ n| ≤ |k| * R ^ n := by
    intro k n
    rw [abs_mul, abs_of_nonneg (pow_nonneg l0 n)]
    exact mul_le_mul_of_nonneg_left (pow_le_pow_left₀ l0 hp n) (abs_nonneg _)
  have a := abs_le.mp (h c.k1 2)
  have b := abs_le.mp (h c.k2 4)
  have d := abs_le.mp (h c.k5 6)
  constructor <;> linarith

theorem step_toC {t p : ℝ × ℝ} (h : c.radial p ≠ 0) : toC (c.undistStep t p) * (c.radial p : ℝ) = toC t - toC (c.tangential p) := by
  apply Complex.ext
  · simp only [toC, Calib.undistStep, Complex.mul_re, Complex.ofReal_re, Complex.ofReal_im, Complex.sub_re]
    field_simp
    ring
  · simp only [toC, Calib.undistStep, Complex.mul_im, Complex.ofReal_re, Complex.ofReal_im, Complex.sub_im]
    field_simp
    ring

/-- A step of the iteration contracts the distance to the direction. -/
theorem step_contract (hm : c.Mild R L) {p s : ℝ × ℝ} (hp : len p ≤ R) (hs : len s ≤ R) :
    ‖toC (c.undistStep (c.distort s) p) - toC s‖ ≤ L * ‖toC p - toC s‖ := by
  have m := (radial_ge hm hp).1
  have m0 : 0 < c.radial p := lt_of_lt_of_le (by linarith [hm.radial]) m
  have e := step_toC (t := c.distort s) m0.ne'
  have k : (toC (c.undistStep (c.distort s) p) - toC s) * (c.radial p : ℝ) =
      toC s * ((c.radial s - c.radial p : ℝ) : ℂ) + (toC (c.tangential s) - toC (c.tangential p)) := by
    rw [sub_mul, e, distort_toC]
    push_cast
    ring
  have n := congrArg norm k
  rw [norm_mul, Complex.norm_real, Real.norm_eq_abs, abs_of_pos m0] at n
  have r1 := radial_diff (c := c) hm.radius hs hp
  have r2 := tangential_diff (c := c) hm.radius hs hp
  have sR : ‖toC s‖ ≤ R := by rw [← len_eq]; exact hs
  have b : ‖toC s * ((c.radial s - c.radial p : ℝ) : ℂ) + (toC (c.tangential s) - toC (c.tangential p))‖ ≤
      (2 * (|c.k1| * R ^ 2) + 4 * (|c.k2| * R ^ 4) + 6 * (|c.k5| * R ^ 6) + 6 * R * (|c.k3| + |c.k4|)) * ‖toC p - toC s‖ := by
    refine (norm_add_le _ _).trans ?_
    rw [norm_mul, Complex.norm_real, Real.norm_eq_abs]
    have : ‖toC s‖ * |c.radial s - c.radial p| ≤ |c.radial s - c.radial p| * R := by
      rw [mul_comm]
      exact mul_le_mul_of_nonneg_left sR (abs_nonneg _)
    rw [norm_sub_rev (toC p)]
    linarith
  have nn := norm_nonneg (toC p - toC s)
  have : ‖toC (c.undistStep (c.distort s) p) - toC s‖ * c.radial p ≤ L * ‖toC p - toC s‖ * c.radial p := by
    rw [n]
    refine b.trans ?_
    calc _ ≤ L * (1 - (|c.k1| * R ^ 2 + |c.k2| * R ^ 4 + |c.k5| * R ^ 6)) * ‖toC p - toC s‖ := mul_le_mul_of_nonneg_right hm.bound nn
      _ ≤ L * c.radial p * ‖toC p - toC s‖ := by
        refine mul_le_mul_of_nonneg_right (mul_le_mul_of_nonneg_left m hm.nonneg) nn
      _ = _ := by ring
  exact le_of_mul_le_mul_right this m0

/-- **Different directions have different pixels** (C110), as far as the distortion is mild. -/
theorem distort_injective (hm : c.Mild R L) {p q : ℝ × ℝ} (hp : len p ≤ R) (hq : len q ≤ R) (h : c.distort p = c.distort q) : p = q := by
  have m0 : c.radial p ≠ 0 := (lt_of_lt_of_le (by linarith [hm.radial]) (radial_ge hm hp).1).ne'
  have f := (undistStep_fixed c (c.distort q) p m0).mpr h
  have k := step_contract hm hp hq
  rw [f] at k
  have n := norm_nonneg (toC p - toC q)
  have : ‖toC p - toC q‖ = 0 := by
    by_contra g
    have : 0 < ‖toC p - toC q‖ := lt_of_le_of_ne n (Ne.symm g)
    nlinarith [hm.lt_one]
  exact toC_inj (sub_eq_zero.mp (norm_eq_zero.mp this))

theorem loop_error (hm : c.Mild R L) {s : ℝ × ℝ} {δ : ℝ} (hδ : c.minDelta2 ≤ δ ^ 2) (δ0 : 0 ≤ δ) (n : ℕ) :
    ∀ (p : ℝ × ℝ), len s + ‖toC p - toC s‖ ≤ R →
      ‖toC (c.undistLoop (c.distort s) n p) - toC s‖ ≤ max (L ^ n * ‖toC p - toC s‖) (L / (1 - L) * δ) := by
  induction n with
  | zero => intro p _; simp [Calib.undistLoop]
  | succ n ih =>
    intro p hp
    have e0 := norm_nonneg (toC p - toC s)
    have hpR : len p ≤ R := by
      rw [len_eq] at hp ⊢
      have := norm_add_le (toC p - toC s) (toC s)
      rw [sub_add_cancel] at this
      linarith
    have hsR : len s ≤ R := by linarith
    have k := step_contract hm hpR hsR
    have l1 : 0 < 1 - L := by linarith [hm.lt_one]
    unfold Calib.undistLoop
    simp only
    split_ifs with g
    · refine le_max_of_le_right ?_
      set q := c.undistStep (c.distort s) p
      have hq : ‖toC p - toC q‖ ≤ δ := by
        rw [← toC_sub, ← len_eq]
        refine abs_le_of_sq_le_sq' ?_ δ0 |>.2
        rw [len_sq]
        simp only [Prod.fst_sub, Prod.snd_sub]
        nlinarith
      have tri : ‖toC p - toC s‖ ≤ ‖toC p - toC q‖ + ‖toC q - toC s‖ := norm_sub_le_norm_sub_add_norm_sub _ _ _
      rw [div_mul_eq_mul_div, le_div_iff₀ l1]
      nlinarith [hm.nonneg, mul_le_mul_of_nonneg_left hq hm.nonneg, mul_le_mul_of_nonneg_left tri hm.nonneg]
    · have := ih (c.undistStep (c.distort s) p) (by nlinarith [hm.lt_one])
      refine this.trans (max_le_max ?_ le_rfl)
      rw [pow_succ, mul_assoc]
      exact mul_le_mul_of_nonneg_left k (pow_nonneg hm.nonneg n)

end Contraction

/-- **Pixels become directions** (C110): the direction computed for the pixel of a direction `s` differs from it by at most `L ^ 20` times the
distortion of `s`, or a fraction of a millionth of a pixel. -/
theorem imageToDirection_spec {c : Calib} {R L : ℝ} (hm : c.Mild R L) (hu : 0 < c.fu) (hv : 0 < c.fv) {s : ℝ × ℝ} (hs : len s + len (c.distort s - s) ≤ R) :
    ∃ d, c.imageToDirection (c.pixelOf s).1 (c.pixelOf s).2 = some d ∧
      len (d - s) ≤ max (L ^ 20 * len (c.distort s - s)) (L / (1 - L) * (1e-6 / √(c.fu ^ 2 + c.fv ^ 2))) := by
  have f0 : 0 < c.fu ^ 2 + c.fv ^ 2 := by positivity
  have t : (((c.pixelOf s).1 - c.cu) / c.fu, ((c.pixelOf s).2 - c.cv) / c.fv) = c.distort s := by
    unfold Calib.pixelOf
    ext
    · simp only; field_simp; ring
    · simp only; field_simp; ring
  refine ⟨c.undistLoop (c.distort s) 20 (c.distort s), ?_, ?_⟩
  · unfold Calib.imageToDirection Calib.iterateUndistortion
    rw [t, if_pos ⟨hu, hv⟩]
    rfl
  · rw [len_eq, toC_sub, len_eq, toC_sub]
    rw [len_eq (c.distort s - s), toC_sub] at hs
    refine loop_error hm (δ := 1e-6 / √(c.fu ^ 2 + c.fv ^ 2)) ?_ (by positivity) 20 (c.distort s) hs
    unfold Calib.minDelta2
    rw [div_pow, Real.sq_sqrt f0.le, ← pow_two, ← pow_two]
    norm_num

theorem distort_lipschitz {c : Calib} {R L : ℝ} (hm : c.Mild R L) {p q : ℝ × ℝ} (hp : len p ≤ R) (hq : len q ≤ R) :
    ‖toC (c.distort p) - toC (c.distort q)‖ ≤ 2 * ‖toC p - toC q‖ := by
  rw [distort_toC, distort_toC]
  have e : toC p * (c.radial p : ℝ) + toC (c.tangential p) - (toC q * (c.radial q : ℝ) + toC (c.tangential q)) =
      (toC p - toC q) * (c.radial p : ℝ) + toC q * ((c.radial p - c.radial q : ℝ) : ℂ) + (toC (c.tangential p) - toC (c.tangential q)) := by
    push_cast
    ring
  rw [e]
  obtain ⟨m1, m2⟩ := radial_ge hm hp
  have m0 : 0 ≤ c.radial p := (lt_of_lt_of_le (by linarith [hm.radial]) m1).le
  have r1 := radial_diff (c := c) hm.radius hp hq
  have r2 := tangential_diff (c := c) hm.radius hp hq
  have qR : ‖toC q‖ ≤ R := by rw [← len_eq]; exact hq
  have n := norm_nonneg (toC p - toC q)
  have h1 : ‖(toC p - toC q) * (c.radial p : ℝ)‖ ≤ (1 + (|c.k1| * R ^ 2 + |c.k2| * R ^ 4 + |c.k5| * R ^ 6)) * ‖toC p - toC q‖ := by
    rw [norm_mul, Complex.norm_real, Real.norm_eq_abs, abs_of_nonneg m0, mul_comm]
    exact mul_le_mul_of_nonneg_right m2 n
  have h2 : ‖toC q * ((c.radial p - c.radial q : ℝ) : ℂ)‖ ≤ (2 * (|c.k1| * R ^ 2) + 4 * (|c.k2| * R ^ 4) + 6 * (|c.k5| * R ^ 6)) * ‖toC p - toC q‖ := by
    rw [norm_mul, Complex.norm_real, Real.norm_eq_abs, mul_comm]
    exact (mul_le_mul_of_nonneg_left qR (abs_nonneg _)).trans r1
  have h3 := norm_add₃_le (a := (toC p - toC q) * (c.radial p : ℝ)) (b := toC q * ((c.radial p - c.radial q : ℝ) : ℂ))
    (c := toC (c.tangential p) - toC (c.tangential q))
  have b := hm.bound
  have a0 : 0 ≤ 1 - (|c.k1| * R ^ 2 + |c.k2| * R ^ 4 + |c.k5| * R ^ 6) := by linarith [hm.radial]
  have b2 : L * (1 - (|c.k1| * R ^ 2 + |c.k2| * R ^ 4 + |c.k5| * R ^ 6)) ≤ 1 - (|c.k1| * R ^ 2 + |c.k2| * R ^ 4 + |c.k5| * R ^ 6) := by nlinarith [hm.lt_one]
  nlinarith

/-- **From pixels to directions and back** (C110): within a millionth of a pixel, for a lens whose distortion is mild with the constant 1/4 and
focal lengths up to 100000 pixels. -/
theorem pixel_roundtrip {c : Calib} {R : ℝ} (hm : c.Mild R (1 / 4)) (hR : R ≤ 1) (hu : 0 < c.fu) (hv : 0 < c.fv) (fu : c.fu ≤ 100000) (fv : c.fv ≤ 100000)
    {s : ℝ × ℝ} (hs : len s + len (c.distort s - s) ≤ R) :
    ∃ d, c.imageToDirection (c.pixelOf s).1 (c.pixelOf s).2 = some d ∧
      |(c.pixelOf d).1 - (c.pixelOf s).1| ≤ 1e-6 ∧ |(c.pixelOf d).2 - (c.pixelOf s).2| ≤ 1e-6 := by
  obtain ⟨d, h1, h2⟩ := imageToDirection_spec hm hu hv hs
  refine ⟨d, h1, ?_⟩
  have f0 : 0 < c.fu ^ 2 + c.fv ^ 2 := by positivity
  set F := √(c.fu ^ 2 + c.fv ^ 2) with hF
  have F0 : 0 < F := Real.sqrt_pos.mpr f0
  have uF : c.fu ≤ F := Real.le_sqrt_of_sq_le (by nlinarith)
  have vF : c.fv ≤ F := Real.le_sqrt_of_sq_le (by nlinarith)
  have l0 := len_nonneg (c.distort s - s)
  have ls := len_nonneg s
  have dsmall : len (d - s) ≤ len (c.distort s - s) ∨ len (d - s) ≤ 1 / 3 * (1e-6 / F) := by
    rcases le_max_iff.mp h2 with g | g
    · left
      refine g.trans ?_
      have : ((1 : ℝ) / 4) ^ 20 ≤ 1 := by norm_num
      nlinarith
    · right
      norm_num at g ⊢
      linarith
  -- the computed direction stays in the disc
  have dR : len d ≤ R := by
    have h0 := step_contract hm (p := c.distort s) (s := s) (by
      rw [len_eq] at hs ⊢
      rw [len_eq, toC_sub] at hs
      have := norm_add_le (toC (c.distort s) - toC s) (toC s)
      rw [sub_add_cancel] at this
      linarith) (by linarith)
    have hd : d = c.undistLoop (c.distort s) 20 (c.distort s) := by
      have t : (((c.pixelOf s).1 - c.cu) / c.fu, ((c.pixelOf s).2 - c.cv) / c.fv) = c.distort s := by
        unfold Calib.pixelOf
        ext
        · simp only; field_simp; ring
        · simp only; field_simp; ring
      unfold Calib.imageToDirection Calib.iterateUndistortion at h1
      rw [t, if_pos ⟨hu, hv⟩] at h1
      exact (Option.some.inj h1).symm
    have stay : ∀ (n : ℕ) (p : ℝ × ℝ), len s + ‖toC p - toC s‖ ≤ R → len s + ‖toC (c.undistLoop (c.distort s) n p) - toC s‖ ≤ R := by
      intro n
      induction n with
      | zero => intro p hp; exact hp
      | succ n ih =>
        intro p hp
        have hpR : len p ≤ R := by
          rw [len_eq] at hp ⊢
          have := norm_add_le (toC p - toC s) (toC s)
          rw [sub_add_cancel] at this
          linarith
        have k := step_contract hm hpR (s := s) (by linarith [norm_nonneg (toC p - toC s)])
        have : len s + ‖toC (c.undistStep (c.distort s) p) - toC s‖ ≤ R := by linarith [norm_nonneg (toC p - toC s)]
        unfold Calib.undistLoop
        simp only
        split_ifs with g
        · exact this
        · exact ih _ this
    have := stay 20 (c.distort s) (by rw [← toC_sub, ← len_eq]; exact hs)
    rw [← hd] at this
    rw [len_eq] at this ⊢
    have t := norm_add_le (toC d - toC s) (toC s)
    rw [sub_add_cancel] at t
    linarith
  have lip := distort_lipschitz hm dR (show len s ≤ R by linarith)
  rw [← toC_sub d, ← len_eq] at lip
  have err : F * len (d - s) ≤ 1 / 2 * 1e-6 := by
    rcases le_max_iff.mp h2 with g | g
    · have Fb : F ≤ 200000 := by
        rw [hF]
        refine Real.sqrt_le_iff.mpr ⟨by norm_num, by nlinarith⟩
      have : len (d - s) ≤ (1 / 4) ^ 20 := by
        refine g.trans ?_
        have : len (c.distort s - s) ≤ 1 := by linarith
        nlinarith [show (0 : ℝ) ≤ (1 / 4) ^ 20 by positivity]
      calc F * len (d - s) ≤ 200000 * (1 / 4) ^ 20 := mul_le_mul Fb this (len_nonneg _) (by norm_num)
        _ ≤ _ := by norm_num
    · have : F * len (d - s) ≤ F * (1 / 3 * (1e-6 / F)) := by
        refine mul_le_mul_of_nonneg_left ?_ F0.le
        norm_num at g ⊢
        linarith
      have e : F * (1 / 3 * (1e-6 / F)) = 1 / 3 * 1e-6 := by field_simp
      rw [e] at this
      norm_num at this ⊢
      linarith
  have comp : |(c.distort d).1 - (c.distort s).1| ≤ 2 * len (d - s) ∧ |(c.distort d).2 - (c.distort s).2| ≤ 2 * len (d - s) := by
    constructor
    · have := Complex.abs_re_le_norm (toC (c.distort d) - toC (c.distort s))
      exact this.trans lip
    · have := Complex.abs_im_le_norm (toC (c.distort d) - toC (c.distort s))
      exact this.trans lip
  have ld := len_nonneg (d - s)
  constructor
  · unfold Calib.pixelOf
    simp only
    rw [show c.fu * (c.distort d).1 + c.cu - (c.fu * (c.distort s).1 + c.cu) = c.fu * ((c.distort d).1 - (c.distort s).1) by ring, abs_mul, abs_of_pos hu]
    calc _ ≤ F * (2 * len (d - s)) := mul_le_mul uF comp.1 (abs_nonneg _) F0.le
      _ ≤ _ := by linarith
  · unfold Calib.pixelOf
    simp only
    rw [show c.fv * (c.distort d).2 + c.cv - (c.fv * (c.distort s).2 + c.cv) = c.fv * ((c.distort d).2 - (c.distort s).2) by ring, abs_mul, abs_of_pos hv]
    calc _ ≤ F * (2 * len (d - s)) := mul_le_mul vF comp.2 (abs_nonneg _) F0.le
      _ ≤ _ := by linarith

/-- **Without distortion the direction is exact** (C110). -/
theorem imageToDirection_pinhole {c : Calib} (hu : 0 < c.fu) (hv : 0 < c.fv) (h : c.k1 = 0 ∧ c.k2 = 0 ∧ c.k3 = 0 ∧ c.k4 = 0 ∧ c.k5 = 0) (u v : ℝ) :
    c.imageToDirection u v = some ((u - c.cu) / c.fu, (v - c.cv) / c.fv) ∧
    ∀ p, c.directionToImage p = (true, (c.fu * p.1 + c.cu, c.fv * p.2 + c.cv)) := by
  obtain ⟨h1, h2, h3, h4, h5⟩ := h
  constructor
  · unfold Calib.imageToDirection Calib.iterateUndistortion
    rw [if_pos ⟨hu, hv⟩]
    congr 1
    have step : ∀ t p, c.undistStep t p = t := by
      intro t p
      unfold Calib.undistStep Calib.radial Calib.tangential
      rw [h1, h2, h3, h4, h5]
      ext <;> simp
    have : ∀ n t p, p = t → c.undistLoop t n p = t := by
      intro n
      induction n with
      | zero => intro t p h; exact h
      | succ n ih =>
        intro t p h
        unfold Calib.undistLoop
        simp only [step]
        split_ifs
        · rfl
        · exact ih _ _ rfl
    exact this _ _ _ rfl
  · intro p
    unfold Calib.directionToImage Calib.radial Calib.kMinRadialDistortion Calib.kMaxRadialDistortion
    rw [h1, h2, h3, h4, h5]
    norm_num
    constructor <;> ring

/-- The front camera of camera_model_test.cc:47-77, with a pose and a direction given. -/
noncomputable def frontCamera (ext : Iso) (dir : Dir) : Calib :=
  ⟨2055.55614936, 2055.55614936, 939.657469886, 641.072182194, 0.032316008498, -0.321412482553, 0.000793258395371, -0.000625749354133, 0, ext, 1920, 1280, dir⟩

/-- The distortion of a real camera is mild up to a radius of 0.6, more than the image needs. -/
theorem frontCamera_mild (ext : Iso) (dir : Dir) : (frontCamera ext dir).Mild 0.6 (1 / 4) := by
  have a1 : |(0.032316008498 : ℝ)| = 0.032316008498 := abs_of_pos (by norm_num)
  have a2 : |(-0.321412482553 : ℝ)| = 0.321412482553 := by rw [abs_neg]; exact abs_of_pos (by norm_num)
  have a3 : |(0.000793258395371 : ℝ)| = 0.000793258395371 := abs_of_pos (by norm_num)
  have a4 : |(-0.000625749354133 : ℝ)| = 0.000625749354133 := by rw [abs_neg]; exact abs_of_pos (by norm_num)
  refine ⟨by norm_num, by norm_num, by norm_num, ?_, ?_⟩ <;>
  · simp only [frontCamera, a1, a2, a3, a4, abs_zero]
    norm_num

/-- A direction in view: its pixel is found again. -/
theorem lens_example (ext : Iso) (dir : Dir) : len (0, 0) + len ((frontCamera ext dir).distort (0, 0) - (0, 0)) ≤ 0.6 ∧
    len (0.3, 0) + len ((frontCamera ext dir).distort (0.3, 0) - (0.3, 0)) ≤ 0.6 := by
  have l0 : len (0, 0) = 0 := by simp [len]
  have l3 : len ((0.3 : ℝ), (0 : ℝ)) = 0.3 := by
    simp only [len]
    rw [show (0.3 : ℝ) ^ 2 + 0 ^ 2 = 0.3 ^ 2 by norm_num]
    exact Real.sqrt_sq (by norm_num)
  have tri : ∀ p : ℝ × ℝ, len p ≤ |p.1| + |p.2| := by
    intro p
    rw [len_eq]
    exact Complex.norm_le_abs_re_add_abs_im _
  constructor
  · have : (frontCamera ext dir).distort (0, 0) - (0, 0) = (0, 0) := by
      unfold Calib.distort openCV
      rw [l0]
      simp
      rfl
    rw [this, l0]
    norm_num
  · have h := tri ((frontCamera ext dir).distort (0.3, 0) - (0.3, 0))
    unfold Calib.distort openCV at h ⊢
    rw [l3] at h ⊢
    simp only [frontCamera, Prod.fst_sub, Prod.snd_sub] at h ⊢
    refine (add_le_add_right h _).trans ?_
    norm_num [abs_of_pos, abs_of_neg]

end Verif.Camera
