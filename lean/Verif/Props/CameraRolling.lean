import Verif.Props.CameraTime
import Mathlib.Analysis.Calculus.Deriv.Inv

/-!
C113: cameras with a rolling shutter: the projection of points that move.
-/

namespace Verif.Camera

open Matrix

/-! ## Specification -/

/-- The coordinate of the direction along which the image is read. -/
def axis (r : Rolling) : Fin 3 := if r.horizontal then 1 else 2

/-- The change of the position in the frame of a camera that does not turn. -/
def drift (r : Rolling) (v : Vec) : Vec := r.dcm *ᵥ (v - r.vel)

/-- Around the time `T` the point stays in front of the camera at a depth of at least `X`, within the slope `C`, and neither the depth nor
the offset changes much while the image is read. -/
structure Gentle (r : Rolling) (p v : Vec) (T X C B0 B1 L : ℝ) : Prop where
  X0 : 0 < X
  C0 : 0 ≤ C
  L0 : 0 ≤ L
  L1 : L ≤ 1
  front : ∀ t, |t - T| ≤ |T| → X ≤ r.camPos p v t 0
  slope : ∀ t, |t - T| ≤ |T| → |r.spacing p v t| ≤ C
  depthRate : |drift r v 0| ≤ B0
  offsetRate : |drift r v (axis r)| ≤ B1
  small : |r.factor| * (B1 + C * B0) ≤ X / 2
  contract : 4 * |r.factor| * C * B0 ≤ L * X

/-! ## Basics -/

theorem spacing_eq (r : Rolling) (p v : Vec) (t : ℝ) : r.spacing p v t = -(r.camPos p v t (axis r)) / r.camPos p v t 0 := by
  unfold Rolling.spacing axis Rolling.coord
  by_cases h : r.horizontal
  · rw [if_pos h, if_pos h]
  · rw [if_neg h, if_neg h]

theorem jacobian_eq (r : Rolling) (p v : Vec) (t : ℝ) : r.jacobian p v t =
    1 - r.factor / r.camPos p v t 0 * (r.spacing p v t * r.landmark p v t 0 - r.landmark p v t (axis r)) := by
  unfold Rolling.jacobian Rolling.spacing axis
  by_cases h : r.horizontal
  · rw [if_pos h, if_pos h, if_pos h]
  · rw [if_neg h, if_neg h, if_neg h]

/-- Without turning, the position in the frame of the camera changes evenly. -/
theorem camPos_linear {r : Rolling} (hz : r.skewOmegaDcm = 0) (p v : Vec) (t : ℝ) :
    r.camPos p v t = r.dcm *ᵥ (p - r.tfm.trans) + t • drift r v := by
  unfold Rolling.camPos Rolling.dcmAt Rolling.posAt drift
  rw [hz, smul_zero, add_zero, ← mulVec_smul, ← mulVec_add]
  congr 1
  rw [smul_sub]
  abel

theorem landmark_linear {r : Rolling} (hs : r.skewOmega = 0) (hz : r.skewOmegaDcm = 0) (p v : Vec) (t : ℝ) : r.landmark p v t = drift r v := by
  unfold Rolling.landmark Rolling.dcmAt drift
  rw [hs, hz, smul_zero, add_zero, zero_mulVec, sub_zero]

theorem prepare_no_turn {c : Calib} {i : Image} {r : Rolling} (h : c.prepareRolling i = some r) (ho : i.omega = 0) :
    r.skewOmega = 0 ∧ r.skewOmegaDcm = 0 ∧ r.vel = i.vel := by
  obtain ⟨tp, range, -, -, -, -, -, -, -, h8, h9, -, h11, -⟩ := prepareRolling_some h
  have s0 : skew (0 : Vec) = 0 := by
    ext k l
    fin_cases k <;> fin_cases l <;> simp [skew]
  refine ⟨?_, ?_, ?_⟩
  · rw [h9, ho, mulVec_zero, s0]
  · rw [h11, ho, mulVec_zero, s0, neg_zero, Matrix.zero_mul]
  · rw [h8, ho, mulVec_zero, s0, zero_mulVec, add_zero]

/-! ## The results -/

/-- **Valid projections** (C113): a point reported as visible is in front of the camera at a time of the reading, and the pixel and the depth are those
of that time; the distortion is moderate and the pixel is in the image if asked for. -/
theorem rolling_ok {c : Calib} {r : Rolling} {check : Bool} {p v : Vec} (h : (c.worldToImageRolling r check p v).ok = true) :
    ∃ t, 0 < r.camPos p v t 0 ∧ (c.worldToImageRolling r check p v).depth = some (r.camPos p v t 0) ∧
      (c.worldToImageRolling r check p v).pixel = some (c.pixelOf (directionOf (r.camPos p v t))) ∧
      (0.8 ≤ c.factorOf (directionOf (r.camPos p v t)) ∧ c.factorOf (directionOf (r.camPos p v t)) ≤ 1.2) ∧
      (check = true → c.inImage (c.pixelOf (directionOf (r.camPos p v t))) = true) := by
  revert h
  unfold Calib.worldToImageRolling
  cases r.newton p v Rolling.kMaxIterNum 0 (2 * Rolling.kThreshold) with
  | none => intro h; exact absurd h (by simp [Proj.behind])
  | some x =>
    obtain ⟨t, res⟩ := x
    simp only
    split
    · intro h; exact absurd h (by simp)
    · split
      · intro h; exact absurd h (by simp [Proj.behind])
      · rename_i h1
        intro h
        have e : r.coord p v t = directionOf (r.camPos p v t) := rfl
        rw [e] at h ⊢
        obtain ⟨f1, f2, f3⟩ := finish_spec c check (directionOf (r.camPos p v t)) (r.camPos p v t 0)
        obtain ⟨g1, g2⟩ := f2.mp h
        exact ⟨t, not_le.mp h1, f1, f3 g1, g1, g2⟩

/-! ## Cameras and points at rest -/

/-- **A point at rest for a camera that does not turn** (C113): the rolling shutter has no effect. -/
theorem rolling_at_rest {c : Calib} {i : Image} {r : Rolling} (h : c.prepareRolling i = some r) (ho : i.omega = 0) (check : Bool) (p : Vec) :
    c.worldToImageRolling r check p i.vel = c.cameraToImage check ((i.pose.mul c.ext).inverse.apply p) := by
  obtain ⟨hs, hz, hv⟩ := prepare_no_turn h ho
  obtain ⟨tp, range, -, -, -, -, -, -, h7, -, -, h10, -, -⟩ := prepareRolling_some h
  have dr : drift r i.vel = 0 := by
    unfold drift
    rw [hv, sub_self, mulVec_zero]
  have cp : ∀ t, r.camPos p i.vel t = (i.pose.mul c.ext).inverse.apply p := by
    intro t
    rw [camPos_linear hz, dr, smul_zero, add_zero, h10, h7]
    unfold Iso.inverse Iso.apply
    simp only
    rw [mulVec_sub]
    abel
  have jac : ∀ t, r.jacobian p i.vel t = 1 := by
    intro t
    rw [jacobian_eq, landmark_linear hs hz, dr]
    simp
  have sp : ∀ t, r.spacing p i.vel t = r.spacing p i.vel 0 := by
    intro t
    rw [spacing_eq, spacing_eq, cp t, cp 0]
  have res : ∀ t, r.residual p i.vel t = t - r.spacing p i.vel 0 * r.factor + r.poseOffset := by
    intro t
    unfold Rolling.residual
    rw [sp t]
  have co : ∀ t, r.coord p i.vel t = r.coord p i.vel 0 := by
    intro t
    unfold Rolling.coord
    rw [cp t, cp 0]
  set q := (i.pose.mul c.ext).inverse.apply p with hq
  set t₁ := r.spacing p i.vel 0 * r.factor - r.poseOffset with ht₁
  have step : ∀ t, t - r.residual p i.vel t / r.jacobian p i.vel t = t₁ := by
    intro t
    rw [jac, res, ht₁]
    ring
  have thr : Rolling.kThreshold < |2 * Rolling.kThreshold| := by
    unfold Rolling.kThreshold
    rw [abs_of_pos (by norm_num)]
    norm_num
  unfold Calib.worldToImageRolling Calib.cameraToImage Rolling.kMaxIterNum
  rw [Rolling.newton, if_pos thr, cp 0]
  by_cases q0 : q 0 ≤ 0
  · rw [if_pos q0, if_pos q0]
  · rw [if_neg q0, if_neg q0, step]
    have fin : c.finish check (r.coord p i.vel t₁) (r.camPos p i.vel t₁ 0) = c.finish check (-(q 1) / q 0, -(q 2) / q 0) (q 0) := by
      rw [cp, co]
      unfold Rolling.coord
      rw [cp]
    rw [Rolling.newton]
    by_cases g : Rolling.kThreshold < |r.residual p i.vel 0|
    · have r1 : r.residual p i.vel t₁ = 0 := by rw [res, ht₁]; ring
      rw [if_pos g, cp t₁, if_neg q0, step, r1, Rolling.newton, if_neg (by rw [abs_zero]; unfold Rolling.kThreshold; norm_num)]
      simp only
      rw [if_neg (by rw [abs_zero]; unfold Rolling.kMaxFinalResidualError; norm_num), fin, cp t₁, if_neg q0]
    · rw [if_neg g]
      simp only
      rw [if_neg (by unfold Rolling.kMaxFinalResidualError; unfold Rolling.kThreshold at g; push Not at g ⊢; linarith), fin, cp t₁, if_neg q0]

/-! ## The equation -/

/-- **The equation solved** (C113): without distortion, the residual is the time minus the time of the pixel at which the point appears. -/
theorem residual_pinhole {c : Calib} {i : Image} {r : Rolling} (h : c.prepareRolling i = some r) (hu : 0 < c.fu) (hv : 0 < c.fv)
    (hw : 0 < c.width) (hh : 0 < c.height) (hk : c.k1 = 0 ∧ c.k2 = 0 ∧ c.k3 = 0 ∧ c.k4 = 0 ∧ c.k5 = 0) (p v : Vec) (t : ℝ) :
    ∃ time, pixelTime c.dir i.shutter i.trigger i.done c.width c.height (c.directionToImage (directionOf (r.camPos p v t))).2.1
        (c.directionToImage (directionOf (r.camPos p v t))).2.2 = some time ∧
      r.residual p v t = i.poseTime + t - time := by
  refine ⟨_, pixelOffset_spec h hw hh _ _, ?_⟩
  obtain ⟨tp, range, h1, h2, h3, h4, h5, h6, -, -, -, -, -, h12⟩ := prepareRolling_some h
  have w0 : (c.width : ℝ) ≠ 0 := by exact_mod_cast hw.ne'
  have h0 : (c.height : ℝ) ≠ 0 := by exact_mod_cast hh.ne'
  have hd : ∀ a b, c.imageToDirection a b = some ((a - c.cu) / c.fu, (b - c.cv) / c.fv) := fun a b => (imageToDirection_pinhole hu hv hk a b).1
  have hi := (imageToDirection_pinhole hu hv hk 0 0).2
  rw [hi]
  unfold Calib.coordRange at h2
  rw [hd, hd, hd, hd] at h2
  unfold Rolling.residual Model.pixelOffset Rolling.spacing
  rw [h4, h5, h6, h12]
  simp only
  by_cases hz : c.horizontal = true
  · rw [if_pos hz] at h2
    have e := Option.some.inj h2
    simp only at e
    have e' : range = c.width / c.fu := by rw [← e]; field_simp; ring
    unfold Calib.pixelRange
    rw [if_pos hz, if_pos hz, if_pos hz, e']
    have ec : (directionOf (r.camPos p v t)).1 = (r.coord p v t).1 := rfl
    rw [ec]
    split <;> field_simp <;> ring
  · rw [if_neg hz] at h2
    have e := Option.some.inj h2
    simp only at e
    have e' : range = c.height / c.fv := by rw [← e]; field_simp; ring
    unfold Calib.pixelRange
    rw [if_neg hz, if_neg hz, if_neg hz, e']
    have ec : (directionOf (r.camPos p v t)).2 = (r.coord p v t).2 := rfl
    rw [ec]
    split <;> field_simp <;> ring

/-- **Derivatives** (C113): the derivative of the residual for a camera that does not turn, and by how much the one used differs. -/
theorem jacobian_partial {r : Rolling} (hs : r.skewOmega = 0) (hz : r.skewOmegaDcm = 0) (p v : Vec) (t : ℝ) (h0 : r.camPos p v t 0 ≠ 0) :
    HasDerivAt (fun s => r.residual p v s) (r.jacobian p v t + 2 * (r.factor / r.camPos p v t 0) * r.spacing p v t * drift r v 0) t := by
  have lin : ∀ k, HasDerivAt (fun s => r.camPos p v s k) (drift r v k) t := by
    intro k
    have e : (fun s => r.camPos p v s k) = fun s => (r.dcm *ᵥ (p - r.tfm.trans)) k + s * drift r v k := by
      funext s
      rw [camPos_linear hz]
      rfl
    rw [e]
    simpa using ((hasDerivAt_id t).mul_const (drift r v k)).const_add ((r.dcm *ᵥ (p - r.tfm.trans)) k)
  have sp : HasDerivAt (fun s => r.spacing p v s)
      ((-(drift r v (axis r)) * r.camPos p v t 0 - -(r.camPos p v t (axis r)) * drift r v 0) / r.camPos p v t 0 ^ 2) t := by
    have e : (fun s => r.spacing p v s) = fun s => -(r.camPos p v s (axis r)) / r.camPos p v s 0 := by
      funext s
      exact spacing_eq r p v s
    rw [e]
    exact (lin (axis r)).neg.div (lin 0) h0
  have d := ((hasDerivAt_id t).sub (sp.mul_const r.factor)).add_const r.poseOffset
  refine d.congr_deriv ?_
  rw [jacobian_eq, landmark_linear hs hz, spacing_eq]
  field_simp
  ring

/-! ## Convergence -/

theorem gentle_step {r : Rolling} (hs : r.skewOmega = 0) (hz : r.skewOmegaDcm = 0) {p v : Vec} {T X C B0 B1 L : ℝ}
    (hg : Gentle r p v T X C B0 B1 L) (hT : r.residual p v T = 0) {t : ℝ} (ht : |t - T| ≤ |T|) :
    |t - r.residual p v t / r.jacobian p v t - T| ≤ L * |t - T| ∧ |t - T| ≤ 2 * |r.residual p v t| ∧ |r.residual p v t| ≤ 3 / 2 * |t - T| := by
  have TT : |T - T| ≤ |T| := by rw [sub_self, abs_zero]; exact abs_nonneg _
  have xt := hg.front t ht
  have xT := hg.front T TT
  have ct := hg.slope t ht
  have cT := hg.slope T TT
  have X0 := hg.X0
  have xt0 : 0 < r.camPos p v t 0 := X0.trans_le xt
  have xT0 : 0 < r.camPos p v T 0 := X0.trans_le xT
  set b0 := drift r v 0 with hb0
  set b1 := drift r v (axis r) with hb1
  set F := r.factor
  have ek : ∀ k, r.camPos p v t k = r.camPos p v T k + (t - T) * drift r v k := by
    intro k
    rw [camPos_linear hz p v t, camPos_linear hz p v T]
    simp only [Pi.add_apply, Pi.smul_apply, smul_eq_mul]
    ring
  have e0 := ek 0
  have e1 := ek (axis r)
  have st := spacing_eq r p v t
  have sT := spacing_eq r p v T
  have j := jacobian_eq r p v t
  rw [landmark_linear hs hz] at j
  set x := r.camPos p v t 0
  set y := r.camPos p v t (axis r)
  set x' := r.camPos p v T 0
  set y' := r.camPos p v T (axis r)
  set c := r.spacing p v t
  set c' := r.spacing p v T
  have g : r.residual p v t = (t - T) * (1 + F * (b1 + c' * b0) / x) := by
    have h1 : r.residual p v t = (t - T) - F * (c - c') := by
      have : r.residual p v t - r.residual p v T = (t - T) - F * (c - c') := by
        unfold Rolling.residual
        ring
      rw [← this, hT, sub_zero]
    have h2 : c - c' = -(t - T) * (b1 + c' * b0) / x := by
      have y1 : y' = -c' * x' := by rw [sT]; field_simp
      have y2 : y = -c * x := by rw [st]; field_simp
      rw [eq_div_iff xt0.ne']
      rw [y1, y2, ← hb1] at e1
      rw [← hb0] at e0
      linear_combination (-1 : ℝ) * e1 - c' * e0
    rw [h1, h2]
    ring
  have B00 : 0 ≤ B0 := (abs_nonneg _).trans hg.depthRate
  have B10 : 0 ≤ B1 := (abs_nonneg _).trans hg.offsetRate
  have small : ∀ s : ℝ, |s| ≤ C → |F * (b1 + s * b0) / x| ≤ 1 / 2 := by
    intro s hs'
    rw [abs_div, abs_mul, abs_of_pos xt0, div_le_iff₀ xt0]
    have : |b1 + s * b0| ≤ B1 + C * B0 := by
      refine (abs_add_le _ _).trans ?_
      rw [abs_mul]
      exact add_le_add hg.offsetRate (mul_le_mul hs' hg.depthRate (abs_nonneg _) hg.C0)
    have := mul_le_mul_of_nonneg_left this (abs_nonneg F)
    linarith [hg.small]
  have sT' := abs_le.mp (small c' cT)
  have sj := abs_le.mp (small (-c) (by rw [abs_neg]; exact ct))
  have je : r.jacobian p v t = 1 + F * (b1 + -c * b0) / x := by
    rw [j]
    ring
  have jpos : 1 / 2 ≤ r.jacobian p v t := by rw [je]; linarith [sj.1]
  have jp : 0 < r.jacobian p v t := by linarith
  refine ⟨?_, ?_, ?_⟩
  · have e : t - r.residual p v t / r.jacobian p v t - T = (t - T) * (-(F * b0 * (c + c')) / (x * r.jacobian p v t)) := by
      have : x * r.jacobian p v t = x + F * (b1 - c * b0) := by
        rw [je]
        field_simp
        ring
      rw [g]
      field_simp
      linear_combination (t - T) * this
    rw [e, abs_mul, mul_comm]
    refine mul_le_mul_of_nonneg_right ?_ (abs_nonneg _)
    rw [abs_div, abs_neg, abs_mul, abs_mul, abs_of_pos (show 0 < x * r.jacobian p v t from mul_pos xt0 jp), div_le_iff₀ (mul_pos xt0 jp)]
    have a1 : |c + c'| ≤ 2 * C := by
      refine (abs_add_le _ _).trans ?_
      linarith
    have a2 : |F| * |b0| * |c + c'| ≤ |F| * B0 * (2 * C) :=
      mul_le_mul (mul_le_mul_of_nonneg_left hg.depthRate (abs_nonneg _)) a1 (abs_nonneg _) (mul_nonneg (abs_nonneg _) B00)
    have a3 : X * (1 / 2) ≤ x * r.jacobian p v t := mul_le_mul xt jpos (by norm_num) xt0.le
    have a4 : L * (X * (1 / 2)) ≤ L * (x * r.jacobian p v t) := mul_le_mul_of_nonneg_left a3 hg.L0
    linarith [hg.contract]
  · rw [g, abs_mul, abs_of_nonneg (show 0 ≤ 1 + F * (b1 + c' * b0) / x by linarith [sT'.1])]
    have := mul_le_mul_of_nonneg_left (show 1 / 2 ≤ 1 + F * (b1 + c' * b0) / x by linarith [sT'.1]) (abs_nonneg (t - T))
    linarith
  · rw [g, abs_mul, abs_of_nonneg (show 0 ≤ 1 + F * (b1 + c' * b0) / x by linarith [sT'.1])]
    have := mul_le_mul_of_nonneg_left (show 1 + F * (b1 + c' * b0) / x ≤ 3 / 2 by linarith [sT'.2]) (abs_nonneg (t - T))
    linarith

theorem newton_gentle {r : Rolling} (hs : r.skewOmega = 0) (hz : r.skewOmegaDcm = 0) {p v : Vec} {T X C B0 B1 L : ℝ}
    (hg : Gentle r p v T X C B0 B1 L) (hT : r.residual p v T = 0) (hb : |T| ≤ 1 / 15) (n : ℕ) : ∀ (t res e : ℝ), |t - T| ≤ e → e ≤ |T| →
      (|res| ≤ Rolling.kThreshold → |t - T| ≤ 2 * L * Rolling.kThreshold) → |res| ≤ 0.1 →
      ∃ t' res', r.newton p v n t res = some (t', res') ∧ |t' - T| ≤ max (L ^ n * e) (2 * L * Rolling.kThreshold) ∧ |t' - T| ≤ |T| ∧
        |res'| ≤ 0.1 := by
  induction n with
  | zero =>
    intro t res e h1 h2 _ h4
    exact ⟨t, res, rfl, by rw [pow_zero, one_mul]; exact h1.trans (le_max_left _ _), h1.trans h2, h4⟩
  | succ n ih =>
    intro t res e h1 h2 h3 h4
    rw [Rolling.newton]
    by_cases g : Rolling.kThreshold < |res|
    · rw [if_pos g]
      have ht := h1.trans h2
      obtain ⟨a1, a2, a3⟩ := gentle_step hs hz hg hT ht
      rw [if_neg (not_le.mpr (hg.X0.trans_le (hg.front t ht)))]
      have e0 : 0 ≤ e := (abs_nonneg _).trans h1
      have le1 : L * e ≤ e := by
        have := mul_le_mul_of_nonneg_right hg.L1 e0
        linarith
      obtain ⟨t', res', b1, b2, b3, b4⟩ := ih _ (r.residual p v t) (L * e)
        (a1.trans (mul_le_mul_of_nonneg_left h1 hg.L0)) (le1.trans h2)
        (fun hr => a1.trans (by
          have : |t - T| ≤ 2 * Rolling.kThreshold := by linarith
          have := mul_le_mul_of_nonneg_left this hg.L0
          linarith))
        (by linarith)
      refine ⟨t', res', b1, ?_, b3, b4⟩
      rw [pow_succ, mul_assoc]
      exact b2
    · rw [if_neg g]
      exact ⟨t, res, rfl, (h3 (not_lt.mp g)).trans (le_max_right _ _), h1.trans h2, h4⟩

/-- **The projection finds the time at which the point is seen** (C113): for a camera that does not turn and gentle motion, the result is that of a time
as near to the exact one as four steps of the iteration or the threshold allow.  Missing: cameras that turn. -/
theorem rolling_converges_partial {c : Calib} {i : Image} {r : Rolling} (h : c.prepareRolling i = some r) (ho : i.omega = 0) {p v : Vec}
    {T X C B0 B1 L : ℝ} (hg : Gentle r p v T X C B0 B1 L) (hT : r.residual p v T = 0) (hb : |T| ≤ 1 / 15) (check : Bool) :
    ∃ t, |t - T| ≤ max (L ^ 4 * |T|) (2 * L * 1e-5) ∧ 0 < r.camPos p v t 0 ∧
      c.worldToImageRolling r check p v = c.finish check (directionOf (r.camPos p v t)) (r.camPos p v t 0) := by
  obtain ⟨hs, hz, -⟩ := prepare_no_turn h ho
  have k1 : Rolling.kThreshold = 1e-5 := rfl
  have k2 : |2 * Rolling.kThreshold| = 2e-5 := by rw [k1, abs_of_pos (by norm_num)]; norm_num
  obtain ⟨t, res, h1, h2, h3, h4⟩ := newton_gentle hs hz hg hT hb 4 0 (2 * Rolling.kThreshold) |T| (by rw [zero_sub, abs_neg]) le_rfl
    (fun hr => by rw [k2, k1] at hr; norm_num at hr) (by rw [k2]; norm_num)
  have x0 : 0 < r.camPos p v t 0 := hg.X0.trans_le (hg.front t h3)
  refine ⟨t, by rw [k1] at h2; exact h2, x0, ?_⟩
  unfold Calib.worldToImageRolling Rolling.kMaxIterNum
  rw [h1]
  simp only
  rw [if_neg (show ¬ Rolling.kMaxFinalResidualError < |res| from not_lt.mpr h4), if_neg (not_le.mpr x0)]
  rfl

/-- **That time is the only one** (C113). -/
theorem seen_unique {r : Rolling} (hs : r.skewOmega = 0) (hz : r.skewOmegaDcm = 0) {p v : Vec} {T X C B0 B1 L : ℝ}
    (hg : Gentle r p v T X C B0 B1 L) (hT : r.residual p v T = 0) {t : ℝ} (ht : |t - T| ≤ |T|) (h : r.residual p v t = 0) : t = T := by
  have := (gentle_step hs hz hg hT ht).2.1
  rw [h, abs_zero, mul_zero] at this
  exact sub_eq_zero.mp (abs_eq_zero.mp (le_antisymm this (abs_nonneg _)))

/-! ## From pixels to the world -/

/-- **Pixels with depths become points seen at their time** (C113): without turning, the point of a pixel with a depth is, at the time of the pixel,
at that depth in the direction of the pixel; without distortion it solves the equation of the projection. -/
theorem rolling_imageToWorld {m m' : Model} {i : Image} (hd : m.calib.dir ≠ .globalShutter) (h : m.prepare i = some m') (hp : i.pose.Rigid)
    (he : m.calib.ext.Rigid) (ho : i.omega = 0) {u v depth : ℝ} {d : ℝ × ℝ} (hdir : m.calib.imageToDirection u v = some d) :
    ∃ r p, m.calib.prepareRolling i = some r ∧ m'.imageToWorld u v depth = some p ∧
      (∀ check w, m'.worldToImageMoving check p w = some (m.calib.worldToImageRolling r check p w)) ∧
      r.camPos p 0 (Model.pixelOffset r u v) = ![depth, -d.1 * depth, -d.2 * depth] ∧
      (0 < depth → 0 < m.calib.width → 0 < m.calib.height →
        m.calib.k1 = 0 ∧ m.calib.k2 = 0 ∧ m.calib.k3 = 0 ∧ m.calib.k4 = 0 ∧ m.calib.k5 = 0 → 0 < m.calib.fu → 0 < m.calib.fv →
        r.residual p 0 (Model.pixelOffset r u v) = 0) := by
  obtain ⟨a1, a2, -, -⟩ := prepare_rolling (i := i) hd
  rw [h] at a1
  have cal := a2 m' h
  have hr : ∃ r, m'.rolling = some r ∧ m.calib.prepareRolling i = some r := by
    rw [← a1]
    cases hm : m'.rolling with
    | some r => exact ⟨r, rfl, by rw [Option.bind_some, hm]⟩
    | none =>
      exfalso
      unfold Model.prepare at h
      rw [if_neg hd] at h
      cases hr : m.calib.prepareRolling i with
      | none => rw [hr] at h; exact absurd h (by simp)
      | some r =>
        rw [hr] at h
        have := Option.some.inj h
        rw [← this] at hm
        exact absurd hm (by simp)
  obtain ⟨r, hr1, hr2⟩ := hr
  obtain ⟨hs, hz, hv⟩ := prepare_no_turn hr2 ho
  obtain ⟨tp, range, -, -, -, -, -, -, h7, -, -, h10, -, -⟩ := prepareRolling_some hr2
  set t := Model.pixelOffset r u v with ht
  have pos : r.camPos ((r.dcmAt t)ᵀ *ᵥ ![depth, -d.1 * depth, -d.2 * depth] + r.posAt t) 0 t = ![depth, -d.1 * depth, -d.2 * depth] := by
    unfold Rolling.camPos Rolling.dcmAt
    rw [hz, smul_zero, smul_zero, add_zero, add_zero, add_sub_cancel_right, mulVec_mulVec, h10, transpose_transpose, (hp.mul he), one_mulVec]
  refine ⟨r, (r.dcmAt t)ᵀ *ᵥ ![depth, -d.1 * depth, -d.2 * depth] + r.posAt t, hr2, ?_, ?_, pos, ?_⟩
  · unfold Model.imageToWorld
    rw [cal, if_neg hd, hr1, hdir]
    rfl
  · intro check w
    unfold Model.worldToImageMoving
    rw [cal, if_neg hd, hr1]
    rfl
  · intro h0 hw hh hk hu hv
    obtain ⟨time, b1, b2⟩ := residual_pinhole hr2 hu hv hw hh hk ((r.dcmAt t)ᵀ *ᵥ ![depth, -d.1 * depth, -d.2 * depth] + r.posAt t) 0 t
    obtain ⟨c1, c2⟩ := imageToDirection_pinhole hu hv hk u v
    rw [hdir] at c1
    have c1 := Option.some.inj c1
    have dd : directionOf (r.camPos ((r.dcmAt t)ᵀ *ᵥ ![depth, -d.1 * depth, -d.2 * depth] + r.posAt t) 0 t) = d := by
      rw [pos]
      unfold directionOf
      simp only [cons_val_zero, cons_val_one, cons_val]
      ext
      · simp only; field_simp
      · simp only; field_simp
    rw [dd, c2, c1] at b1
    have e1 : m.calib.fu * ((u - m.calib.cu) / m.calib.fu) + m.calib.cu = u := by field_simp; ring
    have e2 : m.calib.fv * ((v - m.calib.cv) / m.calib.fv) + m.calib.cv = v := by field_simp; ring
    simp only [e1, e2] at b1
    rw [pixelOffset_spec hr2 hw hh] at b1
    have := Option.some.inj b1
    rw [b2, ← this, ht]
    ring

end Verif.Camera
