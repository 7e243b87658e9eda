import Verif.Props.CameraRolling

/-!
C113: cameras with a rolling shutter: change of the frame of the world, and points that are lost.
-/

namespace Verif.Camera

open Matrix

/-! ## The frame of the world -/

/-- **The image does not depend on the frame of the world** (C113): the pose, the velocity, the point and its velocity move together; the angular
velocity stays, since it is in the frame of the vehicle. -/
theorem rolling_invariant {c : Calib} {i : Image} {r₁ r₂ : Rolling} {g : Iso} (hg : g.Proper) (h₁ : c.prepareRolling i = some r₁)
    (h₂ : c.prepareRolling { i with pose := g.mul i.pose, vel := g.rot *ᵥ i.vel } = some r₂) (check : Bool) (p v : Vec) :
    c.worldToImageRolling r₂ check (g.apply p) (g.rot *ᵥ v) = c.worldToImageRolling r₁ check p v := by
  obtain ⟨tp, range, a1, a2, a3, a4, -, -, a7, a8, a9, a10, a11, a12⟩ := prepareRolling_some h₁
  obtain ⟨tp', range', b1, b2, b3, b4, -, -, b7, b8, b9, b10, b11, b12⟩ := prepareRolling_some h₂
  simp only at b1 b2 b3 b4 b7 b8 b9 b10 b11 b12
  rw [a1] at b1
  rw [a2] at b2
  have e1 := Option.some.inj b1
  have e2 := Option.some.inj b2
  subst e1 e2
  obtain ⟨g1, g2⟩ := hg
  have gl := g1.left
  have vel : r₂.vel = g.rot *ᵥ r₁.vel := by
    rw [b8, a8]
    unfold Iso.mul
    simp only
    rw [← mulVec_mulVec, skew_turn g1 g2, mulVec_add]
    congr 1
    rw [mulVec_mulVec]
    rw [show (g.rot * skew (i.pose.rot *ᵥ i.omega) * g.rotᵀ) * (g.rot * i.pose.rot) =
      g.rot * skew (i.pose.rot *ᵥ i.omega) * (g.rotᵀ * g.rot) * i.pose.rot by simp only [Matrix.mul_assoc], show g.rotᵀ * g.rot = 1 from g1,
      Matrix.mul_one, ← mulVec_mulVec, ← mulVec_mulVec]
  have dcm : ∀ t, r₂.dcmAt t = r₁.dcmAt t * g.rotᵀ := by
    intro t
    unfold Rolling.dcmAt
    rw [b10, b11, a10, a11]
    unfold Iso.mul
    simp only [transpose_mul, Matrix.add_mul, Matrix.smul_mul, Matrix.mul_assoc]
  have pos : ∀ t, r₂.posAt t = g.apply (r₁.posAt t) := by
    intro t
    unfold Rolling.posAt
    rw [b7, a7, vel]
    unfold Iso.mul Iso.apply
    simp only
    rw [mulVec_add, mulVec_add, mulVec_smul, mulVec_mulVec]
    abel
  have cam : ∀ t, r₂.camPos (g.apply p) (g.rot *ᵥ v) t = r₁.camPos p v t := by
    intro t
    unfold Rolling.camPos
    rw [dcm, pos]
    have : g.apply p + t • g.rot *ᵥ v - g.apply (r₁.posAt t) = g.rot *ᵥ (p + t • v - r₁.posAt t) := by
      unfold Iso.apply
      rw [mulVec_sub, mulVec_add, mulVec_smul]
      abel
    rw [this, ← mulVec_mulVec, mulVec_mulVec _ g.rotᵀ, show g.rotᵀ * g.rot = 1 from g1, one_mulVec]
  have coord : ∀ t, r₂.coord (g.apply p) (g.rot *ᵥ v) t = r₁.coord p v t := by
    intro t
    unfold Rolling.coord
    rw [cam]
  have hor : r₂.horizontal = r₁.horizontal := by rw [b12, a12]
  have fac : r₂.factor = r₁.factor := by rw [b4, a4]
  have sp : ∀ t, r₂.spacing (g.apply p) (g.rot *ᵥ v) t = r₁.spacing p v t := by
    intro t
    unfold Rolling.spacing
    rw [coord, hor]
  have res : ∀ t, r₂.residual (g.apply p) (g.rot *ᵥ v) t = r₁.residual p v t := by
    intro t
    unfold Rolling.residual
    rw [sp, fac, b3, a3]
  have lm : ∀ t, r₂.landmark (g.apply p) (g.rot *ᵥ v) t = r₁.landmark p v t := by
    intro t
    unfold Rolling.landmark
    rw [cam, dcm, b9, a9, vel, ← mulVec_sub, ← mulVec_mulVec, mulVec_mulVec _ g.rotᵀ, show g.rotᵀ * g.rot = 1 from g1, one_mulVec]
  have jac : ∀ t, r₂.jacobian (g.apply p) (g.rot *ᵥ v) t = r₁.jacobian p v t := by
    intro t
    unfold Rolling.jacobian
    rw [coord, lm, cam, hor, fac]
  have nw : ∀ n t s, r₂.newton (g.apply p) (g.rot *ᵥ v) n t s = r₁.newton p v n t s := by
    intro n
    induction n with
    | zero => intro t s; rfl
    | succ n ih =>
      intro t s
      rw [Rolling.newton, Rolling.newton, cam, res, jac, ih]
  unfold Calib.worldToImageRolling
  rw [nw]
  cases r₁.newton p v Rolling.kMaxIterNum 0 (2 * Rolling.kThreshold) with
  | none => rfl
  | some x =>
    obtain ⟨t, s⟩ := x
    simp only
    rw [cam, coord]

/-! ## Points that are lost -/

/-- A camera without distortion at the vehicle, read from left to right. -/
def plainCamera : Calib := ⟨1000, 1000, 500, 500, 0, 0, 0, 0, 0, ⟨1, 0⟩, 1000, 1000, .leftToRight⟩

/-- An image read in 50 ms while the camera moves backwards. -/
noncomputable def plainImage (speed poseTime : ℝ) : Image := ⟨⟨1, 0⟩, ![-speed, 0, 0], 0, poseTime, 0, 0, 1 / 20⟩

theorem plain_prepared (speed poseTime : ℝ) : ∃ r, plainCamera.prepareRolling (plainImage speed poseTime) = some r ∧
    r.poseOffset = poseTime - 1 / 40 ∧ r.factor = 1 / 20 ∧ r.factorPixel = 1 / 20000 ∧ r.principal = (500, 500) ∧ r.horizontal = true ∧
    r.skewOmega = 0 ∧ r.skewOmegaDcm = 0 ∧ ∀ p t, r.camPos p 0 t = ![p 0 + speed * t, p 1, p 2] := by
  have hk : plainCamera.k1 = 0 ∧ plainCamera.k2 = 0 ∧ plainCamera.k3 = 0 ∧ plainCamera.k4 = 0 ∧ plainCamera.k5 = 0 := ⟨rfl, rfl, rfl, rfl, rfl⟩
  have hd : ∀ a b, plainCamera.imageToDirection a b = some ((a - 500) / 1000, (b - 500) / 1000) :=
    fun a b => (imageToDirection_pinhole (by norm_num [plainCamera]) (by norm_num [plainCamera]) hk a b).1
  have hr : ∃ r, plainCamera.prepareRolling (plainImage speed poseTime) = some r := by
    unfold Calib.prepareRolling Calib.coordRange
    rw [hd, hd, hd, hd]
    exact ⟨_, rfl⟩
  obtain ⟨r, hr⟩ := hr
  obtain ⟨hs, hz, hv⟩ := prepare_no_turn hr rfl
  obtain ⟨tp, range, h1, h2, h3, h4, h5, h6, h7, -, -, h10, -, h12⟩ := prepareRolling_some hr
  have tpe : tp = 1 / 40 := by
    have := Option.some.inj h1
    rw [← this]
    simp only [plainImage, plainCamera]
    norm_num
  have re : range = 1 := by
    unfold Calib.coordRange at h2
    rw [hd, hd, hd, hd, if_pos (by decide)] at h2
    have := Option.some.inj h2
    rw [← this]
    simp only [plainCamera]
    norm_num
  have rv : plainCamera.reversed = false := by decide
  have hz' : plainCamera.horizontal = true := by decide
  refine ⟨r, hr, ?_, ?_, ?_, h6, by rw [h12, hz'], hs, hz, ?_⟩
  · rw [h3, tpe]
    rfl
  · rw [h4, re, rv]
    simp [plainImage]
  · rw [h5, rv]
    unfold Calib.pixelRange
    rw [hz']
    simp [plainImage, plainCamera]
    norm_num
  · intro p t
    rw [camPos_linear hz]
    unfold drift
    rw [hv, h10, h7]
    unfold Iso.mul
    simp only [plainImage, plainCamera, Matrix.mul_one, transpose_one, one_mulVec, mulVec_zero, add_zero, sub_zero, zero_sub]
    ext k
    fin_cases k <;> simp [mul_comm]

/-- **The derivative used is not that of the residual** (C113): the change of the depth enters with the wrong sign. -/
theorem jacobian_violated : ∃ (c : Calib) (i : Image) (r : Rolling) (p : Vec) (d : ℝ), c.prepareRolling i = some r ∧ 0 < r.camPos p 0 0 0 ∧
    HasDerivAt (fun s => r.residual p 0 s) d 0 ∧ 0 < d ∧ r.jacobian p 0 0 < 0 := by
  obtain ⟨r, h1, h2, h3, -, -, h6, h7, h8, h9⟩ := plain_prepared 30 0
  set p : Vec := ![1, -3 / 4, 0] with hp
  have c0 : ∀ t, r.camPos p 0 t = ![1 + 30 * t, -3 / 4, 0] := by
    intro t
    rw [h9, hp]
    simp
  have ax : axis r = 1 := by unfold axis; rw [h6]; rfl
  have sp : r.spacing p 0 0 = 3 / 4 := by
    rw [spacing_eq, ax, c0]
    simp
    norm_num
  have dr : ∀ k, drift r 0 k = ![30, 0, 0] k := by
    intro k
    have e := congrFun (camPos_linear h8 p 0 1) k
    have e' := congrFun (camPos_linear h8 p 0 0) k
    rw [c0] at e e'
    simp only [Pi.add_apply, Pi.smul_apply, smul_eq_mul, one_mul, zero_mul, add_zero] at e e'
    fin_cases k <;> simp at e e' ⊢ <;> linarith
  have j : r.jacobian p 0 0 = -1 / 8 := by
    rw [jacobian_eq, landmark_linear h7 h8, ax, sp, c0, h3, dr, dr]
    simp
    norm_num
  have d := jacobian_partial h7 h8 p 0 0 (by rw [c0]; simp)
  refine ⟨_, _, r, p, _, h1, by rw [c0]; simp, d, ?_, by rw [j]; norm_num⟩
  rw [j, sp, c0, h3, dr]
  simp
  norm_num

/-- **A point in view is lost** (C113): the pixel (2500/3, 500) with the depth 9/4 is, at its time, the point (1, -3/4, 0), which is therefore seen
by the camera; its projection is reported as behind the camera. -/
theorem lost_point_violated : ∃ (m m' : Model) (i : Image) (u v depth : ℝ) (p : Vec), m.prepare i = some m' ∧ 0 < depth ∧
    m.calib.inImage (u, v) = true ∧ m'.imageToWorld u v depth = some p ∧ m'.worldToImage false p = some ⟨false, some (-1, -1), some (-1)⟩ := by
  obtain ⟨r, h1, h2, h3, h4, h5, h6, h7, h8, h9⟩ := plain_prepared 30 0
  set m : Model := Model.new plainCamera with hm
  set g : Global := ⟨(plainImage 30 0).pose.mul plainCamera.ext, ((plainImage 30 0).pose.mul plainCamera.ext).inverse, plainCamera.ext⟩
  have hprep : m.prepare (plainImage 30 0) = some ⟨plainCamera, some r, some g⟩ := by
    unfold Model.prepare
    rw [if_neg (by simp [hm, Model.new, plainCamera])]
    change (do let r ← plainCamera.prepareRolling (plainImage 30 0); _) = _
    rw [h1]
    rfl
  have hk : plainCamera.k1 = 0 ∧ plainCamera.k2 = 0 ∧ plainCamera.k3 = 0 ∧ plainCamera.k4 = 0 ∧ plainCamera.k5 = 0 := ⟨rfl, rfl, rfl, rfl, rfl⟩
  have hd := (imageToDirection_pinhole (c := plainCamera) (by norm_num [plainCamera]) (by norm_num [plainCamera]) hk (2500 / 3) 500).1
  obtain ⟨tp, range, -, -, -, -, -, -, t7, t8, -, t10, -, -⟩ := prepareRolling_some h1
  have off : Model.pixelOffset r (2500 / 3) 500 = 1 / 24 := by
    unfold Model.pixelOffset
    rw [h4, h5, h6, h2]
    norm_num
  have vel := (prepare_no_turn h1 rfl).2.2
  set p : Vec := ![1, -3 / 4, 0] with hp
  refine ⟨m, _, plainImage 30 0, 2500 / 3, 500, 9 / 4, p, hprep, by norm_num, ?_, ?_, ?_⟩
  · unfold Calib.inImage
    simp only [hm, Model.new, plainCamera]
    norm_num
  · unfold Model.imageToWorld
    rw [if_neg (by simp [plainCamera])]
    simp only
    rw [hd]
    simp only [Option.bind_eq_bind, Option.bind_some, Option.pure_def]
    congr 1
    rw [off]
    unfold Rolling.dcmAt Rolling.posAt
    rw [h8, t10, t7, vel]
    unfold Iso.mul
    simp only [plainImage, plainCamera, Matrix.mul_one, transpose_one, smul_zero, add_zero, one_mulVec, mulVec_zero, zero_add]
    rw [hp]
    ext k
    fin_cases k <;> simp <;> norm_num
  · unfold Model.worldToImage Model.worldToImageMoving
    rw [if_neg (by simp [plainCamera])]
    simp only [Option.map_some]
    congr 1
    have c0 : ∀ t, r.camPos p 0 t = ![1 + 30 * t, -3 / 4, 0] := by
      intro t
      rw [h9, hp]
      simp
    have ax : axis r = 1 := by unfold axis; rw [h6]; rfl
    have sp : r.spacing p 0 0 = 3 / 4 := by
      rw [spacing_eq, ax, c0]
      simp
      norm_num
    have dr : ∀ k, drift r 0 k = ![30, 0, 0] k := by
      intro k
      have e := congrFun (camPos_linear h8 p 0 1) k
      have e' := congrFun (camPos_linear h8 p 0 0) k
      rw [c0] at e e'
      simp only [Pi.add_apply, Pi.smul_apply, smul_eq_mul, one_mul, zero_mul, add_zero] at e e'
      fin_cases k <;> simp at e e' ⊢ <;> linarith
    have j : r.jacobian p 0 0 = -1 / 8 := by
      rw [jacobian_eq, landmark_linear h7 h8, ax, sp, c0, h3, dr, dr]
      simp
      norm_num
    have rs : r.residual p 0 0 = -1 / 16 := by
      unfold Rolling.residual
      rw [sp, h3, h2]
      norm_num
    have t1 : (0 : ℝ) - r.residual p 0 0 / r.jacobian p 0 0 = -1 / 2 := by
      rw [rs, j]
      norm_num
    unfold Calib.worldToImageRolling Rolling.kMaxIterNum
    rw [Rolling.newton, if_pos (by unfold Rolling.kThreshold; rw [abs_of_pos (by norm_num)]; norm_num), if_neg (by rw [c0]; simp), t1, Rolling.newton,
      rs, if_pos (by unfold Rolling.kThreshold; rw [abs_of_neg (by norm_num)]; norm_num), if_pos (by rw [c0]; simp; norm_num)]
    rfl

/-- **Outputs that are not written** (C113): if the iteration diverges, neither the pixel nor the depth is written, although the point is in front of
the camera at the time of the pose and the documentation promises values. -/
theorem unwritten_violated : ∃ (c : Calib) (i : Image) (r : Rolling) (p : Vec), c.prepareRolling i = some r ∧ 0 < r.camPos p 0 0 0 ∧
    ∀ check, c.worldToImageRolling r check p 0 = ⟨false, none, none⟩ := by
  obtain ⟨r, h1, h2, h3, h4, h5, h6, h7, h8, h9⟩ := plain_prepared 20 (1 / 20)
  set p : Vec := ![2, 2, 0] with hp
  have c0 : ∀ t, r.camPos p 0 t = ![2 + 20 * t, 2, 0] := by
    intro t
    rw [h9, hp]
    simp
  have ax : axis r = 1 := by unfold axis; rw [h6]; rfl
  have sp : ∀ t, r.spacing p 0 t = -2 / (2 + 20 * t) := by
    intro t
    rw [spacing_eq, ax, c0]
    simp
  have dr : ∀ k, drift r 0 k = ![20, 0, 0] k := by
    intro k
    have e := congrFun (camPos_linear h8 p 0 1) k
    have e' := congrFun (camPos_linear h8 p 0 0) k
    rw [c0] at e e'
    simp only [Pi.add_apply, Pi.smul_apply, smul_eq_mul, one_mul, zero_mul, add_zero] at e e'
    fin_cases k <;> simp at e e' ⊢ <;> linarith
  have j : ∀ t, r.jacobian p 0 t = 1 - 1 / 20 / (2 + 20 * t) * (-2 / (2 + 20 * t) * 20) := by
    intro t
    rw [jacobian_eq, landmark_linear h7 h8, ax, sp, c0, h3, dr, dr]
    simp
  have rs : ∀ t, r.residual p 0 t = t - -2 / (2 + 20 * t) * (1 / 20) + 1 / 40 := by
    intro t
    unfold Rolling.residual
    rw [sp, h3, h2]
    norm_num
  have t1 : (0 : ℝ) - r.residual p 0 0 / r.jacobian p 0 0 = -1 / 20 := by
    rw [rs, j]
    norm_num
  have t2 : (-1 / 20 : ℝ) - r.residual p 0 (-1 / 20) / r.jacobian p 0 (-1 / 20) = -3 / 40 := by
    rw [rs, j]
    norm_num
  have t3 : (-3 / 40 : ℝ) - r.residual p 0 (-3 / 40) / r.jacobian p 0 (-3 / 40) = -11 / 120 := by
    rw [rs, j]
    norm_num
  have r0 : r.residual p 0 0 = 3 / 40 := by rw [rs]; norm_num
  have r1 : r.residual p 0 (-1 / 20) = 3 / 40 := by rw [rs]; norm_num
  have r2 : r.residual p 0 (-3 / 40) = 3 / 20 := by rw [rs]; norm_num
  have r3 : r.residual p 0 (-11 / 120) = 8 / 15 := by rw [rs]; norm_num
  refine ⟨_, _, r, p, h1, by rw [c0]; simp, ?_⟩
  intro check
  unfold Calib.worldToImageRolling Rolling.kMaxIterNum
  rw [Rolling.newton, if_pos (by unfold Rolling.kThreshold; rw [abs_of_pos (by norm_num)]; norm_num), if_neg (by rw [c0]; simp), t1, r0,
    Rolling.newton, if_pos (by unfold Rolling.kThreshold; rw [abs_of_pos (by norm_num)]; norm_num), if_neg (by rw [c0]; simp; norm_num), t2, r1,
    Rolling.newton, if_pos (by unfold Rolling.kThreshold; rw [abs_of_pos (by norm_num)]; norm_num), if_neg (by rw [c0]; simp; norm_num), t3, r2,
    Rolling.newton, if_pos (by unfold Rolling.kThreshold; rw [abs_of_pos (by norm_num)]; norm_num), if_neg (by rw [c0]; simp; norm_num), r3,
    Rolling.newton]
  simp only
  rw [if_pos (by unfold Rolling.kMaxFinalResidualError; rw [abs_of_pos (by norm_num)]; norm_num)]

/-- **Turning cameras**: the matrix of the camera at a time is not a rotation, so its transpose does not undo it; by how much it fails. -/
theorem dcm_transpose {c : Calib} {i : Image} {r : Rolling} (h : c.prepareRolling i = some r) (hp : i.pose.Rigid) (he : c.ext.Rigid) (t : ℝ) :
    r.dcmAt t * (r.dcmAt t)ᵀ = 1 - t ^ 2 • (r.skewOmega * r.skewOmega) := by
  obtain ⟨tp, range, -, -, -, -, -, -, -, -, h9, h10, h11, -⟩ := prepareRolling_some h
  have o : (i.pose.mul c.ext).rotᵀ * (i.pose.mul c.ext).rot = 1 := hp.mul he
  unfold Rolling.dcmAt
  rw [h10, h11, h9]
  set D := (i.pose.mul c.ext).rot
  set S := skew (c.ext.rotᵀ *ᵥ i.omega) with hS
  have st : Sᵀ = -S := skew_transpose _
  rw [transpose_add, transpose_smul, transpose_mul, transpose_transpose, transpose_neg, st, neg_neg]
  rw [Matrix.add_mul, Matrix.mul_add, Matrix.mul_add, o, Matrix.mul_smul, Matrix.smul_mul, Matrix.smul_mul, Matrix.mul_smul,
    ← Matrix.mul_assoc Dᵀ D S, o, Matrix.one_mul, Matrix.mul_assoc (-S) Dᵀ D, o, Matrix.mul_one,
    Matrix.mul_assoc (-S), ← Matrix.mul_assoc Dᵀ D S, o, Matrix.one_mul, Matrix.neg_mul, smul_neg, smul_neg, smul_neg, smul_smul, pow_two]
  abel

/-- A case of gentle motion: the camera moves forwards at 10 m/s, the point is 30 m ahead and 3 m to the right. -/
theorem gentle_example : ∃ r, plainCamera.prepareRolling (plainImage (-10) (1 / 40)) = some r ∧ ∃ T, r.residual ![30, -3, 0] 0 T = 0 ∧
    |T| ≤ 1 / 15 ∧ Gentle r ![30, -3, 0] 0 T 29 (1 / 5) 10 0 (1 / 50) := by
  obtain ⟨r, h1, h2, h3, h4, h5, h6, h7, h8, h9⟩ := plain_prepared (-10) (1 / 40)
  have c0 : ∀ t, r.camPos ![30, -3, 0] 0 t = ![30 - 10 * t, -3, 0] := by
    intro t
    rw [h9]
    simp
    ring
  have ax : axis r = 1 := by unfold axis; rw [h6]; rfl
  have sp : ∀ t, r.spacing ![30, -3, 0] 0 t = 3 / (30 - 10 * t) := by
    intro t
    rw [spacing_eq, ax, c0]
    simp
  have dr : ∀ k, drift r 0 k = ![-10, 0, 0] k := by
    intro k
    have e := congrFun (camPos_linear h8 ![30, -3, 0] 0 1) k
    have e' := congrFun (camPos_linear h8 ![30, -3, 0] 0 0) k
    rw [c0] at e e'
    simp only [Pi.add_apply, Pi.smul_apply, smul_eq_mul, one_mul, zero_mul, add_zero] at e e'
    fin_cases k <;> simp at e e' ⊢ <;> linarith
  have hs : √(30 ^ 2 - 6 : ℝ) ≤ 30 := Real.sqrt_le_iff.mpr ⟨by norm_num, by norm_num⟩
  have hs' : (29.8 : ℝ) ≤ √(30 ^ 2 - 6 : ℝ) := Real.le_sqrt_of_sq_le (by norm_num)
  have sq : √(30 ^ 2 - 6 : ℝ) ^ 2 = 30 ^ 2 - 6 := Real.sq_sqrt (by norm_num)
  set s := √(30 ^ 2 - 6 : ℝ)
  set T : ℝ := (30 - s) / 20 with hT
  have T0 : 0 ≤ T := by rw [hT]; linarith
  have T1 : T ≤ 1 / 100 := by rw [hT]; linarith
  have aT : |T| = T := abs_of_nonneg T0
  have rng : ∀ t, |t - T| ≤ |T| → 0 ≤ t ∧ t ≤ 1 / 50 := by
    intro t h
    rw [aT] at h
    have := abs_le.mp h
    constructor <;> linarith
  refine ⟨r, h1, T, ?_, by rw [aT]; linarith, ⟨by norm_num, by norm_num, by norm_num, by norm_num, ?_, ?_, ?_, ?_, ?_, ?_⟩⟩
  · unfold Rolling.residual
    rw [sp, h3, h2]
    have h0 : (30 - 10 * T : ℝ) ≠ 0 := by
      have : 0 < 30 - 10 * T := by linarith
      exact this.ne'
    have e : 3 / (30 - 10 * T) = 20 * T := by
      rw [div_eq_iff h0, hT]
      linear_combination (1 / 2) * sq
    rw [e]
    ring
  · intro t h
    obtain ⟨a, b⟩ := rng t h
    rw [c0]
    simp
    linarith
  · intro t h
    obtain ⟨a, b⟩ := rng t h
    have : (0 : ℝ) < 30 - 10 * t := by linarith
    rw [sp, abs_of_pos (div_pos (by norm_num) this), div_le_iff₀ this]
    linarith
  · rw [dr]
    simp
  · rw [dr, ax]
    simp
  · rw [h3, abs_of_pos (by norm_num)]
    norm_num
  · rw [h3, abs_of_pos (by norm_num)]
    norm_num

end Verif.Camera
