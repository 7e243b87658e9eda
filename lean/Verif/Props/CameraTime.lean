import Verif.Props.CameraGlobal
import Mathlib.Analysis.Calculus.Deriv.Add
import Mathlib.Analysis.Calculus.Deriv.Mul
import Mathlib.Analysis.Calculus.Deriv.Prod
import Mathlib.Analysis.Calculus.Deriv.Pi
import Mathlib.LinearAlgebra.Matrix.Determinant.Basic

/-!
C112: cameras with a rolling shutter: the time of a pixel and the motion of the camera.
-/

namespace Verif.Camera

open Matrix

/-! ## Specification -/

/-- The part of the image that is read before the pixel: 0 for the first line read, 1 after the last. -/
noncomputable def progress (dir : Dir) (width height : ℤ) (x y : ℝ) : Option ℝ :=
  match dir with
  | .topToBottom => some (y / height)
  | .bottomToTop => some (1 - y / height)
  | .leftToRight => some (x / width)
  | .rightToLeft => some (1 - x / width)
  | _ => none

/-- The pose moves: the translation with the velocity, the rotation with the angular velocity in the frame of the vehicle. -/
structure Moves (i : Image) (pose : ℝ → Iso) : Prop where
  start : pose 0 = i.pose
  trans : ∀ k, HasDerivAt (fun t => (pose t).trans k) (i.vel k) 0
  rot : ∀ k l, HasDerivAt (fun t => (pose t).rot k l) ((i.pose.rot * skew i.omega) k l) 0

/-- The motion as dataset.proto:321-326 describes it: the angular velocity is in the global frame. -/
structure MovesGlobal (i : Image) (pose : ℝ → Iso) : Prop where
  start : pose 0 = i.pose
  trans : ∀ k, HasDerivAt (fun t => (pose t).trans k) (i.vel k) 0
  rot : ∀ k l, HasDerivAt (fun t => (pose t).rot k l) ((skew i.omega * i.pose.rot) k l) 0

/-- A rotation: lengths and orientation are kept. -/
def Iso.Proper (a : Iso) : Prop := a.Rigid ∧ a.rot.det = 1

/-! ## Times -/

/-- **The time of a pixel** (C112): the middle of its exposure, between the middles of the exposures of the first and the last line. -/
theorem pixelTime_spec {dir : Dir} {w h : ℤ} {x y f : ℝ} (hw : 0 < w) (hh : 0 < h) (hf : progress dir w h x y = some f)
    (shutter trigger done : ℝ) :
    pixelTime dir shutter trigger done w h x y = some (trigger + shutter / 2 + f * (done - shutter - trigger)) := by
  have w0 : (w : ℝ) ≠ 0 := by exact_mod_cast hw.ne'
  have h0 : (h : ℝ) ≠ 0 := by exact_mod_cast hh.ne'
  cases dir <;> simp only [progress, Option.some.injEq, reduceCtorEq] at hf <;> subst hf <;> simp only [pixelTime, Option.some.injEq] <;>
    field_simp <;> ring

/-- **No time for other cameras** (C112): a global or an unknown shutter has no time of a pixel. -/
theorem pixelTime_none {dir : Dir} {w h : ℤ} {x y : ℝ} (hf : progress dir w h x y = none) (shutter trigger done : ℝ) :
    pixelTime dir shutter trigger done w h x y = none := by
  cases dir <;> simp_all [progress, pixelTime]

/-- **Pixels of the image have times within the exposure** (C112). -/
theorem pixelTime_range {dir : Dir} {w h : ℤ} {x y : ℝ} (hw : 0 < w) (hh : 0 < h) (hx : 0 ≤ x ∧ x ≤ w) (hy : 0 ≤ y ∧ y ≤ h)
    {shutter trigger done t : ℝ} (hr : trigger + shutter ≤ done) (ht : pixelTime dir shutter trigger done w h x y = some t) :
    trigger + shutter / 2 ≤ t ∧ t ≤ done - shutter / 2 := by
  have w0 : 0 < (w : ℝ) := by exact_mod_cast hw
  have h0 : 0 < (h : ℝ) := by exact_mod_cast hh
  cases hf : progress dir w h x y with
  | none =>
    rw [pixelTime_none hf] at ht
    exact absurd ht (by simp)
  | some f =>
    rw [pixelTime_spec hw hh hf] at ht
    have := Option.some.inj ht
    have f01 : 0 ≤ f ∧ f ≤ 1 := by
      have a1 : 0 ≤ x / w := div_nonneg hx.1 w0.le
      have a2 : x / w ≤ 1 := (div_le_one w0).mpr hx.2
      have a3 : 0 ≤ y / h := div_nonneg hy.1 h0.le
      have a4 : y / h ≤ 1 := (div_le_one h0).mpr hy.2
      cases dir <;> simp only [progress, Option.some.injEq, reduceCtorEq] at hf <;> subst hf <;> constructor <;> linarith
    have b1 : 0 ≤ f * (done - shutter - trigger) := mul_nonneg f01.1 (by linarith)
    have b2 : f * (done - shutter - trigger) ≤ 1 * (done - shutter - trigger) := mul_le_mul_of_nonneg_right f01.2 (by linarith)
    constructor <;> linarith

theorem prepareRolling_some {c : Calib} {i : Image} {r : Rolling} (h : c.prepareRolling i = some r) :
    ∃ tp range, pixelTime c.dir i.shutter i.trigger i.done c.width c.height c.cu c.cv = some tp ∧ c.coordRange = some range ∧
      r.poseOffset = i.poseTime - tp ∧
      r.factor = (if c.reversed then -(i.done - i.trigger - i.shutter) / range else (i.done - i.trigger - i.shutter) / range) ∧
      r.factorPixel = (if c.reversed then -(i.done - i.trigger - i.shutter) / c.pixelRange else (i.done - i.trigger - i.shutter) / c.pixelRange) ∧
      r.principal = (c.cu, c.cv) ∧ r.tfm = i.pose.mul c.ext ∧
      r.vel = i.vel + skew (i.pose.rot *ᵥ i.omega) *ᵥ (i.pose.rot *ᵥ c.ext.trans) ∧
      r.skewOmega = skew (c.ext.rotᵀ *ᵥ i.omega) ∧ r.dcm = (i.pose.mul c.ext).rotᵀ ∧
      r.skewOmegaDcm = -skew (c.ext.rotᵀ *ᵥ i.omega) * (i.pose.mul c.ext).rotᵀ ∧ r.horizontal = c.horizontal := by
  unfold Calib.prepareRolling at h
  cases hp : pixelTime c.dir i.shutter i.trigger i.done c.width c.height c.cu c.cv with
  | none => rw [hp] at h; exact absurd h (by simp)
  | some tp =>
    cases hr : c.coordRange with
    | none => rw [hp, hr] at h; exact absurd h (by simp)
    | some range =>
      rw [hp, hr] at h
      have := Option.some.inj h
      subst this
      exact ⟨tp, range, rfl, rfl, rfl, rfl, rfl, rfl, rfl, rfl, rfl, rfl, rfl, rfl⟩

/-- **Pixels are placed in the world at their time** (C112): for every direction of reading, the pose used for a pixel is that of its time. -/
theorem pixelOffset_spec {c : Calib} {i : Image} {r : Rolling} (h : c.prepareRolling i = some r) (hw : 0 < c.width) (hh : 0 < c.height) (u v : ℝ) :
    pixelTime c.dir i.shutter i.trigger i.done c.width c.height u v = some (i.poseTime + Model.pixelOffset r u v) := by
  obtain ⟨tp, range, h1, -, h3, -, h5, h6, -, -, -, -, -, h12⟩ := prepareRolling_some h
  have w0 : (c.width : ℝ) ≠ 0 := by exact_mod_cast hw.ne'
  have h0 : (c.height : ℝ) ≠ 0 := by exact_mod_cast hh.ne'
  unfold Model.pixelOffset
  rw [h3, h5, h6, h12]
  unfold Calib.reversed Calib.pixelRange Calib.horizontal
  cases hd : c.dir <;> rw [hd] at h1 <;> simp only [pixelTime, Option.some.injEq, reduceCtorEq] at h1 ⊢ <;> subst h1 <;>
    simp only [reduceCtorEq, or_self, or_true, true_or, decide_false, decide_true, if_true, if_false, Bool.false_eq_true] <;>
    field_simp <;> ring

/-- **Preparing needs a direction and focal lengths** (C112), and nothing of the earlier images. -/
theorem prepare_rolling {m : Model} {i : Image} (hd : m.calib.dir ≠ .globalShutter) :
    (m.prepare i).bind (fun m' => m'.rolling) = m.calib.prepareRolling i ∧
    (∀ m', m.prepare i = some m' → m'.calib = m.calib) ∧
    (m.calib.dir ≠ .unknown → 0 < m.calib.fu → 0 < m.calib.fv → ∃ m', m.prepare i = some m') ∧
    (m.calib.dir = .unknown → m.prepare i = none) := by
  unfold Model.prepare
  rw [if_neg hd]
  refine ⟨?_, ?_, ?_, ?_⟩
  · cases m.calib.prepareRolling i <;> rfl
  · intro m' h
    cases hr : m.calib.prepareRolling i with
    | none => rw [hr] at h; exact absurd h (by simp)
    | some r =>
      rw [hr] at h
      have := Option.some.inj h
      subst this
      rfl
  · intro hk hu hv
    have ex : ∀ a b, ∃ d, m.calib.imageToDirection a b = some d := by
      intro a b
      unfold Calib.imageToDirection Calib.iterateUndistortion
      rw [if_pos ⟨hu, hv⟩]
      exact ⟨_, rfl⟩
    have e2 : ∃ range, m.calib.coordRange = some range := by
      unfold Calib.coordRange
      split
      · obtain ⟨a, ha⟩ := ex 0 (0.5 * m.calib.height)
        obtain ⟨b, hb⟩ := ex m.calib.width (0.5 * m.calib.height)
        rw [ha, hb]
        exact ⟨_, rfl⟩
      · obtain ⟨a, ha⟩ := ex (0.5 * m.calib.width) 0
        obtain ⟨b, hb⟩ := ex (0.5 * m.calib.width) m.calib.height
        rw [ha, hb]
        exact ⟨_, rfl⟩
    obtain ⟨range, hr⟩ := e2
    unfold Calib.prepareRolling
    rw [hr]
    cases hc : m.calib.dir <;> simp_all [pixelTime]
  · intro hk
    unfold Calib.prepareRolling
    rw [hk]
    rfl

/-! ## Motion -/

/-- The cross product turns with the frame. -/
theorem skew_conj (G : Mat) (w : Vec) : Gᵀ * skew (G *ᵥ w) * G = G.det • skew w := by
  ext k l
  rw [det_fin_three]
  fin_cases k <;> fin_cases l <;>
    simp [Matrix.mul_apply, Fin.sum_univ_three, skew, mulVec, dotProduct] <;> ring

theorem skew_turn {G : Mat} (h : Gᵀ * G = 1) (hd : G.det = 1) (w : Vec) : skew (G *ᵥ w) = G * skew w * Gᵀ := by
  have h' : G * Gᵀ = 1 := mul_eq_one_comm.mp h
  have := skew_conj G w
  rw [hd, one_smul] at this
  rw [← this]
  calc skew (G *ᵥ w) = (G * Gᵀ) * skew (G *ᵥ w) * (G * Gᵀ) := by rw [h', Matrix.one_mul, Matrix.mul_one]
    _ = G * (Gᵀ * skew (G *ᵥ w) * G) * Gᵀ := by simp only [Matrix.mul_assoc]

theorem skew_turn' {G : Mat} (h : Gᵀ * G = 1) (hd : G.det = 1) (w : Vec) : skew (Gᵀ *ᵥ w) = Gᵀ * skew w * G := by
  have h' : G * Gᵀ = 1 := mul_eq_one_comm.mp h
  have := skew_turn (G := Gᵀ) (by rw [transpose_transpose]; exact h') (by rw [det_transpose]; exact hd) w
  rwa [transpose_transpose] at this

theorem skew_transpose (w : Vec) : (skew w)ᵀ = -skew w := by
  ext k l
  fin_cases k <;> fin_cases l <;> simp [skew]

/-- The derivative of a product of matrices with a constant one. -/
theorem hasDerivAt_mul_const {R : ℝ → Mat} {D : Mat} (h : ∀ k l, HasDerivAt (fun t => R t k l) (D k l) 0) (E : Mat) (k l : Fin 3) :
    HasDerivAt (fun t => (R t * E) k l) ((D * E) k l) 0 := by
  simp only [Matrix.mul_apply, Fin.sum_univ_three]
  exact (((h k 0).mul_const _).add ((h k 1).mul_const _)).add ((h k 2).mul_const _)

theorem hasDerivAt_mulVec {R : ℝ → Mat} {D : Mat} (h : ∀ k l, HasDerivAt (fun t => R t k l) (D k l) 0) (e : Vec) (k : Fin 3) :
    HasDerivAt (fun t => (R t *ᵥ e) k) ((D *ᵥ e) k) 0 := by
  simp only [mulVec, dotProduct, Fin.sum_univ_three]
  exact (((h k 0).mul_const _).add ((h k 1).mul_const _)).add ((h k 2).mul_const _)

/-- **The camera moves with the vehicle** (C112): the pose of the camera used at a time is the tangent of every motion of the vehicle with the
velocity of the image and the angular velocity in the frame of the vehicle, including the motion of the camera around the vehicle. -/
theorem motion_tangent_partial {c : Calib} {i : Image} {r : Rolling} (h : c.prepareRolling i = some r) (hp : i.pose.Proper) (he : c.ext.Proper)
    {pose : ℝ → Iso} (hm : Moves i pose) :
    (∀ k, r.posAt 0 k = ((pose 0).mul c.ext).trans k ∧ HasDerivAt (fun t => ((pose t).mul c.ext).trans k) (r.vel k) 0) ∧
    (∀ k l, r.dcmAt 0 k l = ((pose 0).mul c.ext).rotᵀ k l ∧ HasDerivAt (fun t => ((pose t).mul c.ext).rotᵀ k l) (r.skewOmegaDcm k l) 0) ∧
    (∀ t, r.posAt t = r.posAt 0 + t • r.vel) ∧ ∀ t, r.dcmAt t = r.dcmAt 0 + t • r.skewOmegaDcm := by
  obtain ⟨tp, range, -, -, -, -, -, -, h7, h8, h9, h10, h11, -⟩ := prepareRolling_some h
  obtain ⟨p1, p2⟩ := hp
  obtain ⟨e1, e2⟩ := he
  refine ⟨?_, ?_, ?_, ?_⟩
  · intro k
    refine ⟨?_, ?_⟩
    · unfold Rolling.posAt
      rw [h7, hm.start, zero_smul, add_zero]
    · have d := (hasDerivAt_mulVec hm.rot c.ext.trans k).add (hm.trans k)
      have e : r.vel k = ((i.pose.rot * skew i.omega) *ᵥ c.ext.trans) k + i.vel k := by
        rw [h8, skew_turn p1 p2, mulVec_mulVec, Matrix.mul_assoc, p1, Matrix.mul_one, Pi.add_apply, add_comm]
      rw [e]
      exact d
  · intro k l
    refine ⟨?_, ?_⟩
    · unfold Rolling.dcmAt
      rw [h10, hm.start, zero_smul, add_zero]
    · have d := hasDerivAt_mul_const hm.rot c.ext.rot l k
      have e : r.skewOmegaDcm k l = (i.pose.rot * skew i.omega * c.ext.rot) l k := by
        rw [h11, skew_turn' e1 e2, ← transpose_apply (i.pose.rot * skew i.omega * c.ext.rot)]
        refine congrFun (congrFun ?_ k) l
        unfold Iso.mul
        simp only [transpose_mul, skew_transpose, Matrix.mul_assoc, Matrix.neg_mul, Matrix.mul_neg]
        rw [← Matrix.mul_assoc c.ext.rot c.ext.rotᵀ, e1.left, Matrix.one_mul]
      rw [e]
      exact d
  · intro t
    unfold Rolling.posAt
    rw [zero_smul, add_zero]
  · intro t
    unfold Rolling.dcmAt
    rw [zero_smul, add_zero]

/-- **The documented frame of the angular velocity is not the one used** (C112): for a vehicle that has turned left and pitches, a motion as
dataset.proto describes it is not followed. -/
theorem omega_frame_violated : ∃ (c : Calib) (i : Image) (r : Rolling) (pose : ℝ → Iso), c.prepareRolling i = some r ∧ i.pose.Proper ∧ c.ext.Proper ∧
    MovesGlobal i pose ∧ ¬ ∀ k l, HasDerivAt (fun t => ((pose t).mul c.ext).rotᵀ k l) (r.skewOmegaDcm k l) 0 := by
  have pr : Iso.Proper ⟨!![0, -1, 0; 1, 0, 0; 0, 0, 1], 0⟩ := by
    constructor
    · unfold Iso.Rigid
      ext i j
      fin_cases i <;> fin_cases j <;> simp [Matrix.mul_apply, Fin.sum_univ_three]
    · rw [det_fin_three]
      simp
  have one : Iso.Proper ⟨1, 0⟩ := by
    constructor
    · unfold Iso.Rigid
      simp
    · simp
  set Q : Mat := !![0, -1, 0; 1, 0, 0; 0, 0, 1] with hQ
  set w : Vec := ![0, 1, 0] with hw
  set c : Calib := frontCamera ⟨1, 0⟩ .topToBottom with hc
  set i : Image := ⟨⟨Q, 0⟩, 0, w, 0, 0, 0, 0⟩ with hi
  obtain ⟨m', hm'⟩ := (prepare_rolling (m := Model.new c) (i := i) (by simp [Model.new, hc, frontCamera])).2.2.1
    (by simp [Model.new, hc, frontCamera]) (by simp [Model.new, hc, frontCamera]; norm_num) (by simp [Model.new, hc, frontCamera]; norm_num)
  have hr : ∃ r, c.prepareRolling i = some r := by
    cases hr : c.prepareRolling i with
    | some r => exact ⟨r, rfl⟩
    | none =>
      exfalso
      unfold Model.prepare at hm'
      rw [if_neg (by simp [Model.new, hc, frontCamera])] at hm'
      change (do let r ← c.prepareRolling i; _) = _ at hm'
      rw [hr] at hm'
      exact absurd hm' (by simp)
  obtain ⟨r, hr⟩ := hr
  have lin : ∀ k l, HasDerivAt (fun t : ℝ => (Q + t • (skew w * Q)) k l) ((skew w * Q) k l) 0 := by
    intro k l
    simp only [Matrix.add_apply, Matrix.smul_apply, smul_eq_mul]
    simpa using ((hasDerivAt_id (0 : ℝ)).mul_const ((skew w * Q) k l)).const_add (Q k l)
  refine ⟨c, i, r, fun t => ⟨Q + t • (skew w * Q), 0⟩, hr, pr, one, ⟨?_, ?_, lin⟩, ?_⟩
  · rw [hi]
    simp
  · intro k
    exact hasDerivAt_const _ _
  · intro H
    obtain ⟨tp, range, -, -, -, -, -, -, -, -, -, -, h11, -⟩ := prepareRolling_some hr
    have e1 := H 0 2
    have e2 := hasDerivAt_mul_const lin (1 : Mat) 2 0
    have := e1.unique (show HasDerivAt (fun t => ((Iso.mul ⟨Q + t • (skew w * Q), 0⟩ c.ext).rotᵀ) 0 2) _ 0 from e2)
    rw [h11] at this
    simp [Iso.mul, hc, frontCamera, hi, hQ, hw, skew, Matrix.mul_apply, Fin.sum_univ_three, mulVec, dotProduct] at this

/-- The proof of the tangent with a motion: a vehicle turning left at its place, camera in front. -/
theorem motion_example : Moves ⟨⟨1, 0⟩, 0, ![0, 0, 1], 0, 0, 0, 0⟩ (fun t => ⟨1 + t • skew ![0, 0, 1], 0⟩) := by
  refine ⟨by simp, ?_, ?_⟩
  · intro k
    exact hasDerivAt_const _ _
  · intro k l
    simp only [Matrix.add_apply, Matrix.smul_apply, smul_eq_mul, Matrix.one_mul]
    simpa using ((hasDerivAt_id (0 : ℝ)).mul_const (skew ![0, 0, 1] k l)).const_add ((1 : Mat) k l)

/-- Times of a real image of 1280 rows: trigger at 0, 10 ms of exposure, done after 50 ms. -/
theorem time_example : pixelTime .topToBottom 0.01 0 0.05 1920 1280 5 0 = some 0.005 ∧ pixelTime .topToBottom 0.01 0 0.05 1920 1280 5 1280 = some 0.045 ∧
    pixelTime .rightToLeft 0.01 0 0.05 1920 1280 0 7 = some 0.045 := by
  refine ⟨?_, ?_, ?_⟩ <;> simp only [pixelTime] <;> norm_num

end Verif.Camera
