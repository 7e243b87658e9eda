import Verif.Props.CameraLens
import Mathlib.LinearAlgebra.Matrix.NonsingularInverse
import Mathlib.Data.Fin.VecNotation

/-!
C111: cameras with a global shutter: points of the world and pixels with depths.
-/

namespace Verif.Camera

open Matrix

/-! ## Specification -/

/-- A transform that keeps lengths. -/
def Iso.Rigid (a : Iso) : Prop := a.rotᵀ * a.rot = 1

/-- The distance of two points. -/
noncomputable def dist3 (a b : Vec) : ℝ := √((a 0 - b 0) ^ 2 + (a 1 - b 1) ^ 2 + (a 2 - b 2) ^ 2)

/-- The point of the world with the given coordinates in the frame of the camera: x to the front, y to the left, z up. -/
def worldOf (c : Calib) (i : Image) (q : Vec) : Vec := i.pose.apply (c.ext.apply q)

/-- The direction of a point of the frame of the camera: to the right and down, per unit of depth. -/
noncomputable def directionOf (q : Vec) : ℝ × ℝ := (-(q 1) / q 0, -(q 2) / q 0)

/-! ## Rigid motions -/

theorem Iso.Rigid.left {a : Iso} (h : a.Rigid) : a.rot * a.rotᵀ = 1 := mul_eq_one_comm.mp h

theorem Iso.Rigid.mul {a b : Iso} (ha : a.Rigid) (hb : b.Rigid) : (a.mul b).Rigid := by
  unfold Iso.Rigid Iso.mul at *
  rw [transpose_mul, Matrix.mul_assoc, ← Matrix.mul_assoc a.rotᵀ, ha, Matrix.one_mul, hb]

theorem Iso.mul_apply (a b : Iso) (p : Vec) : (a.mul b).apply p = a.apply (b.apply p) := by
  unfold Iso.mul Iso.apply
  rw [mulVec_add, mulVec_mulVec, add_assoc]

theorem Iso.Rigid.inverse_apply {a : Iso} (h : a.Rigid) (p : Vec) : a.inverse.apply (a.apply p) = p := by
  unfold Iso.inverse Iso.apply
  simp only
  rw [mulVec_add, mulVec_mulVec, h, one_mulVec]
  abel

theorem Iso.Rigid.apply_inverse {a : Iso} (h : a.Rigid) (p : Vec) : a.apply (a.inverse.apply p) = p := by
  unfold Iso.inverse Iso.apply
  simp only
  rw [mulVec_add, mulVec_neg, mulVec_mulVec, mulVec_mulVec, h.left, one_mulVec, one_mulVec]
  abel

theorem dist3_eq (a b : Vec) : dist3 a b = √((a - b) ⬝ᵥ (a - b)) := by
  unfold dist3 dotProduct
  simp only [Fin.sum_univ_three, Pi.sub_apply, pow_two]

/-- **Rigid transforms keep distances** (C111). -/
theorem rigid_dist {a : Iso} (h : a.Rigid) (p q : Vec) : dist3 (a.apply p) (a.apply q) = dist3 p q := by
  rw [dist3_eq, dist3_eq]
  congr 1
  have e : a.apply p - a.apply q = a.rot *ᵥ (p - q) := by
    unfold Iso.apply
    rw [mulVec_sub]
    abel
  rw [e, dotProduct_mulVec, vecMul_mulVec, ← dotProduct_mulVec]
  have h' : a.rot.transpose * a.rot = 1 := h
  rw [h', one_mulVec]

/-- **Every point of the world is in front of, beside or behind the camera at one place** (C111). -/
theorem worldOf_bijective {c : Calib} {i : Image} (hp : i.pose.Rigid) (he : c.ext.Rigid) (p : Vec) : ∃! q, worldOf c i q = p := by
  refine ⟨c.ext.inverse.apply (i.pose.inverse.apply p), ?_, ?_⟩
  · simp only [worldOf]
    rw [he.apply_inverse, hp.apply_inverse]
  · intro q h
    simp only [worldOf] at h
    rw [← h, hp.inverse_apply, he.inverse_apply]

/-! ## Projection -/

theorem prepare_global {m m' : Model} {i : Image} (hd : m.calib.dir = .globalShutter) (h : m.prepare i = some m') :
    m'.calib = m.calib ∧ m'.global = some ⟨i.pose.mul m.calib.ext, (i.pose.mul m.calib.ext).inverse, m.calib.ext⟩ := by
  unfold Model.prepare at h
  rw [if_pos hd] at h
  have := Option.some.inj h
  rw [← this]
  exact ⟨rfl, rfl⟩

/-- **Preparing a projection always succeeds for a global shutter, and earlier images do not matter** (C111). -/
theorem prepare_global_total (m : Model) (i : Image) (hd : m.calib.dir = .globalShutter) : ∃ m', m.prepare i = some m' := by
  unfold Model.prepare
  rw [if_pos hd]
  exact ⟨_, rfl⟩

theorem finish_spec (c : Calib) (check : Bool) (d : ℝ × ℝ) (x : ℝ) : (c.finish check d x).depth = some x ∧
    ((c.finish check d x).ok = true ↔ (0.8 ≤ c.factorOf d ∧ c.factorOf d ≤ 1.2) ∧ (check = true → c.inImage (c.pixelOf d) = true)) ∧
    (0.8 ≤ c.factorOf d ∧ c.factorOf d ≤ 1.2 → (c.finish check d x).pixel = some (c.pixelOf d)) := by
  obtain ⟨h1, h2⟩ := directionToImage_spec c d
  unfold Calib.finish
  refine ⟨rfl, ?_, ?_⟩
  · simp only
    by_cases g : (c.directionToImage d).1 = true
    · rw [if_pos g, ← h1, h2 g]
      cases check <;> simp [g]
    · rw [if_neg g, ← h1]
      simp [g]
  · intro g
    simp only
    rw [h2 (h1.mpr g)]

/-- **Points of the world become pixels** (C111): with a global shutter, a point in front of the camera is projected to the pixel of its direction
with its depth, and is valid exactly if the distortion is moderate and, if asked for, the pixel is in the image; a point behind is not. -/
theorem worldToImage_global {m m' : Model} {i : Image} (hd : m.calib.dir = .globalShutter) (hp : i.pose.Rigid) (he : m.calib.ext.Rigid)
    (h : m.prepare i = some m') (check : Bool) (q v : Vec) :
    ∃ r, m'.worldToImageMoving check (worldOf m.calib i q) v = some r ∧
      (q 0 ≤ 0 → r = ⟨false, some (-1, -1), some (-1)⟩) ∧
      (0 < q 0 → r.depth = some (q 0) ∧
        (r.ok = true ↔ (0.8 ≤ m.calib.factorOf (directionOf q) ∧ m.calib.factorOf (directionOf q) ≤ 1.2) ∧
          (check = true → m.calib.inImage (m.calib.pixelOf (directionOf q)) = true)) ∧
        (0.8 ≤ m.calib.factorOf (directionOf q) ∧ m.calib.factorOf (directionOf q) ≤ 1.2 → r.pixel = some (m.calib.pixelOf (directionOf q)))) := by
  obtain ⟨h1, h2⟩ := prepare_global hd h
  have e : (i.pose.mul m.calib.ext).inverse.apply (worldOf m.calib i q) = q := by
    unfold worldOf
    rw [← Iso.mul_apply i.pose, (hp.mul he).inverse_apply]
  refine ⟨m.calib.cameraToImage check q, ?_, ?_, ?_⟩
  · unfold Model.worldToImageMoving
    rw [h1, if_pos hd, h2]
    simp only [Option.map_some]
    rw [e]
  · intro g
    unfold Calib.cameraToImage
    rw [if_pos g]
    rfl
  · intro g
    unfold Calib.cameraToImage
    rw [if_neg (not_le.mpr g)]
    exact finish_spec _ _ _ _

/-- **Pixels with depths become points of the world** (C111), through the vehicle. -/
theorem imageToWorld_global {m m' : Model} {i : Image} (hd : m.calib.dir = .globalShutter) (h : m.prepare i = some m') (u v depth : ℝ) :
    m'.imageToWorld u v depth = (m.calib.imageToDirection u v).map (fun d => worldOf m.calib i ![depth, -d.1 * depth, -d.2 * depth]) ∧
    m'.imageToWorld u v depth = (m'.imageToVehicle u v depth).map i.pose.apply := by
  obtain ⟨h1, h2⟩ := prepare_global hd h
  have a : m'.imageToWorld u v depth = (m.calib.imageToDirection u v).map (fun d => worldOf m.calib i ![depth, -d.1 * depth, -d.2 * depth]) := by
    unfold Model.imageToWorld Model.imageToWorldGlobal
    rw [h1, if_pos hd, h2]
    cases m.calib.imageToDirection u v with
    | none => rfl
    | some d =>
      simp only [Option.map_some, worldOf, ← Iso.mul_apply]
      rfl
  refine ⟨a, ?_⟩
  rw [a]
  unfold Model.imageToVehicle
  rw [h1, h2]
  cases m.calib.imageToDirection u v <;> rfl

/-- **From a point to its pixel and back** (C111): the point comes back up to its depth times the error of the direction (C110). -/
theorem world_roundtrip {m m' : Model} {i : Image} (hd : m.calib.dir = .globalShutter) (hp : i.pose.Rigid) (he : m.calib.ext.Rigid)
    (h : m.prepare i = some m') {R L : ℝ} (hm : m.calib.Mild R L) (hu : 0 < m.calib.fu) (hv : 0 < m.calib.fv) (check : Bool) (q v : Vec) {r : Proj}
    (hr : m'.worldToImageMoving check (worldOf m.calib i q) v = some r) (hok : r.ok = true)
    (hs : len (directionOf q) + len (m.calib.distort (directionOf q) - directionOf q) ≤ R) :
    ∃ pix depth p, r.pixel = some pix ∧ r.depth = some depth ∧ m'.imageToWorld pix.1 pix.2 depth = some p ∧
      dist3 p (worldOf m.calib i q) ≤
        depth * max (L ^ 20 * len (m.calib.distort (directionOf q) - directionOf q)) (L / (1 - L) * (1e-6 / √(m.calib.fu ^ 2 + m.calib.fv ^ 2))) := by
  obtain ⟨r', hr', b, f⟩ := worldToImage_global hd hp he h check q v
  rw [hr] at hr'
  have := Option.some.inj hr'
  subst this
  have q0 : 0 < q 0 := by
    by_contra g
    rw [b (not_lt.mp g)] at hok
    exact absurd hok (by simp)
  obtain ⟨f1, f2, f3⟩ := f q0
  obtain ⟨g1, -⟩ := f2.mp hok
  obtain ⟨d, d1, d2⟩ := imageToDirection_spec hm hu hv hs
  refine ⟨m.calib.pixelOf (directionOf q), q 0, worldOf m.calib i ![q 0, -d.1 * q 0, -d.2 * q 0], f3 g1, f1, ?_, ?_⟩
  · rw [(imageToWorld_global hd h _ _ _).1, d1]
    rfl
  · unfold worldOf
    rw [rigid_dist hp, rigid_dist he]
    have e : dist3 ![q 0, -d.1 * q 0, -d.2 * q 0] q = q 0 * len (d - directionOf q) := by
      unfold dist3 len
      rw [← Real.sqrt_sq q0.le, ← Real.sqrt_mul (by positivity)]
      congr 1
      rw [Real.sqrt_sq q0.le]
      simp only [directionOf, Prod.fst_sub, Prod.snd_sub, cons_val_zero, cons_val_one, cons_val]
      field_simp
      ring
    rw [e]
    exact mul_le_mul_of_nonneg_left d2 q0.le

/-- **Without distortion, pixels and points correspond exactly** (C111). -/
theorem pinhole_roundtrip {m m' : Model} {i : Image} (hd : m.calib.dir = .globalShutter) (hp : i.pose.Rigid) (he : m.calib.ext.Rigid)
    (h : m.prepare i = some m') (hu : 0 < m.calib.fu) (hv : 0 < m.calib.fv)
    (hk : m.calib.k1 = 0 ∧ m.calib.k2 = 0 ∧ m.calib.k3 = 0 ∧ m.calib.k4 = 0 ∧ m.calib.k5 = 0) (u v depth : ℝ) (h0 : 0 < depth) :
    ∃ p, m'.imageToWorld u v depth = some p ∧
      (∀ w, m'.worldToImageMoving false p w = some ⟨true, some (u, v), some depth⟩) ∧
      (∀ w, m'.worldToImageMoving true p w = some ⟨m.calib.inImage (u, v), some (u, v), some depth⟩) := by
  obtain ⟨d1, d2⟩ := imageToDirection_pinhole hu hv hk u v
  obtain ⟨h1, h2⟩ := prepare_global hd h
  refine ⟨_, by rw [(imageToWorld_global hd h _ _ _).1, d1]; rfl, ?_⟩
  set d : ℝ × ℝ := ((u - m.calib.cu) / m.calib.fu, (v - m.calib.cv) / m.calib.fv)
  set q : Vec := ![depth, -d.1 * depth, -d.2 * depth] with hq
  have e : (i.pose.mul m.calib.ext).inverse.apply (worldOf m.calib i q) = q := by
    unfold worldOf
    rw [← Iso.mul_apply i.pose, (hp.mul he).inverse_apply]
  have dq : (-(q 1) / q 0, -(q 2) / q 0) = d := by
    rw [hq]
    simp only [cons_val_zero, cons_val_one, cons_val]
    ext
    · simp only; field_simp
    · simp only; field_simp
  have px : m.calib.directionToImage d = (true, (u, v)) := by
    rw [d2 d]
    simp only [d]
    refine Prod.ext rfl (Prod.ext ?_ ?_)
    · simp only; field_simp; ring
    · simp only; field_simp; ring
  have key : ∀ check w, m'.worldToImageMoving check (worldOf m.calib i q) w = some (m.calib.finish check d depth) := by
    intro check w
    unfold Model.worldToImageMoving
    rw [h1, if_pos hd, h2]
    simp only [Option.map_some]
    rw [e]
    unfold Calib.cameraToImage
    rw [if_neg (show ¬ q 0 ≤ 0 from not_le.mpr h0), dq]
    rfl
  constructor
  · intro w
    rw [key]
    unfold Calib.finish
    rw [px]
    rfl
  · intro w
    rw [key]
    unfold Calib.finish
    rw [px]
    rfl

/-- **The image does not depend on the frame of the world** (C111). -/
theorem global_invariant {m m₁ m₂ : Model} {i : Image} (hd : m.calib.dir = .globalShutter) (hp : i.pose.Rigid) (he : m.calib.ext.Rigid)
    {g : Iso} (hg : g.Rigid) (h₁ : m.prepare i = some m₁) (h₂ : m.prepare { i with pose := g.mul i.pose } = some m₂) (check : Bool) (p v : Vec) :
    m₂.worldToImageMoving check (g.apply p) v = m₁.worldToImageMoving check p v := by
  obtain ⟨a1, a2⟩ := prepare_global hd h₁
  obtain ⟨b1, b2⟩ := prepare_global hd h₂
  obtain ⟨q, rfl, -⟩ := worldOf_bijective hp he p
  unfold Model.worldToImageMoving
  rw [a1, b1, if_pos hd, if_pos hd, a2, b2]
  simp only [Option.map_some]
  refine congrArg (fun x => some (m.calib.cameraToImage check x)) ?_
  unfold worldOf
  rw [← Iso.mul_apply g, ← Iso.mul_apply i.pose, ← Iso.mul_apply (g.mul i.pose), (hp.mul he).inverse_apply, ((hg.mul hp).mul he).inverse_apply]

/-- Rigid transforms: a quarter turn and a shift. -/
theorem rigid_example : Iso.Rigid ⟨!![0, -1, 0; 1, 0, 0; 0, 0, 1], ![1, 2, 3]⟩ := by
  unfold Iso.Rigid
  ext i j
  fin_cases i <;> fin_cases j <;> simp [Matrix.mul_apply, Fin.sum_univ_three]

end Verif.Camera
