import Verif.Props.CameraTime
import Mathlib.Analysis.Complex.Trigonometric

/-!
# Exactly when the motion that dataset.proto describes is followed (C112)
-/

namespace Verif.Camera

open Matrix

private theorem skew_injective {v w : Vec} (h : skew v = skew w) : v = w := by
  have a : (skew v) 2 1 = (skew w) 2 1 := by rw [h]
  have b : (skew v) 0 2 = (skew w) 0 2 := by rw [h]
  have c : (skew v) 1 0 = (skew w) 1 0 := by rw [h]
  funext k
  fin_cases k
  · simpa [skew] using a
  · simpa [skew] using b
  · simpa [skew] using c

/-- **C112, exactly**: a motion whose angular velocity is in the global frame, as dataset.proto has it, is followed exactly if the pose leaves the
angular velocity where it is: the vehicle turns around the axis around which it has turned, or not at all. -/
theorem omega_frame_iff {c : Calib} {i : Image} {r : Rolling} (h : c.prepareRolling i = some r) (hp : i.pose.Proper) (he : c.ext.Proper)
    {pose : ℝ → Iso} (hm : MovesGlobal i pose) :
    (∀ k l, HasDerivAt (fun t => ((pose t).mul c.ext).rotᵀ k l) (r.skewOmegaDcm k l) 0) ↔ i.pose.rot *ᵥ i.omega = i.omega := by
  obtain ⟨tp, range, -, -, -, -, -, -, h7, h8, h9, h10, h11, -⟩ := prepareRolling_some h
  obtain ⟨p1, p2⟩ := hp
  obtain ⟨e1, e2⟩ := he
  have er : c.ext.rot * c.ext.rotᵀ = 1 := mul_eq_one_comm.1 e1
  have used : ∀ k l, r.skewOmegaDcm k l = (i.pose.rot * skew i.omega * c.ext.rot) l k := by
    intro k l
    rw [h11, skew_turn' e1 e2, ← transpose_apply (i.pose.rot * skew i.omega * c.ext.rot)]
    refine congrFun (congrFun ?_ k) l
    unfold Iso.mul
    simp only [transpose_mul, skew_transpose, Matrix.mul_assoc, Matrix.neg_mul, Matrix.mul_neg]
    rw [← Matrix.mul_assoc c.ext.rot c.ext.rotᵀ, er, Matrix.one_mul]
  have d : ∀ k l, HasDerivAt (fun t => ((pose t).mul c.ext).rotᵀ k l) ((skew i.omega * i.pose.rot * c.ext.rot) l k) 0 :=
    fun k l => hasDerivAt_mul_const hm.rot c.ext.rot l k
  have key : i.pose.rot * skew i.omega = skew (i.pose.rot *ᵥ i.omega) * i.pose.rot := by
    rw [skew_turn p1 p2, Matrix.mul_assoc _ i.pose.rotᵀ, p1, Matrix.mul_one]
  have pr : i.pose.rot * i.pose.rotᵀ = 1 := mul_eq_one_comm.1 p1
  constructor
  · intro hd
    have e : i.pose.rot * skew i.omega * c.ext.rot = skew i.omega * i.pose.rot * c.ext.rot := by
      ext l k
      rw [← used]
      exact (hd k l).unique (d k l)
    have e := congrArg (· * c.ext.rotᵀ * i.pose.rotᵀ) e
    simp only [key, Matrix.mul_assoc] at e
    rw [← Matrix.mul_assoc c.ext.rot, er, Matrix.one_mul, pr, Matrix.mul_one, Matrix.mul_one] at e
    exact skew_injective e
  · intro ho k l
    rw [used, key, ho]
    exact d k l

/-- A case: on level ground, with any heading and any rate of turn, the global frame and that of the vehicle agree. -/
theorem omega_frame_case (a w : ℝ) (i : Image) (hr : i.pose.rot = !![Real.cos a, -Real.sin a, 0; Real.sin a, Real.cos a, 0; 0, 0, 1])
    (hw : i.omega = ![0, 0, w]) : i.pose.Proper ∧ i.pose.rot *ᵥ i.omega = i.omega := by
  refine ⟨⟨?_, ?_⟩, ?_⟩
  · unfold Iso.Rigid
    rw [hr]
    have h := Real.sin_sq_add_cos_sq a
    ext k l
    fin_cases k <;> fin_cases l <;> simp [Matrix.mul_apply, Fin.sum_univ_three] <;> nlinarith
  · rw [hr, det_fin_three]
    have h := Real.sin_sq_add_cos_sq a
    simp
    nlinarith
  · rw [hr, hw]
    funext k
    fin_cases k <;> simp [mulVec, dotProduct, Fin.sum_univ_three]

end Verif.Camera
