import Verif.Props.RangeImage

/-! Exactly which points have no pixel (C44). -/

namespace Verif.RangeImage

open Verif.Boxes

/-- The azimuth -π itself falls half way beyond the last column: an even width rounds it out of the image, an odd one into the last column. -/
theorem colOf_behind (width : ℕ) : colOf width (-Real.pi) = if Even width then (width : ℤ) else (width : ℤ) - 1 := by
  unfold colOf
  have hx : (width : ℝ) - 1 + 1 / 2 - (-Real.pi + Real.pi) / (2 * Real.pi) * width = (width : ℝ) - 1 / 2 := by
    rw [neg_add_cancel, zero_div, zero_mul]; ring
  rw [hx]
  have hf : ⌊(width : ℝ) - 1 / 2⌋ = (width : ℤ) - 1 := by
    rw [Int.floor_eq_iff]; push_cast; constructor <;> linarith
  unfold Pca.roundEven
  rw [hf]
  push_cast
  rw [show (width : ℝ) - 1 / 2 - ((width : ℝ) - 1) = 1 / 2 by ring]
  by_cases h : Even width
  · rw [if_pos h]
    obtain ⟨m, hm⟩ := h
    have hod : ¬ (((width : ℤ) - 1) % 2 = 0) := by omega
    norm_num [hod]
  · rw [if_neg h]
    obtain ⟨m, hm⟩ := Nat.not_even_iff_odd.1 h
    have hev : ((width : ℤ) - 1) % 2 = 0 := by omega
    norm_num [hev]

/-- **Exactly which points have no pixel** (C44): those with a corrected azimuth of exactly -π, and these only if the width is even. -/
theorem project_none_iff {e : M4} (he : IsPose e) (inclination : List ℝ) {width : ℕ} (hw : 0 < width) (p : V3) :
    project e inclination width p = none ↔
      Even width ∧ atan2 (apply e⁻¹ p 1) (apply e⁻¹ p 0) + azCorrection e = -Real.pi := by
  have hp := Real.pi_pos
  by_cases hpi : atan2 (apply e⁻¹ p 1) (apply e⁻¹ p 0) + azCorrection e = -Real.pi
  · have hwr : wrap (-Real.pi) = -Real.pi := by
      unfold wrap; dsimp only
      rw [if_neg (by linarith), if_neg (by linarith)]; ring
    rw [project_eq he, hpi, hwr, colOf_behind]
    by_cases h : Even width
    · rw [if_pos h, if_neg (by omega)]
      simp [h]
    · rw [if_neg h, if_pos (by omega)]
      simp [h]
  · obtain ⟨x, hx⟩ := project_total_partial he inclination hw p hpi
    rw [hx]
    simp [hpi]

/-- Both cases occur: straight behind the vehicle, with a sensor that is turned to the right, the point has no pixel in an image of even width
and one in an image of odd width. -/
theorem project_behind_case (inclination : List ℝ) :
    project turned inclination 2650 ![-1, 0, 0] = none ∧ ∃ x, project turned inclination 2651 ![-1, 0, 0] = some x := by
  refine ⟨project_behind_violated inclination 2650 (by norm_num) (by decide), ?_⟩
  rw [← Option.ne_none_iff_exists']
  intro h
  exact absurd ((project_none_iff turned_pose inclination (by norm_num) _).1 h).1 (by decide)

end Verif.RangeImage
