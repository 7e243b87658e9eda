import Verif.Props.PoseBox
import Mathlib.Tactic.Ring
import Mathlib.Tactic.Linarith
import Mathlib.Tactic.LinearCombination

/-! Exactly which boxes have the same points as the box turned the other way. -/

namespace Verif.Pose

open Verif.Boxes

/-- The rectangle with half sides `A` and `B` does not change if it is turned by the angle with cosine `C` and sine `S` only if that is a
multiple of a right angle, and of two unless it is a square. -/
theorem turned_rectangle {A B C S : ℝ} (hA : 0 < A) (hB : 0 < B) (h1 : C ^ 2 + S ^ 2 = 1) (h2 : |C * A - S * B| ≤ A)
    (h3 : |S * A + C * B| ≤ B) (h4 : |C * A + S * B| ≤ A) (h5 : |S * A - C * B| ≤ B) : S = 0 ∨ (A = B ∧ C = 0) := by
  rw [abs_le] at h2 h3 h4 h5
  have hc0 := abs_nonneg C
  have hs0 := abs_nonneg S
  have e1 : |C| * A + |S| * B ≤ A := by
    rcases abs_cases C with ⟨hc, _⟩ | ⟨hc, _⟩ <;> rcases abs_cases S with ⟨hs, _⟩ | ⟨hs, _⟩ <;> rw [hc, hs] <;> linarith [h2.1, h2.2, h4.1, h4.2]
  have e2 : |S| * A + |C| * B ≤ B := by
    rcases abs_cases C with ⟨hc, _⟩ | ⟨hc, _⟩ <;> rcases abs_cases S with ⟨hs, _⟩ | ⟨hs, _⟩ <;> rw [hc, hs] <;> linarith [h3.1, h3.2, h5.1, h5.2]
  have e3 : |C| ^ 2 + |S| ^ 2 = 1 := by rw [sq_abs, sq_abs]; exact h1
  by_cases hS : S = 0
  · exact .inl hS
  right
  have hSp : 0 < |S| := abs_pos.2 hS
  have hC1 : |C| < 1 := by nlinarith
  have f1 : |S| * B ≤ (1 - |C|) * A := by linarith
  have f2 : |S| * A ≤ (1 - |C|) * B := by linarith
  have f3 : |S| ^ 2 * (A * B) ≤ (1 - |C|) ^ 2 * (A * B) := by
    have := mul_le_mul f1 f2 (by positivity) (mul_nonneg (by linarith) hA.le)
    nlinarith
  have f4 : |S| ^ 2 ≤ (1 - |C|) ^ 2 := le_of_mul_le_mul_right f3 (mul_pos hA hB)
  have f5 : |C| = 0 := by nlinarith
  have f6 : |S| = 1 := by
    rw [f5] at e3
    nlinarith
  rw [f5, f6] at f1 f2
  exact ⟨by linarith, abs_eq_zero.1 f5⟩

/-- C35 exactly: membership and displacement of a box with a volume agree for all points exactly when its heading is a multiple of a right
angle, or its base is a square and its heading an odd multiple of half a right angle. -/
theorem boxDisplacement_within_iff {b : Box} (hb : ∀ j, 0 < b.dim j) :
    (∀ p : V3, boxDisplacement p b = some 0 ↔ isWithin3d p b = some true) ↔
      Real.sin b.heading * Real.cos b.heading = 0 ∨ (b.dim 0 = b.dim 1 ∧ Real.cos b.heading ^ 2 = Real.sin b.heading ^ 2) := by
  have hw : ∀ p : V3, isWithin3d p b = some true ↔ Inside p b := by
    intro p
    rw [isWithin3d_spec]
    simp only [Option.some.injEq, decide_eq_true_eq]
    rw [within_inside]
    exact ⟨And.right, fun h => ⟨fun j => (hb j).ne', h⟩⟩
  have hcs := Real.cos_sq_add_sin_sq b.heading
  have h0 := hb 0
  have h1 := hb 1
  have h2 := hb 2
  constructor
  · intro h
    have key : ∀ x y : ℝ, |x| ≤ b.dim 0 / 2 → |y| ≤ b.dim 1 / 2 →
        |(Real.cos b.heading ^ 2 - Real.sin b.heading ^ 2) * x - 2 * (Real.sin b.heading * Real.cos b.heading) * y| ≤ b.dim 0 / 2 ∧
        |2 * (Real.sin b.heading * Real.cos b.heading) * x + (Real.cos b.heading ^ 2 - Real.sin b.heading ^ 2) * y| ≤ b.dim 1 / 2 := by
      intro x y hx hy
      let p : V3 := ![b.center 0 + (x * Real.cos b.heading - y * Real.sin b.heading),
        b.center 1 + (x * Real.sin b.heading + y * Real.cos b.heading), b.center 2]
      have p0 : p 0 = b.center 0 + (x * Real.cos b.heading - y * Real.sin b.heading) := rfl
      have p1 : p 1 = b.center 1 + (x * Real.sin b.heading + y * Real.cos b.heading) := rfl
      have p2 : p 2 = b.center 2 := rfl
      have hin : Inside p b := by
        rw [inside_iff, p0, p1, p2]
        refine ⟨?_, ?_, by rw [sub_self, abs_zero]; linarith⟩
        · have : (b.center 0 + (x * Real.cos b.heading - y * Real.sin b.heading) - b.center 0) * Real.cos b.heading +
              (b.center 1 + (x * Real.sin b.heading + y * Real.cos b.heading) - b.center 1) * Real.sin b.heading = x := by
            linear_combination x * hcs
          rwa [this]
        · have : (b.center 1 + (x * Real.sin b.heading + y * Real.cos b.heading) - b.center 1) * Real.cos b.heading -
              (b.center 0 + (x * Real.cos b.heading - y * Real.sin b.heading) - b.center 0) * Real.sin b.heading = y := by
            linear_combination y * hcs
          rwa [this]
      have hfl := (boxDisplacement_zero (fun j => (hb j).le) p).1 ((h p).2 ((hw p).2 hin))
      rw [inside_iff] at hfl
      simp only [flip, Real.cos_neg, Real.sin_neg, p0, p1] at hfl
      obtain ⟨g1, g2, -⟩ := hfl
      constructor
      · convert g1 using 2; ring
      · convert g2 using 2; ring
    have a0 : |b.dim 0 / 2| ≤ b.dim 0 / 2 := by rw [abs_of_pos (by linarith)]
    have a1 : |b.dim 1 / 2| ≤ b.dim 1 / 2 := by rw [abs_of_pos (by linarith)]
    have k1 := key (b.dim 0 / 2) (b.dim 1 / 2) a0 a1
    have k2 := key (b.dim 0 / 2) (-(b.dim 1 / 2)) a0 (by rwa [abs_neg])
    rcases turned_rectangle (A := b.dim 0 / 2) (B := b.dim 1 / 2) (C := Real.cos b.heading ^ 2 - Real.sin b.heading ^ 2)
      (S := 2 * (Real.sin b.heading * Real.cos b.heading)) (by linarith) (by linarith)
      (by linear_combination (Real.cos b.heading ^ 2 + Real.sin b.heading ^ 2 + 1) * hcs) k1.1 k1.2
      (by convert k2.1 using 2; ring) (by convert k2.2 using 2; ring) with hS | ⟨hAB, hC⟩
    · left; linarith
    · right; exact ⟨by linarith, by linarith⟩
  · rintro (h | ⟨hd, hq⟩) p
    · exact boxDisplacement_within_partial hb h p
    · rw [boxDisplacement_zero (fun j => (hb j).le), hw, inside_iff, inside_iff]
      simp only [flip, Real.cos_neg, Real.sin_neg, hd]
      rcases sq_eq_sq_iff_eq_or_eq_neg.1 hq with e | e
      · rw [e]
        constructor
        · rintro ⟨g1, g2, g3⟩
          refine ⟨by convert g2 using 2; ring, ?_, g3⟩
          rw [← abs_neg]; convert g1 using 2; ring
        · rintro ⟨g1, g2, g3⟩
          refine ⟨?_, by convert g1 using 2; ring, g3⟩
          rw [← abs_neg]; convert g2 using 2; ring
      · rw [e]
        constructor
        · rintro ⟨g1, g2, g3⟩
          refine ⟨?_, by convert g1 using 2; ring, g3⟩
          rw [← abs_neg]; convert g2 using 2; ring
        · rintro ⟨g1, g2, g3⟩
          refine ⟨by convert g2 using 2; ring, ?_, g3⟩
          rw [← abs_neg]; convert g1 using 2; ring

/-- A cube turned by 45 degrees: membership and displacement agree. -/
theorem boxDisplacement_within_iff_case (p : V3) :
    boxDisplacement p ⟨0, ![1, 1, 1], Real.pi / 4⟩ = some 0 ↔ isWithin3d p ⟨0, ![1, 1, 1], Real.pi / 4⟩ = some true := by
  refine (boxDisplacement_within_iff (b := ⟨0, ![1, 1, 1], Real.pi / 4⟩) ?_).2 (.inr ⟨rfl, ?_⟩) p
  · intro j
    fin_cases j <;> exact one_pos
  · rw [Real.cos_pi_div_four, Real.sin_pi_div_four]

end Verif.Pose
