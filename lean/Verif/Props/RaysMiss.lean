import Verif.Props.Rays

/-!
C145, exactly when both parameters are negative.
-/

namespace Verif.Rays

open Verif.Boxes (V3)

theorem slabMin_neg {size o d : ℝ} (hs : 0 ≤ size) :
    slabMin size o d < 0 ↔ ∃ t < 0, |o + t * (if d = 0 then 1 / 10 ^ 10 else d)| ≤ size / 2 := by
  constructor
  · intro h
    exact ⟨_, h, (slab_iff hs).1 ⟨le_refl _, slab_le hs⟩⟩
  · rintro ⟨t, ht, h⟩
    exact ((slab_iff hs).2 h).1.trans_lt ht

theorem slabMax_neg {size o d : ℝ} (hs : 0 ≤ size) :
    slabMax size o d < 0 ↔ ∀ t, |o + t * (if d = 0 then 1 / 10 ^ 10 else d)| ≤ size / 2 → t < 0 := by
  constructor
  · intro h t ht
    exact ((slab_iff hs).2 ht).2.trans_lt h
  · intro h
    exact h _ ((slab_iff hs).1 ⟨slab_le hs, le_refl _⟩)

/-- Both parameters are negative exactly if the line was, before it reached the origin of the ray, between the two planes of
every axis at some time, and is between those of some axis only then. -/
theorem both_negative_iff {size : V3} (hs : ∀ i, 0 ≤ size i) (o d : V3) :
    ((intersectOne size o d).first < 0 ∧ (intersectOne size o d).second < 0) ↔
      (∀ i, ∃ t < 0, |along o (bent d) t i| ≤ size i / 2) ∧
      ∃ i, ∀ t, |along o (bent d) t i| ≤ size i / 2 → t < 0 := by
  have h1 : (intersectOne size o d).first < 0 ↔ ∀ i, slabMin (size i) (o i) (d i) < 0 := by
    simp only [intersectOne, max_lt_iff, Fin.forall_fin_succ, IsEmpty.forall_iff, and_true]
    exact and_assoc
  have h2 : (intersectOne size o d).second < 0 ↔ ∃ i, slabMax (size i) (o i) (d i) < 0 := by
    simp only [intersectOne, min_lt_iff, Fin.exists_fin_succ, IsEmpty.exists_iff, or_false]
    exact or_assoc
  rw [h1, h2]
  exact and_congr (forall_congr' fun i => slabMin_neg (hs i)) (exists_congr fun i => slabMax_neg (hs i))

/-- A missed box need not be so: the ray of `miss_negative_violated` comes between the planes of the first axis later only. -/
theorem both_negative_case :
    ¬ ∃ t < 0, |along ![-5, 0, -2] (bent ![1, 1, 1]) t 0| ≤ (![2, 2, 2] : V3) 0 / 2 := by
  rintro ⟨t, ht, h⟩
  have := (abs_le.1 h).1
  simp [along, bent] at this
  linarith

/-- And a ray behind which the box lies has two negative parameters. -/
theorem both_negative_behind :
    (intersectOne ![2, 2, 2] ![5, 5, 5] ![1, 1, 1]).first < 0 ∧ (intersectOne ![2, 2, 2] ![5, 5, 5] ![1, 1, 1]).second < 0 := by
  refine (both_negative_iff (fun i => by fin_cases i <;> simp) _ _).2 ⟨fun i => ⟨-5, by norm_num, ?_⟩, 0, fun t ht => ?_⟩
  · fin_cases i <;> simp [along, bent]
  · have := (abs_le.1 ht).2
    simp [along, bent] at this
    linarith

end Verif.Rays
