import Verif.Props.SimMetrics

/-!
C79: what the shipped configurations give for collisions, leaving the road and red lights.
-/

namespace Verif.SimMetrics

open Verif.Estimators

/-- C79: with the shipped configurations, the likelihood of a logged event is the fraction of the simulations that agree, with a
thousandth of an event added for both outcomes. -/
theorem shipped_bool (gen : Bool) : ∀ c ∈ [(shipped gen).collision, (shipped gen).offroad, (shipped gen).redLight],
    RowWise (estimateBool c.estimator) fun x sims =>
      .fin (Real.log ((((sims.filter fun y => y == x).length : ℝ) + 1 / 1000) / (sims.length + 1 / 500))) := by
  have key : RowWise (bernoulliEstimate (1 / 1000)) fun x sims =>
      .fin (Real.log ((((sims.filter fun y => y == x).length : ℝ) + 1 / 1000) / (sims.length + 1 / 500))) := by
    have := bernoulliEstimate_spec (pseudo := 1 / 1000) (by norm_num)
    unfold boolProb at this
    norm_num at this ⊢
    exact this
  intro c hc
  simp only [List.mem_cons, List.not_mem_nil, or_false] at hc
  rcases hc with rfl | rfl | rfl <;> exact key

end Verif.SimMetrics
