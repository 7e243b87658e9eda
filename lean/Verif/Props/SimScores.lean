import Verif.Props.SimMetrics

/-!
Property C80 for histograms without a pseudocount: one logged value that no rollout comes close to makes the likelihood
zero.
-/

namespace Verif.SimMetrics

open Verif.Estimators

/-- The sum of scores: undefined if one of them is, else minus infinity if one of them is. -/
theorem sumScores_cases (l : List Score) :
    (Score.nan ∈ l → sumScores l = .nan) ∧ (Score.nan ∉ l → Score.negInf ∈ l → sumScores l = .negInf) ∧
      (Score.nan ∉ l → sumScores l ≠ .nan) := by
  induction l with
  | nil => simp [sumScores]
  | cons a l ih =>
    have e : sumScores (a :: l) = addScore a (sumScores l) := rfl
    obtain ⟨h1, h2, h3⟩ := ih
    rw [e]
    refine ⟨?_, ?_, ?_⟩
    · intro h
      rcases List.mem_cons.mp h with rfl | h
      · rfl
      · rw [h1 h]
        cases a <;> rfl
    · intro hn h
      simp only [List.mem_cons, not_or] at hn
      rcases List.mem_cons.mp h with rfl | h
      · have := h3 hn.2
        cases hs : sumScores l with
        | nan => exact absurd hs this
        | negInf => rfl
        | fin v => rfl
      · rw [h2 hn.2 h]
        cases a with
        | nan => exact absurd rfl hn.1
        | negInf => rfl
        | fin v => rfl
    · intro hn
      simp only [List.mem_cons, not_or] at hn
      have := h3 hn.2
      cases a with
      | nan => exact absurd rfl hn.1
      | negInf => cases hs : sumScores l with
        | nan => exact absurd hs this
        | negInf => simp [addScore]
        | fin v => simp [addScore]
      | fin v => cases hs : sumScores l with
        | nan => exact absurd hs this
        | negInf => simp [addScore]
        | fin v => simp [addScore]

/-- The average over the valid places, of which one has the score minus infinity. -/
theorem averageValid_negInf {t : T2 Score} {valid : T2 Bool} (hr : t.rows = valid.rows) (hc : t.cols = valid.cols)
    (hn : ∀ i j, i < valid.rows → j < valid.cols → valid.at' i j = true → t.at' i j ≠ .nan) {i j : ℕ}
    (hi : i < valid.rows) (hj : j < valid.cols) (hv : valid.at' i j = true) (h : t.at' i j = .negInf) :
    averageValid t valid = some .negInf := by
  unfold averageValid
  rw [if_neg (by push Not; exact ⟨hr, hc⟩)]
  dsimp only
  rw [(sumScores_cases _).2.1]
  · rfl
  · intro hm
    rw [List.mem_map] at hm
    obtain ⟨p, hp, hx⟩ := hm
    have hp := mem_cells.1 hp
    rw [hr, hc] at hp
    split at hx
    · next hv' => exact hn p.1 p.2 hp.1 hp.2 hv' hx
    · cases hx
  · rw [List.mem_map]
    exact ⟨(i, j), mem_cells.2 ⟨by omega, by omega⟩, by simp [hv, h]⟩

/-- An undefined score at a valid place makes the average undefined. -/
theorem averageValid_nan {t : T2 Score} {valid : T2 Bool} (hr : t.rows = valid.rows) (hc : t.cols = valid.cols) {i j : ℕ}
    (hi : i < valid.rows) (hj : j < valid.cols) (hv : valid.at' i j = true) (h : t.at' i j = .nan) :
    averageValid t valid = some .nan := by
  unfold averageValid
  rw [if_neg (by push Not; exact ⟨hr, hc⟩)]
  dsimp only
  rw [(sumScores_cases _).1]
  · rfl
  · rw [List.mem_map]
    exact ⟨(i, j), mem_cells.2 ⟨by omega, by omega⟩, by simp [hv, h]⟩

/-- C80: without a pseudocount, one valid logged value in a bin that holds none of the samples it is compared with makes
the likelihood of the feature zero, whatever the other values are. -/
theorem timeLikelihood_zero {c : FeatureConfig} {g : Histogram} (he : c.estimator = .histogram g) (hp : g.pseudo = 0)
    (hb : g.bins ≠ 0) (hlo : g.lo < g.hi) {f : Feature ℝ} {valid : T2 Bool} (hs : Shaped f valid.rows valid.cols) {o s : ℕ}
    (ho : o < valid.rows) (hst : s < valid.cols) (hv : valid.at' o s = true)
    (hfar : ∀ y ∈ pool c f.sim o s, binOf g y ≠ binOf g (f.log.at' o s)) :
    timeLikelihood c f valid = some (some 0) := by
  have hs' := hs
  obtain ⟨h1, h2, h3, h4, h5⟩ := hs'
  obtain ⟨t, ht⟩ : ∃ t, timeseries (estimateFloat c.estimator) c f.log f.sim = some t := by
    refine timeseries_ok c (h1.trans h3.symm) (h2.trans h4.symm) ?_
    intro l s hl _
    rw [he]
    exact histogramEstimate_ok.2 ⟨hl, hb, hlo⟩
  have hrow : RowWise (estimateFloat c.estimator) (histScore g) := by
    rw [he]
    exact histogramEstimate_spec g
  obtain ⟨_, _, r1, r2, r3⟩ := timeseries_spec hrow ht
  unfold timeLikelihood
  rw [ht]
  have hav : averageValid t valid = some .negInf := by
    refine averageValid_negInf (r1.trans h3) (r2.trans h4) ?_ ho hst hv ?_
    · intro i j hi hj _
      rw [r3 i j (by omega) (by omega)]
      have hne := pool_ne_nil (c := c) hs hi hj
      have hl : (0 : ℝ) < (pool c f.sim i j).length := by exact_mod_cast List.length_pos_iff.2 hne
      unfold histScore logRatio
      rw [hp, if_neg (by
        push Not
        constructor
        · positivity
        · simpa using List.length_pos_iff.2 hne)]
      split <;> simp
    · rw [r3 o s (by omega) (by omega)]
      exact histScore_empty hp (pool_ne_nil hs ho hst) hfar
  simp [hav, expScore]

/-- C80: the hypotheses are met: a value of 0 where the only rollout has 9. -/
theorem timeLikelihood_zero_example :
    timeLikelihood ⟨.histogram ⟨0, 10, 10, 0⟩, false, 1, false⟩ ⟨⟨1, 1, fun _ _ => 0⟩, ⟨1, 1, 1, fun _ _ _ => 9⟩⟩
      ⟨1, 1, fun _ _ => true⟩ = some (some 0) := by
  refine timeLikelihood_zero (g := ⟨0, 10, 10, 0⟩) rfl rfl (by simp) (by norm_num) ⟨rfl, rfl, rfl, rfl, by simp⟩
    (o := 0) (s := 0) (by simp) (by simp) rfl ?_
  intro y hy
  have : y = 9 := by
    simp only [pool] at hy
    simpa using hy
  subst this
  norm_num [binOf, edge, clipTo]

end Verif.SimMetrics
