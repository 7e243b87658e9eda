import Verif.Props.Detection

/-!
C61, what the code does with pairs below the minimum heading accuracy, for every frame and matching: raising the minimum
takes away exactly the true positives that do not reach it, and leaves the false positives and false negatives as
they are.
-/

namespace Verif.Detection

variable {O ι : Type}

/-- The same evaluation with another minimum. -/
def Eval.withMin (e : Eval O ι) (x : ℚ) : Eval O ι := { e with c := { e.c with minHeadingAccuracy := x } }

theorem Eval.Usable.withMin {e : Eval O ι} (h : e.Usable) (x : ℚ) : (e.withMin x).Usable :=
  ⟨h.preds, h.gts, h.shards, h.iou, h.aff, h.pmLen, h.gmLen, h.inv⟩

open Classical in
/-- The pairs that are matched and count for the shard, but do not reach the minimum. -/
noncomputable def Eval.low (e : Eval O ι) : List Nat :=
  (List.range e.pm.length).filter fun i => decide (∃ j, e.pm[i]? = some (some j) ∧ e.Counts j ∧ e.ha i j ≤ e.c.minHeadingAccuracy)

open Classical in
/-- The pairs that are matched and count for the shard. -/
noncomputable def Eval.matchedPairs (e : Eval O ι) : List Nat :=
  (List.range e.pm.length).filter fun i => decide (∃ j, e.pm[i]? = some (some j) ∧ e.Counts j)

theorem tps_low (e : Eval O ι) : (e.tps e.pm.length).length + e.low.length = e.matchedPairs.length := by
  classical
  unfold Eval.tps Eval.low Eval.matchedPairs
  rw [length_filter_disjoint]
  · congr 1
    apply List.filter_congr
    intro i _
    rw [Bool.eq_iff_iff]
    simp only [Bool.or_eq_true, decide_eq_true_eq]
    constructor
    · rintro (⟨j, h1, h2, _⟩ | ⟨j, h1, h2, _⟩) <;> exact ⟨j, h1, h2⟩
    · rintro ⟨j, h1, h2⟩
      rcases lt_or_ge e.c.minHeadingAccuracy (e.ha i j) with h | h
      · exact Or.inl ⟨j, h1, h2, h⟩
      · exact Or.inr ⟨j, h1, h2, h⟩
  · rintro i ⟨h1, h2⟩
    obtain ⟨j, a1, _, a3⟩ := of_decide_eq_true h1
    obtain ⟨k, b1, _, b3⟩ := of_decide_eq_true h2
    rw [a1] at b1
    cases b1
    exact absurd a3 (not_lt.2 b3)

/-- Raising or lowering the minimum changes neither the false positives nor the false negatives, and the true positives
are the matched pairs less those that do not reach it: the objects of these are counted nowhere. -/
theorem low_heading_vanishes {e : Eval O ι} (h : e.Usable) (x : ℚ) (cutoff : ℚ) :
    ∃ m m', e.run cutoff = some m ∧ (e.withMin x).run cutoff = some m' ∧ m'.fps = m.fps ∧ m'.fns = m.fns ∧
      m.tps + e.low.length = e.matchedPairs.length ∧ m'.tps + (e.withMin x).low.length = e.matchedPairs.length := by
  obtain ⟨m, d, h1, h2, h3, h4, -⟩ := measure_spec h cutoff
  obtain ⟨m', d', k1, k2, k3, k4, -⟩ := measure_spec (h.withMin x) cutoff
  refine ⟨m, m', h1, k1, ?_, ?_, ?_, ?_⟩
  · rw [h3, k3]; rfl
  · rw [h4, k4]; rfl
  · rw [h2]; exact_mod_cast tps_low e
  · rw [k2]; exact_mod_cast tps_low (e.withMin x)

/-- In the frame with one pair of heading accuracy 1/4 the minimum 1/2 takes away the only true positive. -/
theorem low_heading_case : (turned { generators := [], levels := [], cutoffs := [] }).Usable ∧
    (((turned { generators := [], levels := [], cutoffs := [] }).run 0).map fun m => (m.tps, m.fps, m.fns)) = some (1, 0, 0) ∧
    ((((turned { generators := [], levels := [], cutoffs := [] }).withMin (1 / 2)).run 0).map fun m => (m.tps, m.fps, m.fns)) =
      some (0, 0, 0) :=
  ⟨turned_usable _, by decide +kernel, by decide +kernel⟩

end Verif.Detection
