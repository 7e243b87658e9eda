import Verif.Props.Measure

/-!
C59, exactly when the reported tracking metrics are those of the best cutoff, and what is reported otherwise.
-/

namespace Verif.Measure

/-- The reported metrics are those of a cutoff with the largest accuracy exactly if some accuracy is positive. -/
theorem tracking_metrics_best_iff (ms : List Trk) :
    (∃ m ∈ ms, m.objects ≠ 0 ∧ Reports (toTrkMetrics ms) m ∧ ∀ m' ∈ ms, m'.objects ≠ 0 → m'.mota ≤ m.mota) ↔
      ∃ m ∈ ms, m.objects ≠ 0 ∧ 0 < m.mota := by
  constructor
  · rintro ⟨m, hm, h0, hr, -⟩
    rcases toTrkMetrics_cases ms with ⟨-, n, hn⟩ | ⟨before, a, after, e1, e2, e3, -⟩
    · exfalso
      rw [hn] at hr
      obtain ⟨k1, -, k3, k4, k5, -⟩ := hr
      have : m.mota = 1 - (0 + 0 + 0) := by
        unfold Trk.mota
        simp only at k3 k4 k5
        rw [← k3, ← k4, ← k5]
      simp only at k1
      rw [← k1] at this
      norm_num at this
    · exact ⟨a, by simp [e1], e2, e3⟩
  · intro h
    exact (tracking_metrics_best_partial ms h).1

/-- Otherwise nothing but a number of objects is reported. -/
theorem tracking_metrics_else (ms : List Trk) (h : ∀ m ∈ ms, m.objects ≠ 0 → m.mota ≤ 0) :
    ∃ n, toTrkMetrics ms = { objects := n } := by
  rcases toTrkMetrics_cases ms with ⟨-, n, hn⟩ | ⟨before, a, after, e1, e2, e3, -⟩
  · exact ⟨n, hn⟩
  · exact absurd e3 (not_lt.mpr (h a (by simp [e1]) e2))

/-- The hypothesis is met by a cutoff with more errors than objects. -/
theorem tracking_metrics_else_case :
    let m : Trk := { misses := 5, fps := 10, objects := 5, cutoff := 1 / 2 }
    ∀ m' ∈ [m], m'.objects ≠ 0 → m'.mota ≤ 0 := by
  decide +kernel

end Verif.Measure
