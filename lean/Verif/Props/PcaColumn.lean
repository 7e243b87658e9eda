import Verif.Props.Pca

/-! Exactly which columns get a factor that can be used (C64). -/

namespace Verif.Pca

variable {K : Type} [Field K] [LinearOrder K] [IsStrictOrderedRing K] [FloorRing K]

/-- **Exactly which columns can be quantised with the factor chosen for them** (C64): those with a non-zero value. -/
theorem bucketed_iff (column : List K) (n : Nat) (hn : 0 < n) (hmax : (n : ℤ) ≤ int32Max) (hc : column ≠ []) :
    (∃ q, bucketed column n = some q ∧ ∀ x ∈ column, ∃ c, quantize q x = some c) ↔ ∃ x ∈ column, x ≠ 0 := by
  constructor
  · rintro ⟨q, hq, hx⟩
    by_contra hz
    have hz' : ∀ x ∈ column, x = 0 := by
      intro x hx
      by_contra h
      exact hz ⟨x, hx, h⟩
    have hcol : column.map (fun x => |x|) = List.replicate column.length 0 := by
      rw [List.eq_replicate_iff]
      refine ⟨by simp, ?_⟩
      intro b hb
      obtain ⟨x, hx, rfl⟩ := List.mem_map.1 hb
      rw [hz' x hx, abs_zero]
    have hfold : ∀ k : ℕ, (List.replicate k (0 : K)).foldl max 0 = 0 := by
      intro k
      induction k with
      | zero => rfl
      | succ k ih => rw [List.replicate_succ, List.foldl_cons, max_self, ih]
    cases column with
    | nil => exact hc rfl
    | cons a l =>
      unfold bucketed at hq
      rw [hcol] at hq
      simp only [List.length_cons, List.replicate_succ] at hq
      rw [if_neg (by omega), hfold, zero_div] at hq
      obtain ⟨c, h⟩ := hx a (List.mem_cons_self ..)
      cases hq
      simp [quantize] at h
  · intro h
    obtain ⟨q, h1, -, h3, -⟩ := bucketed_codes_partial column n hn hmax h
    exact ⟨q, h1, fun x hx => (h3 x hx).imp fun c hc => hc.1⟩

/-- A column with a zero among its values can be quantised, a column of zeros cannot. -/
theorem bucketed_case :
    (∃ q, bucketed [(0 : ℚ), -3] 8 = some q ∧ ∀ x ∈ [(0 : ℚ), -3], ∃ c, quantize q x = some c) ∧
      ¬ ∃ q, bucketed [(0 : ℚ), 0] 8 = some q ∧ ∀ x ∈ [(0 : ℚ), 0], ∃ c, quantize q x = some c := by
  constructor
  · rw [bucketed_iff _ _ (by norm_num) (by decide) (by simp)]; simp
  · rw [bucketed_iff _ _ (by norm_num) (by decide) (by simp)]; simp

end Verif.Pca
