import Verif.Props.Motion

/-! Exactly when every prediction contributes (C25). -/

namespace Verif.Motion

/-- **Exactly when every prediction contributes** (C25): no set with predictions comes after one without. -/
theorem all_contribute_iff (l : List Multi) :
    evaluated l = l.filter HasPredictions ↔ l.Pairwise fun a b => HasPredictions b = true → HasPredictions a = true := by
  unfold evaluated
  induction l with
  | nil => simp
  | cons a l ih =>
    rw [List.pairwise_cons]
    by_cases ha : HasPredictions a = true
    · rw [List.takeWhile_cons_of_pos ha, List.filter_cons_of_pos ha, List.cons_inj_right, ih]
      simp [ha]
    · rw [List.takeWhile_cons_of_neg ha, List.filter_cons_of_neg ha]
      constructor
      · intro h
        have hn : ∀ b ∈ l, ¬ HasPredictions b = true := List.filter_eq_nil_iff.1 h.symm
        refine ⟨fun b hb hc => absurd hc (hn b hb), ?_⟩
        exact List.pairwise_of_forall_mem_list fun x hx y hy hc => absurd hc (hn y hy)
      · rintro ⟨h, -⟩
        symm
        rw [List.filter_eq_nil_iff]
        intro b hb hc
        exact ha (h b hb hc)

/-- A set without predictions does no harm at the end, and suppresses the set after it otherwise. -/
theorem all_contribute_case :
    evaluated [exampleMulti, []] = [exampleMulti, []].filter HasPredictions ∧
      evaluated [[], exampleMulti] ≠ [[], exampleMulti].filter HasPredictions := by
  constructor
  · rw [all_contribute_iff]
    refine List.pairwise_pair.2 fun h => ?_
    cases h
  · rw [Ne, all_contribute_iff]
    intro h
    have := List.pairwise_pair.1 h rfl
    cases this

end Verif.Motion
