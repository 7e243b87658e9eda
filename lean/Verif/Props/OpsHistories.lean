import Verif.Props.OpsEvaluator

/-!
C119: the detection evaluators in Python after any history, also with updates that raise.
-/

namespace Verif.Ops

/-! ### Specification -/

/-- The updates with complete predictions since the evaluator was last emptied, with their ground truths if those are complete.  `result`
empties it only if there is an update with ground truths. -/
def held (acc : List (PdTensors × Option GtBatch)) : List Call → List (PdTensors × Option GtBatch)
  | [] => acc
  | .update u :: h => held (acc ++ (u.pd.map fun p => (p, u.gt)).toList) h
  | .evaluate :: h => held acc h
  | .result :: h => held (if acc.all fun b => b.2.isNone then acc else []) h
  | .reset :: h => held [] h

/-- The updates of a list that are complete. -/
def whole (l : List (PdTensors × Option GtBatch)) : List (PdTensors × GtBatch) := l.filterMap fun b => b.2.map fun g => (b.1, g)

/-! ### Proofs -/

theorem all_none_filterMap (l : List (PdTensors × Option GtBatch)) : (l.all fun b => b.2.isNone) = true ↔ l.filterMap Prod.snd = [] := by
  simp [List.filterMap_eq_nil_iff]

theorem evaluate_error_iff (s : Evaluator) : s.evaluate = .error ↔ s.pds = [] ∨ s.gts = [] := by
  obtain ⟨p, g⟩ := s
  cases p <;> cases g <;> simp [Evaluator.evaluate, concatPd, concatGt]

theorem run_held (h : List Call) : ∀ acc : List (PdTensors × Option GtBatch),
    (Evaluator.run ⟨acc.map Prod.fst, acc.filterMap Prod.snd⟩ h).1 = ⟨(held acc h).map Prod.fst, (held acc h).filterMap Prod.snd⟩ := by
  induction h with
  | nil => intro acc; rfl
  | cons c h ih =>
    intro acc
    unfold Evaluator.run
    cases c with
    | update u =>
      obtain ⟨pd, gt⟩ := u
      have := ih (acc ++ (pd.map fun p => (p, gt)).toList)
      cases pd <;> cases gt <;> simpa [Evaluator.call, held] using this
    | evaluate => simpa [Evaluator.call, held] using ih acc
    | reset => simpa [Evaluator.call, held] using ih []
    | result =>
      by_cases ha : (acc.all fun b => b.2.isNone) = true
      · have he : Evaluator.evaluate ⟨acc.map Prod.fst, acc.filterMap Prod.snd⟩ = .error :=
          (evaluate_error_iff _).2 (.inr ((all_none_filterMap acc).1 ha))
        simp only [Evaluator.call, he, held, ha, if_true]
        exact ih acc
      · have he : Evaluator.evaluate ⟨acc.map Prod.fst, acc.filterMap Prod.snd⟩ ≠ .error := by
          rw [Ne, evaluate_error_iff]
          rintro (e | e)
          · simp only [List.map_eq_nil_iff] at e; subst e; simp at ha
          · exact ha ((all_none_filterMap acc).2 e)
        have : (Evaluator.call ⟨acc.map Prod.fst, acc.filterMap Prod.snd⟩ .result).1 = {} := by
          unfold Evaluator.call
          cases hv : Evaluator.evaluate ⟨acc.map Prod.fst, acc.filterMap Prod.snd⟩ with
          | error => exact absurd hv he
          | none => rfl
          | value p g => rfl
        simp only [this, held, ha]
        exact ih []

theorem pending_held (h : List Call) : ∀ acc, pending (whole acc) h = whole (held acc h) := by
  induction h with
  | nil => intro acc; rfl
  | cons c h ih =>
    intro acc
    cases c with
    | update u =>
      obtain ⟨pd, gt⟩ := u
      have := ih (acc ++ (pd.map fun p => (p, gt)).toList)
      cases pd <;> cases gt <;> simpa [pending, held, whole] using this
    | evaluate => exact ih acc
    | reset => exact ih []
    | result =>
      unfold pending held
      split
      · rename_i ha
        rw [← ih acc]
        congr 1
        symm
        simpa [whole, List.filterMap_eq_nil_iff] using ha
      · exact ih []

/-- C119: after any history the evaluator holds the predictions of all updates with complete predictions since it was last emptied, and
the ground truths of those that have them; it evaluates exactly if there are some. -/
theorem evaluator_any_history (h : List Call) :
    (Evaluator.run {} h).1 = ⟨(held [] h).map Prod.fst, (held [] h).filterMap Prod.snd⟩ ∧
    ((Evaluator.run {} h).1.evaluate = .error ↔ ∀ b ∈ held [] h, b.2 = none) := by
  have hr : (Evaluator.run {} h).1 = _ := run_held h []
  refine ⟨hr, ?_⟩
  rw [hr, evaluate_error_iff]
  simp only [List.map_eq_nil_iff, List.filterMap_eq_nil_iff]
  constructor
  · rintro (e | e)
    · simp [e]
    · exact e
  · exact .inr

/-- C119: the evaluator holds what was documented exactly if none of the updates since it was last emptied raised because of the ground
truths. -/
theorem evaluator_history_iff (h : List Call) :
    (Evaluator.run {} h).1 = ⟨(pending [] h).map Prod.fst, (pending [] h).map Prod.snd⟩ ↔ ∀ b ∈ held [] h, b.2.isSome := by
  have hp : pending [] h = whole (held [] h) := pending_held h []
  rw [(evaluator_any_history h).1, hp, Evaluator.mk.injEq]
  generalize held [] h = l
  have e2 : l.filterMap Prod.snd = (whole l).map Prod.snd := by
    unfold whole; rw [List.map_filterMap]; congr 1; funext b; cases b.2 <;> rfl
  simp only [e2, and_true]
  constructor
  · intro e
    have : (whole l).length = l.length := by simpa using (congrArg List.length e).symm
    unfold whole at this
    rw [List.filterMap_length_eq_length] at this
    simpa using this
  · intro ha
    induction l with
    | nil => rfl
    | cons b l ih =>
      obtain ⟨g, hg⟩ := Option.isSome_iff_exists.1 (ha b (by simp))
      have := ih (by unfold whole; rw [List.map_filterMap]; congr 1; funext b; cases b.2 <;> rfl) fun c hc => ha c (by simp [hc])
      simp only [whole] at this ⊢
      rw [List.filterMap_cons_some (by rw [hg]; rfl)]
      simp [this]

/-- A raising update, `result`, which raises too, and a complete update: the predictions of the first are still there. -/
theorem evaluator_history_case : (held [] [Call.update ⟨some demoPd, none⟩, .result,
      .update ⟨some demoPd, some ⟨5, [], [], [], [], none⟩⟩]).length = 2 ∧
    (pending [] [Call.update ⟨some demoPd, none⟩, .result, .update ⟨some demoPd, some ⟨5, [], [], [], [], none⟩⟩]).length = 1 := ⟨rfl, rfl⟩

end Verif.Ops
